import Verif.Proofs.Free
import Verif.Props.Live
import Verif.Props.Errors
/-! C79: image buffers that answer anything. -/
namespace Jpeg

namespace Spec
/-- What a method without a `Result` can do: return a value or panic (with defined behaviour). -/
def Answers {α : Type} (r : R α) : Prop := (∃ a, r = .ok a) ∨ ∃ k, k ≠ .ub ∧ r = .error (.panic k)

/-- Every call of a method of the image buffer, in any state, returns a value or panics. Nothing is said about the values: they may differ from call to call. -/
structure AnswersAll {τ : Type} (B : FreeImage τ) : Prop where
  color : ∀ t, Answers (B.color t).2
  width : ∀ t, Answers (B.width t).2
  height : ∀ t, Answers (B.height t).2
  fill : ∀ t y rows, Answers (B.fill t y rows).2
end Spec

theorem Spec.Answers.only {A : Fail → Prop} (hA : Lax A) {α : Type} {r : R α} (h : Spec.Answers r) : ROnly A r := by
  rcases h with ⟨a, rfl⟩ | ⟨k, hk, rfl⟩
  · exact .ok a
  · exact .panic hA hk

/-- C79: an image buffer whose `width`, `height` and color type are constant and without side effects leads to the program of Model/Live.lean: everything proved
there, and (C65_same_program, C65_stream) everything proved about `encodeImage`, holds for it. -/
theorem C79_constant (pf : Platform) (simd : Bool) (e : Encoder) (ct : JpegColorType) (w h : UInt16) {σ τ : Type} (S : Sink σ) (B : FreeImage τ)
    (hc : ∀ t, B.color t = (t, .ok ct)) (hw : ∀ t, B.width t = (t, .ok w)) (hh : ∀ t, B.height t = (t, .ok h)) (s : σ) (t : τ) :
    (e.encodeImageFree pf simd).run S B s t = (e.encodeImageLive pf simd ct w h).run S ⟨B.fill⟩ s t := by
  rw [← encodeImageFree_close ct w h pf]
  generalize e.encodeImageFree pf simd = p
  induction p generalizing s t with
  | done r => rfl
  | write c k ih => exact ih _ _ _
  | width k ih => simp only [FProg.run, FProg.close, hw]; exact ih _ _ _
  | height k ih => simp only [FProg.run, FProg.close, hh]; exact ih _ _ _
  | color k ih => simp only [FProg.run, FProg.close, hc]; exact ih _ _ _
  | fill y rows k ih => exact ih _ _ _

/-- C79: with pure answers it is the program of the model. -/
theorem C79_pure (pf : Platform) (simd : Bool) (e : Encoder) (image : ImageBuffer) {σ : Type} (S : Sink σ) (s : σ) :
    let r := (e.encodeImageFree pf simd).run S (⟨fun t => (t, .ok image.colorType), fun t => (t, .ok image.width), fun t => (t, .ok image.height),
      fun t y rows => (t, image.fillBuffers y rows)⟩ : FreeImage Unit) s ()
    (r.1, r.2.2) = (e.encodeImage pf simd image).run S s := by
  intro r
  have h1 : r = _ := C79_constant pf simd e image.colorType image.width image.height S _ (fun _ => rfl) (fun _ => rfl) (fun _ => rfl) s ()
  have h2 := C65_same_program pf simd e image.colorType image.width image.height image.fillBuffers S s ()
  rw [h1]
  exact h2.1

/-- C79: whatever the image buffer answers at each of the calls, and whatever the writer does, `encode_image` ends, without undefined behaviour: it returns `Ok`,
panics, or returns an error of the writer, or the error for an empty image, the latter with nothing written. -/
theorem C79_safe {pf : Platform} (hpf : pf.Valid) {q : UInt8} {calls : List Spec.Call} {e : Encoder} (hc : Configured pf q calls e) (simd : Bool) {σ τ : Type} (S : Sink σ)
    (B : FreeImage τ) (hB : Spec.AnswersAll B) (s : σ) (t : τ) :
    let r := (e.encodeImageFree pf simd).run S B s t
    r.2.2 = .ok () ∨ (∃ k, k ≠ .ub ∧ r.2.2 = .error (.panic k)) ∨ (∃ x, Spec.FromWriter S x ∧ r.2.2 = .error (.err x)) ∨
      ∃ w h, r.2.2 = .error (.err (.zeroImageDimensions w h)) ∧ r.1 = s := by
  intro r
  let A : Fail → Prop := fun f => f ≠ .panic .ub ∧ f ≠ .diverge ∧ ∀ x, f = .err x → Spec.FromWriter S x
  have hA : Lax A := ⟨fun k hk => ⟨by simpa using hk, by simp, fun x h => by cases h⟩⟩
  have run : ∀ {α : Type} {p : FProg (R (α × BitState))} {I : α → BitState → Prop}, p.Only A I → ∀ s t, ROnly A (p.run S B s t).2.2 := fun h s t =>
    h.run S B (fun w c x h => ⟨by simp, by simp, fun y hy => by cases hy; exact ⟨w, c, h⟩⟩) (fun t => (hB.width t).only hA) (fun t => (hB.height t).only hA)
      (fun t => (hB.color t).only hA) (fun t y rows => (hB.fill t y rows).only hA) s t
  have fromA : ∀ {α : Type} {x : R α}, ROnly A x → (∃ a, x = .ok a) ∨ (∃ k, k ≠ .ub ∧ x = .error (.panic k)) ∨ (∃ y, Spec.FromWriter S y ∧ x = .error (.err y)) := by
    intro α x hx
    rcases x with f | a
    · obtain ⟨h1, h2, h3⟩ := hx f rfl
      cases f with
      | panic k => exact Or.inr (Or.inl ⟨k, fun h => h1 (by rw [h]), rfl⟩)
      | diverge => exact absurd rfl h2
      | err y => exact Or.inr (Or.inr ⟨y, h3 y rfl, rfl⟩)
    · exact Or.inl ⟨a, rfl⟩
  have hr : r = (((e.encodeImageInternalF pf (if simd then avx2Operations else defaultOperations) (BitState.init pf)).run S B s t).1,
      ((e.encodeImageInternalF pf (if simd then avx2Operations else defaultOperations) (BitState.init pf)).run S B s t).2.1,
      ((e.encodeImageInternalF pf (if simd then avx2Operations else defaultOperations) (BitState.init pf)).run S B s t).2.2.map (·.1)) := by
    show (FProg.bind _ _).run S B s t = _
    rw [FProg.run_bind]
    rfl
  rw [hr]
  clear hr r
  suffices h : ∀ x, x = (e.encodeImageInternalF pf (if simd then avx2Operations else defaultOperations) (BitState.init pf)).run S B s t →
      ROnly A x.2.2 ∨ (∃ w h, x.2.2 = .error (.err (.zeroImageDimensions w h))) ∧ x.1 = s by
    rcases h _ rfl with h | ⟨⟨w, h', h⟩, h2⟩
    · rcases fromA h with ⟨a, h⟩ | ⟨k, hk, h⟩ | ⟨y, hy, h⟩
      · exact Or.inl (by rw [h]; rfl)
      · exact Or.inr (Or.inl ⟨k, hk, by rw [h]; rfl⟩)
      · exact Or.inr (Or.inr (Or.inl ⟨y, hy, by rw [h]; rfl⟩))
    · exact Or.inr (Or.inr (Or.inr ⟨w, h', by rw [h]; rfl, h2⟩))
  rintro x rfl
  have hzero : ∀ b t, ROnly A ((zeroDimensionsF b).run S B s t).2.2 ∨ (∃ w h, ((zeroDimensionsF b).run S B s t).2.2 = .error (.err (.zeroImageDimensions w h))) ∧
      ((zeroDimensionsF b).run S B s t).1 = s := by
    intro b t
    have e1 : (zeroDimensionsF b).run S B s t = (match (B.width t).2 with
        | .error f => (s, (B.width t).1, .error f)
        | .ok w => match (B.height (B.width t).1).2 with
          | .error f => (s, (B.height (B.width t).1).1, .error f)
          | .ok h => (s, (B.height (B.width t).1).1, .error (.err (.zeroImageDimensions w h)))) := by
      show FProg.run S B (FProg.width _) s t = _
      simp only [FProg.run, FM.answer]
      cases (B.width t).2 with
      | error f => rfl
      | ok w =>
        show FProg.run S B (FProg.height _) s _ = _
        simp only [FProg.run, FM.answer]
        cases (B.height (B.width t).1).2 <;> rfl
    rw [e1]
    have hwt := (hB.width t).only hA
    have hht := (hB.height (B.width t).1).only hA
    cases hw : (B.width t).2 with
    | error f => exact Or.inl (.error (hwt f hw))
    | ok w =>
      cases hh : (B.height (B.width t).1).2 with
      | error f => exact Or.inl (.error (hht f hh))
      | ok h => exact Or.inr ⟨⟨w, h, rfl⟩, rfl⟩
  have h0 : FreeOk (BitState.init pf) := by
    have := hpf.wordBits_eq
    constructor <;> dsimp only [BitState.init] <;> omega
  have hchk : ∀ t, ROnly A (((e.encodeCheckedF pf (if simd then avx2Operations else defaultOperations)) (BitState.init pf)).run S B s t).2.2 :=
    fun t => run (encodeCheckedF_only hA hpf simd hc.wf.scans _ h0) s t
  have hwt := (hB.width t).only hA
  have hht := (hB.height (B.width t).1).only hA
  show ROnly A (FProg.run S B (FProg.width _) s t).2.2 ∨ (∃ w h, (FProg.run S B (FProg.width _) s t).2.2 = _) ∧ (FProg.run S B (FProg.width _) s t).1 = s
  simp only [FProg.run, FM.answer]
  cases hw : (B.width t).2 with
  | error f => exact Or.inl (.error (hwt f hw))
  | ok w =>
    simp only [FProg.bind]
    by_cases hw0 : w = 0
    · simp only [if_pos hw0]
      exact hzero _ _
    · simp only [if_neg hw0]
      show ROnly A (FProg.run S B (FProg.height _) s _).2.2 ∨ (∃ w h, (FProg.run S B (FProg.height _) s _).2.2 = _) ∧ (FProg.run S B (FProg.height _) s _).1 = s
      simp only [FProg.run, FM.answer]
      cases hh : (B.height (B.width t).1).2 with
      | error f => exact Or.inl (.error (hht f hh))
      | ok h =>
        simp only [FProg.bind]
        by_cases hh0 : h = 0
        · simp only [if_pos hh0]
          exact hzero _ _
        · simp only [if_neg hh0]
          exact Or.inl (hchk _)

/-! ### Concrete cases -/

/-- A buffer of one grey pixel whose height is 1 except when it is asked for the second time, for the frame header: then it is 9. -/
def fickle : FreeImage Nat :=
  ⟨fun t => (t, .ok .luma), fun t => (t, .ok 1), fun t => (t + 1, .ok (if t = 1 then 9 else 1)), fun t _ rows => (t, .ok ⟨rows.b0.push 200, rows.b1, rows.b2, rows.b3⟩)⟩

/-- The hypotheses of `C79_safe` are met by it. -/
example : Spec.AnswersAll fickle := ⟨fun _ => .inl ⟨_, rfl⟩, fun _ => .inl ⟨_, rfl⟩, fun _ => .inl ⟨_, rfl⟩, fun _ _ _ => .inl ⟨_, rfl⟩⟩

/-- C79: that the answers stay the same is needed for a correct file: the code never compares them, and reports success. -/
theorem C79_fickle_false : ∃ e, Encoder.new ⟨true, 8⟩ 75 = .ok e ∧
    let r := (e.encodeImageFree ⟨true, 8⟩ false).run vecSink fickle [] 0
    r.2.2 = .ok () ∧ _root_.Spec.decode true r.1 = none := by
  have h : (Encoder.new ⟨true, 8⟩ 75).map (fun e =>
      let r := (e.encodeImageFree ⟨true, 8⟩ false).run vecSink fickle [] 0
      (decide (r.2.2 = .ok ()), (_root_.Spec.decode true r.1).isNone)) = .ok (true, true) := by
    decide +kernel
  obtain ⟨t0, t1, -, -, he⟩ := encoder_new_ok 75
  have he := he ⟨true, 8⟩
  rw [he] at h
  obtain ⟨h1, h2⟩ := Prod.mk.inj (Except.ok.inj h)
  exact ⟨_, he, of_decide_eq_true h1, Option.isNone_iff_eq_none.mp h2⟩

end Jpeg
