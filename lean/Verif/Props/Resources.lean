import Verif.Spec.Resources
import Verif.Proofs.CostAll
/-! C86: what a call can do at most, whatever the image buffer answers and whatever the writer does. -/
namespace Jpeg

theorem FProg.Acc.run {σ τ α : Type} {w h n : Nat} {E : Nat → Nat → Prop} {Q : α → BitState → Nat → Nat → Prop} (S : Sink σ) {B : FreeImage τ} (hB : Spec.AtMost B w h n)
    {p : FProg (R (α × BitState))} {b f : Nat} (hp : p.Acc w h n E Q b f) (s : σ) (t : τ) :
    let r := p.run (Spec.metered S) (Spec.counted B) (s, b) (t, f)
    match r.2.2 with
      | .ok x => Q x.1 x.2 r.1.2 r.2.1.2
      | .error _ => E r.1.2 r.2.1.2 := by
  induction p generalizing s t b f with
  | done r => cases r <;> exact hp
  | write c k ih => exact ih _ (hp _) _ _
  | width k ih => exact ih _ (hp _ (hB.width t)) _ _
  | height k ih => exact ih _ (hp _ (hB.height t)) _ _
  | color k ih =>
    refine ih _ (hp _ fun c hc => ?_) _ _
    have := hB.color t c hc
    cases c <;> exact this
  | fill y rows k ih => exact ih _ (hp _) _ _

/-- Counting does not change what happens. -/
theorem metered_run {σ τ α : Type} (S : Sink σ) (B : FreeImage τ) (p : FProg α) (s : σ) (t : τ) (b f : Nat) :
    let r := p.run (Spec.metered S) (Spec.counted B) (s, b) (t, f)
    (r.1.1, r.2.1.1, r.2.2) = p.run S B s t := by
  induction p generalizing s t b f with
  | done r => rfl
  | write c k ih => exact ih _ _ _ _ _
  | width k ih => exact ih _ _ _ _ _
  | height k ih => exact ih _ _ _ _ _
  | color k ih => exact ih _ _ _ _ _
  | fill y rows k ih => exact ih _ _ _ _ _

theorem roomFor_mono {segments : List (UInt8 × Bytes)} {n m w h scans : Nat} {restarts : Bool} (hn : n ≤ m) : Spec.roomFor segments n w h scans restarts ≤ Spec.roomFor segments m w h scans restarts :=
  Nat.add_le_add_left (Nat.mul_le_mul_right _ (Nat.mul_le_mul_right _ hn)) _

theorem cost_le {e : Encoder} (hwf : e.Wf) {n w h : Nat} (hn : n ≤ 4) :
    e.cost n w h ≤ 4 * Spec.roomFor e.appSegments n w h ((e.getProgressiveScans.map UInt8.toNat).getD 1) e.getRestartInterval.isSome := by
  have hS : e.scanCount ≤ 64 := by
    unfold Encoder.scanCount
    cases hs : e.progressiveScans with
    | none => decide
    | some n => exact (hwf.scans n hs).2
  have hrst : rstCost e.interval + 16 ≤ 4 * if e.getRestartInterval.isSome then 8 else 4 := by
    unfold rstCost Encoder.interval Encoder.getRestartInterval
    cases hi : e.restartInterval with
    | none => simp
    | some i =>
      simp only [Option.map_some, Option.getD_some, Option.isSome_some, if_true]
      split <;> omega
  change _ ≤ 4 * Spec.roomFor e.appSegments n w h e.scanCount _
  unfold Encoder.cost scansCost Spec.roomFor
  change _ ≤ 4 * (_ + n * roomy w h * _)
  generalize (if e.getRestartInterval.isSome = true then 8 else 4) = k at *
  generalize rstCost e.interval = r at *
  generalize e.scanCount = S at *
  generalize roomy w h = A at *
  generalize (e.appSegments.map fun s => s.2.length + 4).sum = X at *
  have h1 : n * (47 * S) ≤ 4 * (47 * 64) := Nat.mul_le_mul hn (Nat.mul_le_mul_left _ hS)
  have h2 : n * (A * (1984 + S * (r + 16))) ≤ n * (A * (1984 + S * (4 * k))) := Nat.mul_le_mul_left _ (Nat.mul_le_mul_left _ (Nat.add_le_add_left (Nat.mul_le_mul_left _ hrst) _))
  have e1 : 4 * (4500 + X + n * A * (496 + S * k)) = 18000 + 4 * X + n * (A * (1984 + S * (4 * k))) := by ring
  rw [e1]
  omega

/-- C86: `encode_image` in any state of any writer, with any image buffer whose answers are at most `w`x`h` pixels and `n` components: whether it returns `Ok`, an error or panics, it has handed
at most `Spec.roomFor` bytes to the writer and has called `fill_buffers` at most `h + 31` times. Counting changes nothing else. -/
theorem C86_bounded {pf : Platform} (hpf : pf.Valid) {q : UInt8} {calls : List Spec.Call} {e : Encoder} (hc : Configured pf q calls e) (simd : Bool) {σ τ : Type} (S : Sink σ) {B : FreeImage τ}
    {w h n : Nat} (hB : Spec.AtMost B w h n) (s : σ) (t : τ) :
    let r := (e.encodeImageFree pf simd).run (Spec.metered S) (Spec.counted B) (s, 0) (t, 0)
    (r.1.1, r.2.1.1, r.2.2) = (e.encodeImageFree pf simd).run S B s t ∧
      r.1.2 ≤ Spec.roomFor (calls.flatMap Spec.Call.segments) n w h ((e.getProgressiveScans.map UInt8.toNat).getD 1) e.getRestartInterval.isSome ∧ r.2.1.2 ≤ h + 31 := by
  intro r
  refine ⟨metered_run S B _ s t 0 0, ?_⟩
  have hB' : Spec.AtMost B w h (min n 4) := ⟨hB.width, hB.height, fun t a ha => Nat.le_min.mpr ⟨hB.color t a ha, by cases a <;> decide⟩⟩
  have hstart : Charged pf 0 0 (BitState.init pf) 0 0 := ⟨by simp [BitState.init], by simp [BitState.init], by simp [BitState.init], Nat.le_refl 0⟩
  have hacc := encodeImageInternalF_costs (W := w) (H := h) (C := min n 4) hpf hc.wf (if simd then avx2Operations else defaultOperations) 0 0 (e.cost (min n 4) w h) (h + 31) (by omega) (by omega)
    (BitState.init pf) 0 0 hstart
  have hr := (hacc.weaken (E' := fun b f => 4 * b ≤ e.cost (min n 4) w h ∧ f ≤ h + 31) (Q' := fun _ _ b f => 4 * b ≤ e.cost (min n 4) w h ∧ f ≤ h + 31) (fun _ _ h => h)
    fun _ _ _ _ h => h.2.within (by omega) (by omega)).run S hB' s t
  have hk : 4 * r.1.2 ≤ e.cost (min n 4) w h ∧ r.2.1.2 ≤ h + 31 := by
    have hrun : r = _ := FProg.run_bind (Spec.metered S) (Spec.counted B) _ _ (s, 0) (t, 0)
    rw [hrun]
    revert hr
    generalize ((e.encodeImageInternalF pf (if simd then avx2Operations else defaultOperations) (BitState.init pf)).run (Spec.metered S) (Spec.counted B) (s, 0) (t, 0)) = x
    obtain ⟨⟨s', b⟩, ⟨t', f⟩, y⟩ := x
    cases y <;> exact fun h => h
  refine ⟨?_, hk.2⟩
  have hcost := cost_le hc.wf (w := w) (h := h) (Nat.min_le_right n 4)
  have hm := roomFor_mono (segments := e.appSegments) (w := w) (h := h) (scans := (e.getProgressiveScans.map UInt8.toNat).getD 1) (restarts := e.getRestartInterval.isSome) (Nat.min_le_left n 4)
  rw [← hc.apps]
  omega

/-- C86 for every image buffer: there are no answers larger than 65535x65535 pixels with 4 components. -/
theorem C86_always {pf : Platform} (hpf : pf.Valid) {q : UInt8} {calls : List Spec.Call} {e : Encoder} (hc : Configured pf q calls e) (simd : Bool) {σ τ : Type} (S : Sink σ) (B : FreeImage τ)
    (s : σ) (t : τ) :
    let r := (e.encodeImageFree pf simd).run (Spec.metered S) (Spec.counted B) (s, 0) (t, 0)
    r.1.2 ≤ Spec.roomFor (calls.flatMap Spec.Call.segments) 4 65535 65535 64 true ∧ r.2.1.2 ≤ 65566 := by
  intro r
  have hB : Spec.AtMost B 65535 65535 4 :=
    ⟨fun _ a _ => by have := a.toNat_lt; omega, fun _ a _ => by have := a.toNat_lt; omega, fun _ a _ => by cases a <;> decide⟩
  obtain ⟨-, h1, h2⟩ := C86_bounded hpf hc simd S hB s t
  refine ⟨Nat.le_trans h1 ?_, h2⟩
  refine Nat.add_le_add_left (Nat.mul_le_mul_left _ (Nat.add_le_add_left (Nat.mul_le_mul ?_ ?_) _)) _
  · unfold Encoder.getProgressiveScans
    cases hs : e.progressiveScans with
    | none => decide
    | some n => exact (hc.wf.scans n hs).2
  · split <;> decide

/-- C86 for `encode_image` with an image buffer that is a function: no condition on the settings, the image or the build. -/
theorem C86_image {pf : Platform} (hpf : pf.Valid) {q : UInt8} {calls : List Spec.Call} {e : Encoder} (hc : Configured pf q calls e) {simd : Bool} (image : ImageBuffer) :
    ((e.encodeImage pf simd image).run vecSink []).1.length ≤
      Spec.roomFor (calls.flatMap Spec.Call.segments) (Spec.componentCount image.colorType) image.width.toNat image.height.toNat
        ((e.getProgressiveScans.map UInt8.toNat).getD 1) e.getRestartInterval.isSome := by
  let B : FreeImage Unit := ⟨fun t => (t, .ok image.colorType), fun t => (t, .ok image.width), fun t => (t, .ok image.height), fun t y rows => (t, image.fillBuffers y rows)⟩
  have hB : Spec.AtMost B image.width.toNat image.height.toNat (Spec.componentCount image.colorType) :=
    ⟨fun _ a h => by rw [← Except.ok.inj h], fun _ a h => by rw [← Except.ok.inj h], fun _ a h => by rw [← Except.ok.inj h]⟩
  obtain ⟨h0, h1, -⟩ := C86_bounded hpf hc simd vecSink hB [] ()
  have h2 : ((e.encodeImageFree pf simd).run vecSink B [] ()).1 = ((e.encodeImage pf simd image).run vecSink []).1 := congrArg Prod.fst (C79_pure pf simd e image vecSink [])
  have hlen : ∀ {α : Type} (p : FProg α) (acc : Bytes) (b f : Nat), b = acc.length → (p.run (Spec.metered vecSink) (Spec.counted B) (acc, b) ((), f)).1.2 =
      (p.run (Spec.metered vecSink) (Spec.counted B) (acc, b) ((), f)).1.1.length := by
    intro α p
    induction p with
    | done a => exact fun acc b f h => h
    | write c k ih => exact fun acc b f h => ih _ _ _ _ (by simp [vecSink, h])
    | width k ih => exact fun acc b f h => ih _ _ _ _ h
    | height k ih => exact fun acc b f h => ih _ _ _ _ h
    | color k ih => exact fun acc b f h => ih _ _ _ _ h
    | fill y rows k ih => exact fun acc b f h => ih _ _ _ _ h
  rw [hlen _ [] 0 0 rfl] at h1
  rw [← h2, ← congrArg Prod.fst h0]
  exact h1

/-- C86 for `encode`: any data, sizes and color type. -/
theorem C86_encode {pf : Platform} (hpf : pf.Valid) {q : UInt8} {calls : List Spec.Call} {e : Encoder} (hc : Configured pf q calls e) (simd : Bool) (data : Bytes) (w h : UInt16) (ct : ColorType) :
    ((e.encode pf simd data w h ct).run vecSink []).1.length ≤
      Spec.roomFor (calls.flatMap Spec.Call.segments) 4 w.toNat h.toNat ((e.getProgressiveScans.map UInt8.toNat).getD 1) e.getRestartInterval.isSome := by
  unfold Encoder.encode
  cases requiredLen pf w h ct with
  | error x => exact Nat.zero_le _
  | ok n =>
    dsimp only
    split
    · exact Nat.zero_le _
    · have h1 := C86_image hpf hc (simd := simd) (imageFor pf simd data w h ct)
      have hw : (imageFor pf simd data w h ct).width = w := by cases ct <;> cases simd <;> rfl
      have hh : (imageFor pf simd data w h ct).height = h := by cases ct <;> cases simd <;> rfl
      rw [hw, hh] at h1
      exact Nat.le_trans h1 (roomFor_mono (by cases (imageFor pf simd data w h ct).colorType <;> decide))

/-! ### Concrete cases -/

/-- An image buffer that breaks its contract (its height changes, C79) stays within the bounds: 8 rows and 401 bytes. -/
example : ∃ e, Configured ⟨true, 8⟩ 75 [] e ∧ Spec.AtMost fickle 1 9 1 ∧
    let r := (e.encodeImageFree ⟨true, 8⟩ false).run (Spec.metered vecSink) (Spec.counted fickle) ([], 0) (0, 0)
    (r.1.2, r.2.1.2) = (401, 8) ∧ 401 ≤ Spec.roomFor [] 1 1 9 1 false := by
  have h : (Encoder.new ⟨true, 8⟩ 75).map (fun e =>
      let r := (e.encodeImageFree ⟨true, 8⟩ false).run (Spec.metered vecSink) (Spec.counted fickle) ([], 0) (0, 0)
      (r.1.2, r.2.1.2)) = .ok (401, 8) := by
    decide +kernel
  obtain ⟨t0, t1, -, -, he⟩ := encoder_new_ok 75
  have he := he ⟨true, 8⟩
  rw [he] at h
  refine ⟨_, ⟨_, he, rfl⟩, ⟨fun t a ha => ?_, fun t a ha => ?_, fun t a ha => ?_⟩, Except.ok.inj h, by decide⟩
  · rw [← Except.ok.inj ha]; decide
  · rw [← Except.ok.inj ha]; split <;> decide
  · rw [← Except.ok.inj ha]; decide

end Jpeg
