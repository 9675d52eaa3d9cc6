import Verif.Props.Complete
import Verif.Spec.AnyImage
/-! C85: the result tells whether the output is complete, whatever the image buffer and the writer do. -/
namespace Jpeg
open _root_.Spec

/-- What the writer sees of `p` when the image buffer is `B`, in the state `t`: a program that calls the writer only. -/
def FProg.facing {τ α : Type} (B : FreeImage τ) : FProg α → τ → Prog α
  | .done a, _ => .done a
  | .write c k, t => .write c fun r => (k r).facing B t
  | .width k, t => (k (B.width t).2).facing B (B.width t).1
  | .height k, t => (k (B.height t).2).facing B (B.height t).1
  | .color k, t => (k (B.color t).2).facing B (B.color t).1
  | .fill y rows k, t => (k (B.fill t y rows).2).facing B (B.fill t y rows).1

/-- `facing` is `run`, without the final state of the image buffer. -/
theorem FProg.facing_run {σ τ α : Type} (S : Sink σ) (B : FreeImage τ) (p : FProg α) (s : σ) (t : τ) :
    (p.facing B t).run S s = ((p.run S B s t).1, (p.run S B s t).2.2) := by
  induction p generalizing s t with
  | done a => rfl
  | write c k ih => exact ih _ _ _
  | width k ih => exact ih _ _ _
  | height k ih => exact ih _ _ _
  | color k ih => exact ih _ _ _
  | fill y rows k ih => exact ih _ _ _

theorem FProg.Tri.strict {τ α : Type} {Q : α → Bytes → Prop} (B : FreeImage τ) {p : FProg (R (α × BitState))} {acc : Bytes} (h : p.Tri Q acc) (t : τ) : (p.facing B t).Strict := by
  induction p generalizing acc t with
  | done r => trivial
  | write c k ih => exact ⟨fun e => by simp only [h.1 e, FProg.facing], ih none h.2.2 t⟩
  | width k ih => exact ih _ (h _) _
  | height k ih => exact ih _ (h _) _
  | color k ih => exact ih _ (h _) _
  | fill y rows k ih => exact ih _ (h _) _

theorem FProg.facing_bind {τ α β : Type} (B : FreeImage τ) (p : FProg α) (f : α → β) (t : τ) :
    (p.bind fun a => .done (f a)).facing B t = (p.facing B t).bind fun a => .done (f a) := by
  induction p generalizing t with
  | done a => rfl
  | write c k ih => simp only [FProg.bind, FProg.facing, Prog.bind, ih]
  | width k ih => exact ih _ _
  | height k ih => exact ih _ _
  | color k ih => exact ih _ _
  | fill y rows k ih => exact ih _ _

/-- The record of a writer that may fail at any call. -/
theorem FProg.Tri.keeping {σ τ α : Type} {Q : α → Bytes → Prop} (S : Sink σ) (B : FreeImage τ) {p : FProg (R (α × BitState))} {acc : Bytes} (h : p.Tri Q acc) (s : σ) (t : τ) :
    match (p.run (Spec.keeping S) B (s, acc) t).2.2 with
      | .ok x => Q x.1 (p.run (Spec.keeping S) B (s, acc) t).1.2
      | .error _ => Unfinished (p.run (Spec.keeping S) B (s, acc) t).1.2 := by
  induction p generalizing acc s t with
  | done r => cases r <;> exact h
  | write c k ih =>
    cases hr : (S.writeAll s c).2 with
    | none =>
      have := ih none h.2.2 (S.writeAll s c).1 t
      simp only [FProg.run, Spec.keeping, hr] at this ⊢
      exact this
    | some e =>
      simp only [FProg.run, Spec.keeping, hr, h.1 e]
      exact h.2.1
  | width k ih => exact ih _ (h _) _ _
  | height k ih => exact ih _ (h _) _ _
  | color k ih => exact ih _ (h _) _ _
  | fill y rows k ih => exact ih _ (h _) _ _

theorem Unfinished.decode {acc : Bytes} (h : Unfinished acc) (strict : Bool) : decode strict acc = none := by
  cases hd : _root_.Spec.decode strict acc with
  | none => rfl
  | some d =>
    have := decode_skip hd
    rw [h] at this
    cases this

theorem Framed.nil {f : Bytes} (h : Framed f) : afterImage f = some [] := by
  have := h []
  rwa [List.append_nil] at this

/-- What the output says about the result `r` of a call. -/
def Spec.Tells (out : Bytes) (r : R Unit) : Prop :=
  (r = .ok () ↔ afterImage out = some []) ∧ (r ≠ .ok () → afterImage out = none ∧ ∀ strict, decode strict out = none)

theorem tells_of {out : Bytes} {r : R Unit} (h : match r with | .ok _ => Framed out | .error _ => Unfinished out) : Spec.Tells out r := by
  cases r with
  | ok a => exact ⟨⟨fun _ => h.nil, fun _ => rfl⟩, fun hr => absurd rfl hr⟩
  | error x =>
    refine ⟨⟨fun hr => (by cases hr), fun ha => ?_⟩, fun _ => ⟨h, fun strict => h.decode strict⟩⟩
    rw [show afterImage out = none from h] at ha
    cases ha

/-- Programs that write a framed image or fail: with an honest `io::Write`. -/
theorem IoWrite.Runs.tells {p : Prog (R Unit)} (hs : p.Strict) (hp : match p.exec.2 with | .ok _ => Framed p.exec.1 | .error _ => Unfinished p.exec.1) {σ : Type} {io : IoWrite σ}
    (hio : io.Honest) {s s' : σ} {acc : Bytes} {r : R Unit} (h : io.Runs p s acc s' r) : Spec.Tells acc r := by
  rcases h.missing hio hs with ⟨rfl, rfl⟩ | ⟨h1, x, rfl⟩
  · exact tells_of hp
  · refine tells_of ?_
    have hpre : acc <+: p.exec.1 := (h.accepted hs).1
    obtain ⟨rest, hrest⟩ := hpre
    cases hx : p.exec.2 with
    | ok a =>
      rw [hx] at hp
      have := Framed.truncated hp h1
      rw [← hrest, List.take_left] at this
      exact this
    | error y =>
      rw [hx] at hp
      have hp : Unfinished p.exec.1 := hp
      rw [← hrest] at hp
      exact hp.prefix

section
variable {pf : Platform} (hpf : pf.Valid) {q : UInt8} {calls : List Spec.Call} {e : Encoder} (hc : Configured pf q calls e) (simd : Bool)
include hpf hc

/-- C85: for every image buffer, whatever its methods answer (or panic) at each call, and every `io::Write` that does not claim to have accepted more than it was given:
`encode_image` returns `Ok` exactly if what the writer has accepted is a complete image; otherwise (error or panic) what was accepted can be seen to be incomplete. -/
theorem C85_result {τ : Type} (B : FreeImage τ) (t : τ) {σ : Type} {io : IoWrite σ} (hio : io.Honest) {s s' : σ} {acc : Bytes} {r : R Unit}
    (h : io.Runs ((e.encodeImageFree pf simd).facing B t) s acc s' r) :
    (r = .ok () ↔ afterImage acc = some []) ∧ (r ≠ .ok () → afterImage acc = none ∧ ∀ strict, decode strict acc = none) := by
  refine h.tells ?_ ?_ hio
  · unfold Encoder.encodeImageFree
    rw [FProg.facing_bind]
    refine Prog.Strict.bind ((encodeImageInternalF_tri hpf hc.wf _ (BitState.init pf) [] rfl).strict B t) (fun _ => trivial) fun _ => rfl
  · have h1 := FProg.facing_run vecSink B (e.encodeImageFree pf simd) [] t
    have h2 := encodeImageFree_framed hpf hc.wf simd B t
    rw [Prog.run_vec, List.nil_append] at h1
    rw [congrArg Prod.fst h1, congrArg Prod.snd h1]
    exact h2

/-- C85 for `encode`, and for `encode_image` with an image buffer that is a function: no condition on the settings, the image or the build. -/
theorem C85_call {simd : Bool} {p : Prog (R Unit)} (hp : Spec.AnyCall pf simd e p) {σ : Type} {io : IoWrite σ} (hio : io.Honest) {s s' : σ} {acc : Bytes} {r : R Unit}
    (h : io.Runs p s acc s' r) :
    (r = .ok () ↔ afterImage acc = some []) ∧ (r ≠ .ok () → afterImage acc = none ∧ ∀ strict, decode strict acc = none) :=
  h.tells hp.strict (anyCall_framed hpf hc.wf hp) hio

/-- C85 for any implementation of `JfifWrite`: the bytes of the `write_all` calls that returned `Ok` are a complete image exactly if the result is `Ok`. -/
theorem C85_writer {τ : Type} (B : FreeImage τ) (t : τ) {σ : Type} (S : Sink σ) (s : σ) :
    let r := (e.encodeImageFree pf simd).run (Spec.keeping S) B (s, []) t
    (r.2.2 = .ok () ↔ afterImage r.1.2 = some []) ∧ (r.2.2 ≠ .ok () → afterImage r.1.2 = none ∧ ∀ strict, decode strict r.1.2 = none) := by
  intro r
  refine tells_of (r := r.2.2) (out := r.1.2) ?_
  have h := (encodeImageInternalF_tri hpf hc.wf (if simd then avx2Operations else defaultOperations) (BitState.init pf) [] rfl).keeping S B s t
  have hr : r = _ := FProg.run_bind (Spec.keeping S) B _ _ (s, []) t
  rw [hr]
  generalize ((e.encodeImageInternalF pf (if simd then avx2Operations else defaultOperations) (BitState.init pf)).run (Spec.keeping S) B (s, []) t) = x at h
  obtain ⟨⟨s', out⟩, t', y⟩ := x
  cases y <;> exact h

end

-- The hypotheses of C85: every image buffer and every honest writer.
example : ∃ e, Configured ⟨true, 8⟩ 75 [] e ∧ sliceWrite.Honest := by
  obtain ⟨e, h1, -⟩ := reachable_exists ⟨true, 8⟩ 75 [] (by decide)
  refine ⟨e, h1, ?_⟩
  intro s buf n hb h
  have := slice_write s.1 s.2 buf
  rw [show (s.1, s.2) = s from rfl] at this
  rw [this] at h
  cases h
  omega

-- An image buffer whose dimensions change from call to call ends in `Ok` (C79_fickle_false), with an output that is complete although it cannot be decoded.
example : ∃ e, Configured ⟨true, 8⟩ 75 [] e ∧
    let out := ((e.encodeImageFree ⟨true, 8⟩ false).run vecSink fickle [] 0).1
    (∀ rest, afterImage (out ++ rest) = some rest) ∧ decode true out = none := by
  obtain ⟨e, he, hok, hdec⟩ := C79_fickle_false
  have hc : Configured ⟨true, 8⟩ 75 [] e := ⟨e, he, rfl⟩
  refine ⟨e, hc, ?_, hdec⟩
  have := encodeImageFree_framed (pf := ⟨true, 8⟩) (by decide) hc.wf false fickle 0
  rw [hok] at this
  exact this

end Jpeg
