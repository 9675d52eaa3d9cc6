import Verif.Proofs.Refine
import Verif.Props.Independence
import Verif.Props.RoundTrip
/-! C64: debug and release builds, for every input whatsoever. -/
namespace Jpeg

/-- The call ended at a check that only debug builds have: arithmetic overflow or a `debug_assert!`. -/
def Spec.StoppedByCheck {α : Type} (r : R α) : Prop := r = .error (.panic .overflow) ∨ r = .error (.panic .debugAssert)

/-- The same call in a debug build (first program) and a release build (second program) for a target with words of `b` bytes: `encode`, or
`encode_image` with the user's own image buffer, or with one of the crate's image buffers. Encoder and input are arbitrary. -/
inductive Spec.BothBuilds (b : Nat) (simd : Bool) (e : Encoder) : Prog (R Unit) → Prog (R Unit) → Prop
  | encode (data : Bytes) (w h : UInt16) (ct : ColorType) :
      BothBuilds b simd e (e.encode ⟨true, b⟩ simd data w h ct) (e.encode ⟨false, b⟩ simd data w h ct)
  | own (image : ImageBuffer) : BothBuilds b simd e (e.encodeImage ⟨true, b⟩ simd image) (e.encodeImage ⟨false, b⟩ simd image)
  | builtin (simd' : Bool) (data : Bytes) (w h : UInt16) (ct : ColorType) :
      BothBuilds b simd e (e.encodeImage ⟨true, b⟩ simd (imageFor ⟨true, b⟩ simd' data w h ct)) (e.encodeImage ⟨false, b⟩ simd (imageFor ⟨false, b⟩ simd' data w h ct))

theorem Spec.BothBuilds.ref {b : Nat} {simd : Bool} {e : Encoder} {p p' : Prog (R Unit)} (h : Spec.BothBuilds b simd e p p') : p.Ref p' := by
  cases h with
  | encode data w h ct => exact encode_ref b simd e data w h ct
  | own image => exact encodeImage_ref b simd e fun _ _ => .refl _
  | builtin simd' data w h ct =>
    obtain ⟨c, f, f', h1, h2, hf⟩ := imageFor_ref b simd' data w h ct
    rw [h1, h2]
    exact encodeImage_ref b simd e hf

theorem Prog.Ref.exec_prefix {α : Type} {p p' : Prog (R α)} (h : p.Ref p') : p.exec.1 <+: p'.exec.1 := by
  induction p generalizing p' with
  | done r => exact List.nil_prefix
  | write c k ih =>
    obtain ⟨k', rfl, hk⟩ := h
    exact (List.prefix_append_right_inj c).mpr (ih none (hk none))

/-- C64: whatever the settings, the image and the writer are: unless the debug build stops at an overflow check or a `debug_assert!`, the release
build does exactly the same (same state of the writer, same result). -/
theorem C64_release_like_debug {b : Nat} {simd : Bool} {e : Encoder} {debug release : Prog (R Unit)} (h : Spec.BothBuilds b simd e debug release)
    {σ : Type} (S : Sink σ) (w : σ) (hd : ¬ Spec.StoppedByCheck (debug.run S w).2) : release.run S w = debug.run S w := by
  rcases h.ref.run S w with ⟨f, hf, he⟩ | h
  · refine absurd ?_ hd
    rcases hf with rfl | rfl
    · exact .inl he
    · exact .inr he
  · exact h.symm

/-- C64: also when the debug build stops, what it has written is the beginning of what the release build writes. -/
theorem C64_debug_prefix {b : Nat} {simd : Bool} {e : Encoder} {debug release : Prog (R Unit)} (h : Spec.BothBuilds b simd e debug release) :
    (debug.run vecSink []).1 <+: (release.run vecSink []).1 := by
  rw [Prog.run_vec, Prog.run_vec]
  exact h.ref.exec_prefix

-- without the condition the claim is false: `C10_restart_defect` is a case where the debug build panics and the release build returns `Ok`

-- every supported image meets the condition
example (data : Bytes) (hsl : Spec.SliceOk ⟨true, 8⟩ data) (w h : UInt16) (hw : w ≠ 0) (hh : h ≠ 0) : ∃ e, Configured ⟨true, 8⟩ 75 [.setProgressive true] e ∧
    ∀ out, ¬ Spec.StoppedByCheck ((e.encode ⟨true, 8⟩ false data w h .rgb).run vecSink out).2 := by
  obtain ⟨e, hc, hs⟩ := supported_exists true 75 [.setProgressive true] (by decide) (by decide) .ycbcr w h hw hh
  refine ⟨e, hc, fun out hx => ?_⟩
  have hn := C12_encode (Or.inr rfl) hc false data hsl w h .rgb (C15_fits_64 _ rfl w h .rgb) fun _ _ => hs _ _
  rcases hx with hx | hx <;> exact absurd (hn _ _ _ _ hx) (by rintro ⟨x, hx⟩; cases hx)

end Jpeg
