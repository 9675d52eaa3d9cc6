import Verif.Proofs.AnyFraming
import Verif.Props.NewFile
import Verif.Props.File
/-! C51: images in a stream. -/
namespace Jpeg
open _root_.Spec

/-- A run on a `Vec<u8>` whatever the image buffer answers. -/
theorem FProg.Tri.run {τ α : Type} {Q : α → Bytes → Prop} (B : FreeImage τ) {p : FProg (R (α × BitState))} {acc : Bytes} (h : p.Tri Q acc) (t : τ) :
    match (p.run vecSink B acc t).2.2 with
      | .ok x => Q x.1 (p.run vecSink B acc t).1
      | .error _ => Unfinished (p.run vecSink B acc t).1 := by
  induction p generalizing acc t with
  | done r => cases r <;> exact h
  | write c k ih => exact ih none h.2.2 t
  | width k ih => exact ih _ (h _) _
  | height k ih => exact ih _ (h _) _
  | color k ih => exact ih _ (h _) _
  | fill y rows k ih => exact ih _ (h _) _

/-- Whatever the image buffer answers: `Ok` means that a complete image was written, otherwise the output is incomplete. -/
theorem encodeImageFree_framed {pf : Platform} (hpf : pf.Valid) {e : Encoder} (hwf : e.Wf) (simd : Bool) {τ : Type} (B : FreeImage τ) (t : τ) :
    match ((e.encodeImageFree pf simd).run vecSink B [] t).2.2 with
      | .ok _ => Framed ((e.encodeImageFree pf simd).run vecSink B [] t).1
      | .error _ => Unfinished ((e.encodeImageFree pf simd).run vecSink B [] t).1 := by
  unfold Encoder.encodeImageFree
  rw [FProg.run_bind]
  have := (encodeImageInternalF_tri hpf hwf (if simd then avx2Operations else defaultOperations) (BitState.init pf) [] rfl).run B t
  cases hx : (((e.encodeImageInternalF pf (if simd then avx2Operations else defaultOperations)) (BitState.init pf)).run vecSink B [] t).2.2 with
  | ok x => rw [hx] at this; exact this
  | error x => rw [hx] at this; exact this

/-- The same for the calls with a slice and with an image buffer that is a function. -/
theorem anyCall_framed {pf : Platform} (hpf : pf.Valid) {e : Encoder} (hwf : e.Wf) {simd : Bool} {p : Prog (R Unit)} (hp : Spec.AnyCall pf simd e p) :
    match p.exec.2 with
      | .ok _ => Framed p.exec.1
      | .error _ => Unfinished p.exec.1 := by
  have key : ∀ image, match (e.encodeImage pf simd image).exec.2 with
      | .ok _ => Framed (e.encodeImage pf simd image).exec.1
      | .error _ => Unfinished (e.encodeImage pf simd image).exec.1 := by
    intro image
    have h1 := C79_pure pf simd e image vecSink []
    have h2 := encodeImageFree_framed hpf hwf simd (⟨fun t => (t, .ok image.colorType), fun t => (t, .ok image.width), fun t => (t, .ok image.height),
      fun t y rows => (t, image.fillBuffers y rows)⟩ : FreeImage Unit) ()
    rw [Prog.run_vec, List.nil_append] at h1
    have h3 := congrArg Prod.fst h1
    have h4 := congrArg Prod.snd h1
    simp only at h3 h4
    rw [← h3, ← h4]
    exact h2
  cases hp with
  | encode data w h ct =>
    unfold Encoder.encode
    cases requiredLen pf w h ct with
    | error x => rfl
    | ok n =>
      by_cases hl : data.length < n
      · simp only [if_pos hl]
        exact rfl
      · simp only [if_neg hl]
        exact key _
  | encodeImage image => exact key image

/-- `f` is what a successful call of `encode` or `encode_image` writes, with any settings, in a debug or a release build, for any data and for any image buffer, even one whose
methods answer differently at each call. -/
def IsOutput (f : Bytes) : Prop := ∃ (pf : Platform) (q : UInt8) (calls : List Spec.Call) (e : Encoder) (simd : Bool), pf.Valid ∧ Configured pf q calls e ∧
  ((∃ p, Spec.AnyCall pf simd e p ∧ p.run vecSink [] = (f, .ok ())) ∨
    ∃ (τ : Type) (B : FreeImage τ) (t t' : τ), (e.encodeImageFree pf simd).run vecSink B [] t = (f, t', .ok ()))

theorem IsOutput.of_call {pf : Platform} (hpf : pf.Valid) {q : UInt8} {calls : List Spec.Call} {e : Encoder} (hc : Configured pf q calls e) {simd : Bool} {p : Prog (R Unit)}
    (hp : Spec.AnyCall pf simd e p) {f : Bytes} (hf : p.run vecSink [] = (f, .ok ())) : IsOutput f := ⟨pf, q, calls, e, simd, hpf, hc, .inl ⟨p, hp, hf⟩⟩

theorem IsOutput.framed {f : Bytes} (h : IsOutput f) : Framed f := by
  obtain ⟨pf, q, calls, e, simd, hpf, hc, ⟨p, hp, hf⟩ | ⟨τ, B, t, t', hf⟩⟩ := h
  · have h1 := anyCall_framed hpf hc.wf hp
    rw [Prog.run_vec, List.nil_append] at hf
    rw [congrArg Prod.fst hf, congrArg Prod.snd hf] at h1
    exact h1
  · have h1 := encodeImageFree_framed hpf hc.wf simd B t
    rw [hf] at h1
    exact h1

/-- C51: the end of an image can be found without decoding it, whatever follows it; -/
theorem C51_self_delimiting {f : Bytes} (h : IsOutput f) (rest : Bytes) : afterImage (f ++ rest) = some rest := h.framed rest

/-- a truncated image is recognised as incomplete; -/
theorem C51_truncation_detected {f : Bytes} (h : IsOutput f) {n : Nat} (hn : n < f.length) : afterImage (f.take n) = none := h.framed.truncated hn

/-- and a stream of images can be split into the images. -/
theorem C51_stream {files : List Bytes} (h : ∀ f ∈ files, IsOutput f) (left : Bytes) :
    splitImages files.length (files.flatten ++ left) = (files, left) := Framed.split (fun f hf => (h f hf).framed) left

/-- C51: no output is a proper prefix of another one. -/
theorem C51_prefix_free {f g : Bytes} (hf : IsOutput f) (hg : IsOutput g) (h : f <+: g) : f = g := by
  by_contra hne
  have hl : f.length < g.length := lt_of_le_of_ne h.length_le fun he => hne (h.eq_of_length he)
  have h1 := C51_truncation_detected hg hl
  rw [← List.prefix_iff_eq_take.mp h] at h1
  have h2 := C51_self_delimiting hf []
  rw [List.append_nil, h1] at h2
  cases h2

-- there are such outputs
example : ∃ f, IsOutput f := by
  obtain ⟨e, h1, h2⟩ := reachable_exists ⟨true, 8⟩ 80 [.setRestartInterval 1] (by decide)
  have ho : e.getOptimizedHuffmanTables = false := by rw [h2.optimized]; rfl
  have hp := Spec.EncodeCall.data (pf := ⟨true, 8⟩) (simd := true) (e := e) [7, 8, 9, 250, 251, 252] 2 1 .rgb (by decide) (by unfold Spec.SliceOk; decide)
  have hs : Spec.Supported ⟨true, 8⟩ true e .ycbcr 2 1 (Spec.samplesOf .rgb [7, 8, 9, 250, 251, 252] 2) := ⟨by decide, by decide, Or.inl rfl, Or.inl ho⟩
  obtain ⟨image, hd, h3, h4, h5, h6⟩ := hp.image_of
  have hs' := hs
  rw [show JpegColorType.ycbcr = image.colorType from h4, show (2 : UInt16) = image.width from h5, show (1 : UInt16) = image.height from h6] at hs'
  obtain ⟨t, ht⟩ := hs'.works h1.wf
  refine ⟨e.file (dctFn true) image (Spec.samplesOf .rgb [7, 8, 9, 250, 251, 252] 2) t, .of_call (pf := ⟨true, 8⟩) (simd := true) (by decide) h1 (.encodeImage image) ?_⟩
  exact encode_run (by decide) hd h1.wf hs' ht []
example : afterImage [0xFF, 0xD8, 0xFF, 0xDA, 0, 2, 1, 0xFF, 0, 0xFF, 0xD1, 5, 0xFF, 0xD9, 42] = some [42] := by decide

end Jpeg
