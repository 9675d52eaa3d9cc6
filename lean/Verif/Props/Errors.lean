import Verif.Model.Error
import Verif.Props.Safety
import Verif.Props.Writer
/-! C57: the errors of the API. -/
namespace Jpeg.Spec

/-- An error the writer `S` can report. -/
def FromWriter {σ : Type} (S : Sink σ) (x : EncodingError) : Prop := ∃ w c, (S.writeAll w c).2 = some x

/-- Whenever the call returns an error, with any writer, it is an error reported by the writer, or `Q` holds for it (and nothing was
written). -/
def ErrorsAre (p : Prog (R Unit)) (Q : EncodingError → Prop) : Prop := ∀ (σ : Type) (S : Sink σ) (w : σ) (x : EncodingError),
  (p.run S w).2 = .error (.err x) → FromWriter S x ∨ (Q x ∧ (p.run S w).1 = w)

end Jpeg.Spec

namespace Jpeg

/-- C57: `add_app_segment` fails exactly for the numbers and lengths its messages name. -/
theorem C57_add_app_segment (e : Encoder) (nr : UInt8) (data : Bytes) :
    if 1 ≤ nr.toNat ∧ nr.toNat ≤ 15 then
      if data.length ≤ 65533 then ∃ e', e.addAppSegment nr data = .ok e'
      else ∃ x, e.addAppSegment nr data = .error (.err x) ∧ x.source = none ∧
        x.display = "App segment exceeds maximum allowed data length of 65533: " ++ toString data.length
    else ∃ x, e.addAppSegment nr data = .error (.err x) ∧ x.source = none ∧ x.display = "Invalid app segment number: " ++ toString nr.toNat := by
  have h0 : nr = 0 ↔ nr.toNat = 0 := by rw [← UInt8.toNat_inj]; rfl
  have h15 : nr > 15 ↔ nr.toNat > 15 := by rw [gt_iff_lt, UInt8.lt_iff_toNat_lt]; rfl
  unfold Encoder.addAppSegment
  simp only [h0, h15]
  by_cases h : 1 ≤ nr.toNat ∧ nr.toNat ≤ 15
  · rw [if_pos h, if_neg (show ¬ (nr.toNat = 0 ∨ nr.toNat > 15) by omega)]
    by_cases hl : data.length ≤ 65533
    · rw [if_pos hl, if_neg (by omega)]
      exact ⟨_, rfl⟩
    · rw [if_neg hl, if_pos (by omega)]
      exact ⟨_, rfl, rfl, rfl⟩
  · rw [if_neg h, if_pos (show nr.toNat = 0 ∨ nr.toNat > 15 by omega)]
    exact ⟨_, rfl, rfl, rfl⟩

/-- C57: `add_icc_profile` fails exactly for profiles that need more than 254 segments. -/
theorem C57_add_icc_profile (pf : Platform) (e : Encoder) (data : Bytes) :
    if data.length ≤ 254 * 65519 then ∃ e', e.addIccProfile pf data = .ok e'
    else ∃ x, e.addIccProfile pf data = .error (.err x) ∧ x.source = none ∧
      x.display = "ICC profile exceeds maximum allowed data length: " ++ toString data.length := by
  split
  · rename_i h
    obtain ⟨segs, hs, -⟩ := C34_icc_accepted pf e data h
    exact ⟨_, hs⟩
  · exact ⟨_, C34_icc_rejected pf e data (by omega), rfl, rfl⟩

theorem encodeImage_errors {pf : Platform} (hpf : pf.Valid) (simd : Bool) (e : Encoder) {image : ImageBuffer}
    (hf : ∀ y r x, image.fillBuffers y r ≠ .error (.err x)) :
    Spec.ErrorsAre (e.encodeImage pf simd image) fun x =>
      (image.width = 0 ∨ image.height = 0) ∧ x = .zeroImageDimensions image.width image.height := by
  intro σ S w x hx
  by_cases hz : image.width = 0 ∨ image.height = 0
  · rw [C15_zero_dimension_image pf simd e image hz S w] at hx ⊢
    right
    injection hx with hx
    injection hx with hx
    exact ⟨⟨hz, hx.symm⟩, rfl⟩
  · left
    let A : Fail → Prop := fun f => ∀ x, f = .err x → Spec.FromWriter S x
    have hA : Lax A := ⟨fun _ _ _ h => by cases h⟩
    have key := (encodeImageInternal_only (A := A) hA hpf simd e (image := image) (fun h => absurd h hz)
      (FillFine.of_safe hA pf (fun y r f hf' x hx => absurd (hx ▸ hf') (hf y r x)) _)
      (fun _ _ _ _ b _ _ _ => optimizeIf_loose hA (fun _ h => by cases h) _ b)).run hpf S (fun w c x h y hy => by cases hy; exact ⟨w, c, h⟩) w
    exact key _ hx x rfl

/-- C57: the only errors of `encode_image` are those of the writer and the one for an empty image. (`fill_buffers` has no `Result`.) -/
theorem C57_encode_image {pf : Platform} (hpf : pf.Valid) (simd : Bool) (e : Encoder) {image : ImageBuffer}
    (hf : ∀ y r x, image.fillBuffers y r ≠ .error (.err x)) :
    Spec.ErrorsAre (e.encodeImage pf simd image) fun x => (image.width = 0 ∨ image.height = 0) ∧ x.source = none ∧
      x.display = "Image dimensions must be non zero: " ++ toString image.width.toNat ++ "x" ++ toString image.height.toNat := by
  intro σ S w x hx
  rcases encodeImage_errors hpf simd e hf σ S w x hx with h | ⟨⟨hz, rfl⟩, h⟩
  · exact Or.inl h
  · exact Or.inr ⟨⟨hz, rfl, rfl⟩, h⟩

/-- C57: the only errors of `encode` are those of the writer, the one for an empty image and the one for a slice that is too short, with
the actual and the required length. -/
theorem C57_encode {pf : Platform} (hpf : pf.Valid) (simd : Bool) (e : Encoder) (data : Bytes) (w h : UInt16) (ct : ColorType)
    (hfit : w.toNat * h.toNat * ct.bytesPerPixel < 2 ^ pf.wordBits) :
    Spec.ErrorsAre (e.encode pf simd data w h ct) fun x => x.source = none ∧
      if w = 0 ∨ h = 0 then x.display = "Image dimensions must be non zero: " ++ toString w.toNat ++ "x" ++ toString h.toNat
      else data.length < w.toNat * h.toNat * ct.bytesPerPixel ∧ x.display = "Image data too small for dimensions and color_type: " ++
        toString data.length ++ " need at least " ++ toString (w.toNat * h.toNat * ct.bytesPerPixel) := by
  intro σ S out x hx
  by_cases hz : w = 0 ∨ h = 0
  · rw [C15_zero_dimension_rejected pf simd e data w h ct hz S out] at hx ⊢
    injection hx with hx
    injection hx with hx
    subst hx
    exact Or.inr ⟨⟨rfl, by rw [if_pos hz]; rfl⟩, rfl⟩
  by_cases hlen : data.length < w.toNat * h.toNat * ct.bytesPerPixel
  · rw [C15_short_data_rejected pf simd e data w h ct hfit hlen S out] at hx ⊢
    injection hx with hx
    injection hx with hx
    subst hx
    exact Or.inr ⟨⟨rfl, by rw [if_neg hz]; exact ⟨hlen, rfl⟩⟩, rfl⟩
  · rw [C15_enough_data_accepted pf simd e data w h ct hfit (by omega)] at hx ⊢
    let A : Fail → Prop := fun f => ∀ x, f = .err x → False
    have hA : Lax A := ⟨fun _ _ _ h => by cases h⟩
    have hf : ∀ y r x, (imageFor pf simd data w h ct).fillBuffers y r ≠ .error (.err x) := fun y r x h' =>
      imageFor_loose (A := A) hA (fun _ h => by cases h) simd data w h ct y r _ h' x rfl
    obtain ⟨h1, h2⟩ := imageFor_width pf simd data w h ct
    rcases encodeImage_errors hpf simd e hf σ S out x hx with h | ⟨⟨h, -⟩, -⟩
    · exact Or.inl h
    · rw [h1, h2] at h
      exact absurd h hz

-- the messages
example : (EncodingError.badImageData 10 12).display = "Image data too small for dimensions and color_type: 10 need at least 12" := by decide +kernel
example : (EncodingError.zeroImageDimensions 0 7).display = "Image dimensions must be non zero: 0x7" := by decide +kernel

-- a writer that reports an error at every call
example (e : Encoder) : ((e.encode ⟨true, 8⟩ true [1, 2, 3] 1 1 .rgb).run (⟨fun w _ => (w, some (.io "disk full"))⟩ : Sink Unit) ()).2 ≠
    .error (.err (.io "network down")) := by
  intro h
  rcases C57_encode (pf := ⟨true, 8⟩) (by decide) true e [1, 2, 3] 1 1 .rgb (by decide) Unit _ () _ h with ⟨w, c, h'⟩ | ⟨⟨h', -⟩, -⟩
  · simp at h'
  · simp [EncodingError.source] at h'

end Jpeg
