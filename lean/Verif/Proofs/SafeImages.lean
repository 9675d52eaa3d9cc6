import Verif.Proofs.SafeEncode
/-! The image buffers of the crate: for any data `fill_buffers` ends, and without SIMD it has no undefined behaviour. -/
namespace Jpeg
set_option maxRecDepth 10000

section
variable {A : Fail → Prop} (hA : Lax A) {pf : Platform}
include hA

theorem rgbToYcbcr_only (r g b : UInt8) : ROnly A (rgbToYcbcr pf r g b) := by unfold rgbToYcbcr; only
theorem inv8_only (k : UInt8) : ROnly A (inv8 pf k) := by unfold inv8; only
theorem cmykToYcck_only (c m y k : UInt8) : ROnly A (cmykToYcck pf c m y k) := by
  unfold cmykToYcck
  exact (rgbToYcbcr_only hA _ _ _).bind fun _ => (inv8_only hA _).bind fun _ => .ok _
theorem getLine_only (d : Bytes) (y w : UInt16) (n : Nat) : ROnly A (getLine pf d y w n) := by unfold getLine; only

/-- The scalar image buffers (the only ones without SIMD). -/
theorem imageFor_only (data : Bytes) (w h : UInt16) (ct : ColorType) (y : UInt16) (rows : Rows) : ROnly A ((imageFor pf false data w h ct).fillBuffers y rows) := by
  have hrgb : ∀ n o1 o2 o3, ROnly A (fillRgb pf n o1 o2 o3 data w y rows) := fun n o1 o2 o3 => by
    unfold fillRgb
    exact (getLine_only hA _ _ _ _).bind fun _ => .forFoldR fun _ _ => (idx_only hA _ _).bind fun _ => (idx_only hA _ _).bind fun _ => (idx_only hA _ _).bind fun _ =>
      (rgbToYcbcr_only hA _ _ _).bind fun _ => .ok _
  cases ct
  · show ROnly A (fillGray pf data w y rows)
    unfold fillGray
    exact (getLine_only hA _ _ _ _).bind fun _ => .forFoldR fun _ _ => .ok _
  · exact hrgb 3 0 1 2
  · exact hrgb 4 0 1 2
  · exact hrgb 3 2 1 0
  · exact hrgb 4 2 1 0
  · show ROnly A (fillYcbcr pf data w y rows)
    unfold fillYcbcr
    exact (getLine_only hA _ _ _ _).bind fun _ => .forFoldR fun _ _ => (idx_only hA _ _).bind fun _ => (idx_only hA _ _).bind fun _ => (idx_only hA _ _).bind fun _ => .ok _
  · show ROnly A (fillCmyk pf data w y rows)
    unfold fillCmyk
    exact (getLine_only hA _ _ _ _).bind fun _ => .forFoldR fun _ _ => (idx_only hA _ _).bind fun _ => (idx_only hA _ _).bind fun _ => (idx_only hA _ _).bind fun _ => (idx_only hA _ _).bind fun _ =>
      (inv8_only hA _).bind fun _ => (inv8_only hA _).bind fun _ => (inv8_only hA _).bind fun _ => (inv8_only hA _).bind fun _ => .ok _
  · show ROnly A (fillCmykAsYcck pf data w y rows)
    unfold fillCmykAsYcck
    exact (getLine_only hA _ _ _ _).bind fun _ => .forFoldR fun _ _ => (idx_only hA _ _).bind fun _ => (idx_only hA _ _).bind fun _ => (idx_only hA _ _).bind fun _ => (idx_only hA _ _).bind fun _ =>
      (cmykToYcck_only hA _ _ _ _).bind fun _ => .ok _
  · show ROnly A (fillYcck pf data w y rows)
    unfold fillYcck
    exact (getLine_only hA _ _ _ _).bind fun _ => .forFoldR fun _ _ => (idx_only hA _ _).bind fun _ => (idx_only hA _ _).bind fun _ => (idx_only hA _ _).bind fun _ => (idx_only hA _ _).bind fun _ => .ok _

/-- All image buffers, if undefined behaviour is admitted. -/
theorem imageFor_loose (hub : A (.panic .ub)) (simd : Bool) (data : Bytes) (w h : UInt16) (ct : ColorType) (y : UInt16) (rows : Rows) :
    ROnly A ((imageFor pf simd data w h ct).fillBuffers y rows) := by
  cases simd with
  | false => exact imageFor_only hA data w h ct y rows
  | true =>
    have hrd : ∀ i, ROnly A (Avx2.rd data i) := fun i => by
      unfold Avx2.rd
      split
      · exact .ok _
      · exact .error hub
    have hld : ∀ n p, ROnly A (Avx2.load3 n data p) := fun n p => by
      unfold Avx2.load3
      exact (ROnly.mapR fun _ => hrd _).bind fun _ => .ok _
    have hloop : ∀ n o1 o2 o3 k p, ROnly A (Avx2.avxLoop n o1 o2 o3 data k p) := by
      intro n o1 o2 o3 k
      induction k with
      | zero => intro p; exact .ok _
      | succ k ih =>
        intro p
        unfold Avx2.avxLoop
        exact (hld _ _).bind fun _ => (hld _ _).bind fun _ => (hld _ _).bind fun _ => (ih _).bind fun _ => .ok _
    have htail : ∀ n o1 o2 o3 k p, ROnly A (Avx2.tailLoop pf n o1 o2 o3 data k p) := by
      intro n o1 o2 o3 k
      induction k with
      | zero => intro p; exact .ok _
      | succ k ih =>
        intro p
        unfold Avx2.tailLoop
        exact (hrd _).bind fun _ => (hrd _).bind fun _ => (hrd _).bind fun _ => (rgbToYcbcr_only hA _ _ _).bind fun _ => (ih _).bind fun _ => .ok _
    have hext : ∀ b n l, ROnly A (Avx2.extendUnchecked b n l) := fun b n l => by
      unfold Avx2.extendUnchecked
      exact .ite (.ok _) (.error hub)
    have hfill : ∀ n o1 o2 o3, ROnly A (Avx2.fillRgbAvx2 pf n o1 o2 o3 data w y rows) := fun n o1 o2 o3 => by
      unfold Avx2.fillRgbAvx2
      refine (ckI_only hA _ _ _).bind fun _ => (ckI_only hA _ _ _).bind fun _ => ?_
      split
      · exact (ROnly.error hub).bind fun _ => (hloop _ _ _ _ _ _).bind fun _ => (htail _ _ _ _ _ _).bind fun _ => (hext _ _ _).bind fun _ => (hext _ _ _).bind fun _ => (hext _ _ _).bind fun _ => .ok _
      · exact (ROnly.ok _).bind fun _ => (hloop _ _ _ _ _ _).bind fun _ => (htail _ _ _ _ _ _).bind fun _ => (hext _ _ _).bind fun _ => (hext _ _ _).bind fun _ => (hext _ _ _).bind fun _ => .ok _
    cases ct
    case rgb => exact hfill 3 0 1 2
    case rgba => exact hfill 4 0 1 2
    case bgr => exact hfill 3 2 1 0
    case bgra => exact hfill 4 2 1 0
    case luma => exact (imageFor_only hA (pf := pf) data w h .luma y rows :)
    case ycbcr => exact (imageFor_only hA (pf := pf) data w h .ycbcr y rows :)
    case cmyk => exact (imageFor_only hA (pf := pf) data w h .cmyk y rows :)
    case cmykAsYcck => exact (imageFor_only hA (pf := pf) data w h .cmykAsYcck y rows :)
    case ycck => exact (imageFor_only hA (pf := pf) data w h .ycck y rows :)

end
end Jpeg
