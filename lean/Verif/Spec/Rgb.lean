import Verif.Spec.Formats
import Mathlib.Data.Real.Basic
import Mathlib.Algebra.BigOperators.Group.Finset.Basic
/-! RGB pixels and their reconstruction. -/
namespace Jpeg.Spec

/-- Red, green and blue of the pixel at line `y`, column `x` of `data` with `w` columns, for the pixel formats with these colours. -/
def rgbAt (ct : ColorType) (data : Bytes) (w y x : Nat) : UInt8 × UInt8 × UInt8 :=
  let byte (i : Nat) : UInt8 := data.getD ((y * w + x) * ct.bytesPerPixel + i) 0
  match ct with
  | .bgr | .bgra => (byte 2, byte 1, byte 0)
  | _ => (byte 0, byte 1, byte 2)

/-- The pixel formats with red, green and blue. -/
def HasRgb (ct : ColorType) : Prop := ct = .rgb ∨ ct = .rgba ∨ ct = .bgr ∨ ct = .bgra

end Jpeg.Spec

namespace Spec

/-- JFIF 1.02: red, green and blue of YCbCr samples. -/
noncomputable def jfifRed (y cr : ℝ) : ℝ := y + 1.402 * (cr - 128)
noncomputable def jfifGreen (y cb cr : ℝ) : ℝ := y - 0.34414 * (cb - 128) - 0.71414 * (cr - 128)
noncomputable def jfifBlue (y cb : ℝ) : ℝ := y + 1.772 * (cb - 128)

/-- Mean squared difference of two 8x8 blocks. -/
noncomputable def blockMse (a b : Nat → Nat → ℝ) : ℝ :=
  (∑ y ∈ Finset.range 8, ∑ x ∈ Finset.range 8, (a y x - b y x) ^ 2) / 64

end Spec
