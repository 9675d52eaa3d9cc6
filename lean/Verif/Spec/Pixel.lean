import Verif.Spec.Rgb
import Verif.Spec.Dct
/-! What a decoder makes of one sample. -/
namespace Jpeg.Spec
open _root_.Spec Real

/-- The weight of the coefficient `(u, v)` in the sample at line `y`, column `x` of a block (inverse DCT, T.81 A.3.3). -/
noncomputable def basis (u v y x : Nat) : ℝ := |1 / 4 * dctC u * dctC v * cos ((2 * x + 1) * v * π / 16) * cos ((2 * y + 1) * u * π / 16)|

/-- How far a sample may be off after quantisation with the steps of `table` (in zig-zag order): every coefficient is off by what quantising it changes
plus what the forward DCT computes wrong (2.75 / 8, or 3.75 / 8 with AVX2), and counts with its weight. -/
noncomputable def pixelLoss (simd : Bool) (table : List Nat) (y x : Nat) : ℝ :=
  ∑ u ∈ Finset.range 8, ∑ v ∈ Finset.range 8,
    basis u v y x * (quantError (table.getD (zigzag.idxOf (8 * u + v)) 0) + (if simd then 3.75 else 2.75) / 8)

/-- A decoder makes the sample `n` of the real number `r`: it clamps `r` to 0..255 and rounds it to a nearest integer. -/
def RoundsTo (r : ℝ) (n : Int) : Prop := |(n : ℝ) - max 0 (min 255 r)| ≤ 1 / 2

/-- A decoder that does not compute exactly makes a value `n` of the real number `r` that is off by at most `ε` after clamping to 0..255. -/
def DecodesWithin (ε r n : ℝ) : Prop := |n - max 0 (min 255 r)| ≤ ε

/-- IEEE 1180: the sample a decoder makes is off by at most one from the sample that exact arithmetic gives. -/
def PeakErrorOne (r : ℝ) (n : Int) : Prop := ∃ m, RoundsTo r m ∧ |n - m| ≤ 1

end Jpeg.Spec
