import Verif.Spec.Quant
import Mathlib.Analysis.SpecialFunctions.Trigonometric.Basic
/-! The forward DCT of ITU-T T.81, A.3.3, on real numbers. Uses no model definition. -/
namespace Spec
open Real

/-- `C(0) = 1/√2`, `C(k) = 1` otherwise. -/
noncomputable def dctC (k : Nat) : ℝ := if k = 0 then 1 / √2 else 1

/-- A.3.3, FDCT: `S(u, v) = 1/4 C(u) C(v) Σ Σ s(y, x) cos((2x+1)vπ/16) cos((2y+1)uπ/16)`; here `u` is the vertical frequency (with `y`)
and `v` the horizontal one (with `x`). -/
noncomputable def realDct (s : Nat → Nat → ℝ) (u v : Nat) : ℝ :=
  1 / 4 * dctC u * dctC v * ∑ y ∈ Finset.range 8, ∑ x ∈ Finset.range 8,
    s y x * cos ((2 * x + 1) * v * π / 16) * cos ((2 * y + 1) * u * π / 16)

/-- A.3.3, IDCT: `s(y, x) = 1/4 Σ Σ C(u) C(v) S(u, v) cos((2x+1)vπ/16) cos((2y+1)uπ/16)`. -/
noncomputable def realIdct (S : Nat → Nat → ℝ) (y x : Nat) : ℝ :=
  1 / 4 * ∑ u ∈ Finset.range 8, ∑ v ∈ Finset.range 8,
    dctC u * dctC v * S u v * cos ((2 * x + 1) * v * π / 16) * cos ((2 * y + 1) * u * π / 16)

open Classical in
/-- What quantisation by `step` may change: half a step (rounding to nearest) for powers of two, 2/3 of a step otherwise. -/
noncomputable def quantError (step : Nat) : ℝ := if ∃ j, step = 2 ^ j then step / 2 else 2 * step / 3

/-- Dequantisation (A.3.4) of a block: coefficient `(u, v)` is found at its zig-zag position, in the block and in the table. -/
noncomputable def dequantized (table : List Nat) (coefs : Nat → Int) (u v : Nat) : ℝ :=
  table.getD (zigzag.idxOf (8 * u + v)) 0 * coefs (zigzag.idxOf (8 * u + v))

/-- The samples a decoder reconstructs (before rounding and clamping to 0..255): inverse DCT of the dequantised block and level shift. -/
noncomputable def reconstructed (table : List Nat) (coefs : Nat → Int) (y x : Nat) : ℝ :=
  realIdct (dequantized table coefs) y x + 128

end Spec
