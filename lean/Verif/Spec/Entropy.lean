import Mathlib.Analysis.SpecialFunctions.Log.Base
/-! Shannon's measure of information. Uses no model definition. -/
namespace Spec

/-- Information of a sequence of symbols, in bits: its length times the entropy of the distribution of its symbols. Every occurrence of a symbol that makes up the part `p` of the
sequence counts `log₂ (1 / p)`. -/
noncomputable def information (symbols : List Nat) : ℝ := (symbols.map fun v => Real.logb 2 (symbols.length / symbols.count v)).sum

/-- The digits of the magnitudes that follow the code words of the symbols (the low four bits of a symbol say how many). -/
def magnitudeBits (symbols : List Nat) : Nat := (symbols.map fun v => v % 16).sum

-- four different symbols: two bits each
example : information [3, 1, 4, 5] = 8 := by
  have h : Real.logb 2 4 = 2 := by
    rw [show (4 : ℝ) = 2 ^ (2 : ℝ) by norm_num, Real.logb_rpow] <;> norm_num
  simp [information, h]
  norm_num
-- no information
example : information [7, 7, 7, 7] = 0 := by simp [information]

end Spec
