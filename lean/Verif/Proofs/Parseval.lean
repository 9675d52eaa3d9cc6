import Verif.Proofs.Accuracy
import Mathlib.LinearAlgebra.Matrix.Trace
import Mathlib.LinearAlgebra.Matrix.NonsingularInverse
import Mathlib.Algebra.BigOperators.Field
import Mathlib.Tactic.FinCases
/-! Orthogonality of the DCT. -/
namespace Jpeg
open _root_.Spec Real

theorem ct0 : ct 0 = √2 := by unfold ct; simp
theorem ct8 : ct 8 = 0 := by
  unfold ct
  rw [show ((8 : Nat) : ℝ) * π / 16 = π / 2 by push_cast; ring, cos_pi_div_two, mul_zero]

theorem cs_8 : ct 8 = 0 := ct8
theorem cs_10 : ct 10 = -ct 6 := (ct_mod 0 10).trans (ct_sub16 (m := 6) (by norm_num))
theorem cs_12 : ct 12 = -ct 4 := (ct_mod 0 12).trans (ct_sub16 (m := 4) (by norm_num))
theorem cs_14 : ct 14 = -ct 2 := (ct_mod 0 14).trans (ct_sub16 (m := 2) (by norm_num))
theorem cs_16 : ct 16 = -ct 0 := (ct_mod 0 16).trans (ct_sub16 (m := 0) (by norm_num))
theorem cs_18 : ct 18 = -ct 2 := (ct_mod 0 18).trans (ct_add16 2)
theorem cs_20 : ct 20 = -ct 4 := (ct_mod 0 20).trans (ct_add16 4)
theorem cs_22 : ct 22 = -ct 6 := (ct_mod 0 22).trans (ct_add16 6)
theorem cs_24 : ct 24 = 0 := by rw [show ct 24 = -ct 8 from (ct_mod 0 24).trans (ct_add16 8), ct8]; norm_num
theorem cs_26 : ct 26 = ct 6 := (ct_mod 0 26).trans ((ct_add16 10).trans (by rw [show ct 10 = -ct 6 from ct_sub16 (m := 6) (by norm_num), neg_neg]))
theorem cs_28 : ct 28 = ct 4 := (ct_mod 0 28).trans ((ct_add16 12).trans (by rw [show ct 12 = -ct 4 from ct_sub16 (m := 4) (by norm_num), neg_neg]))
theorem cs_30 : ct 30 = ct 2 := (ct_mod 0 30).trans ((ct_add16 14).trans (by rw [show ct 14 = -ct 2 from ct_sub16 (m := 2) (by norm_num), neg_neg]))
theorem cs_32 : ct 32 = ct 0 := (ct_mod 1 0)
theorem cs_36 : ct 36 = ct 4 := (ct_mod 1 4)
theorem cs_40 : ct 40 = 0 := by rw [show ct 40 = ct 8 from (ct_mod 1 8), ct8]
theorem cs_42 : ct 42 = -ct 6 := (ct_mod 1 10).trans (ct_sub16 (m := 6) (by norm_num))
theorem cs_44 : ct 44 = -ct 4 := (ct_mod 1 12).trans (ct_sub16 (m := 4) (by norm_num))
theorem cs_48 : ct 48 = -ct 0 := (ct_mod 1 16).trans (ct_sub16 (m := 0) (by norm_num))
theorem cs_50 : ct 50 = -ct 2 := (ct_mod 1 18).trans (ct_add16 2)
theorem cs_52 : ct 52 = -ct 4 := (ct_mod 1 20).trans (ct_add16 4)
theorem cs_54 : ct 54 = -ct 6 := (ct_mod 1 22).trans (ct_add16 6)
theorem cs_56 : ct 56 = 0 := by rw [show ct 56 = -ct 8 from (ct_mod 1 24).trans (ct_add16 8), ct8]; norm_num
theorem cs_60 : ct 60 = ct 4 := (ct_mod 1 28).trans ((ct_add16 12).trans (by rw [show ct 12 = -ct 4 from ct_sub16 (m := 4) (by norm_num), neg_neg]))
theorem cs_64 : ct 64 = ct 0 := (ct_mod 2 0)
theorem cs_66 : ct 66 = ct 2 := (ct_mod 2 2)
theorem cs_70 : ct 70 = ct 6 := (ct_mod 2 6)
theorem cs_72 : ct 72 = 0 := by rw [show ct 72 = ct 8 from (ct_mod 2 8), ct8]
theorem cs_78 : ct 78 = -ct 2 := (ct_mod 2 14).trans (ct_sub16 (m := 2) (by norm_num))
theorem cs_80 : ct 80 = -ct 0 := (ct_mod 2 16).trans (ct_sub16 (m := 0) (by norm_num))
theorem cs_84 : ct 84 = -ct 4 := (ct_mod 2 20).trans (ct_add16 4)
theorem cs_88 : ct 88 = 0 := by rw [show ct 88 = -ct 8 from (ct_mod 2 24).trans (ct_add16 8), ct8]; norm_num
theorem cs_90 : ct 90 = ct 6 := (ct_mod 2 26).trans ((ct_add16 10).trans (by rw [show ct 10 = -ct 6 from ct_sub16 (m := 6) (by norm_num), neg_neg]))
theorem cs_96 : ct 96 = ct 0 := (ct_mod 3 0)
theorem cs_98 : ct 98 = ct 2 := (ct_mod 3 2)
theorem cs_100 : ct 100 = ct 4 := (ct_mod 3 4)
theorem cs_104 : ct 104 = 0 := by rw [show ct 104 = ct 8 from (ct_mod 3 8), ct8]
theorem cs_108 : ct 108 = -ct 4 := (ct_mod 3 12).trans (ct_sub16 (m := 4) (by norm_num))
theorem cs_110 : ct 110 = -ct 2 := (ct_mod 3 14).trans (ct_sub16 (m := 2) (by norm_num))
theorem cs_112 : ct 112 = -ct 0 := (ct_mod 3 16).trans (ct_sub16 (m := 0) (by norm_num))
theorem cs_120 : ct 120 = 0 := by rw [show ct 120 = -ct 8 from (ct_mod 3 24).trans (ct_add16 8), ct8]; norm_num
theorem cs_126 : ct 126 = ct 2 := (ct_mod 3 30).trans ((ct_add16 14).trans (by rw [show ct 14 = -ct 2 from ct_sub16 (m := 2) (by norm_num), neg_neg]))
theorem cs_130 : ct 130 = ct 2 := (ct_mod 4 2)
theorem cs_132 : ct 132 = ct 4 := (ct_mod 4 4)
theorem cs_140 : ct 140 = -ct 4 := (ct_mod 4 12).trans (ct_sub16 (m := 4) (by norm_num))
theorem cs_144 : ct 144 = -ct 0 := (ct_mod 4 16).trans (ct_sub16 (m := 0) (by norm_num))
theorem cs_154 : ct 154 = ct 6 := (ct_mod 4 26).trans ((ct_add16 10).trans (by rw [show ct 10 = -ct 6 from ct_sub16 (m := 6) (by norm_num), neg_neg]))
theorem cs_156 : ct 156 = ct 4 := (ct_mod 4 28).trans ((ct_add16 12).trans (by rw [show ct 12 = -ct 4 from ct_sub16 (m := 4) (by norm_num), neg_neg]))
theorem cs_168 : ct 168 = 0 := by rw [show ct 168 = ct 8 from (ct_mod 5 8), ct8]
theorem cs_182 : ct 182 = -ct 6 := (ct_mod 5 22).trans (ct_add16 6)
theorem cs_196 : ct 196 = ct 4 := (ct_mod 6 4)

theorem cosum0 : ∑ k ∈ Finset.range 7, ct (2 * (k + 1) * 0) = 7 * √2 := by
  simp only [Finset.sum_range_succ, Finset.sum_range_zero]
  norm_num [ct0, ct4]
  try ring

theorem cosum1 : ∑ k ∈ Finset.range 7, ct (2 * (k + 1) * 1) = 0 := by
  simp only [Finset.sum_range_succ, Finset.sum_range_zero]
  norm_num [cs_8, cs_10, cs_12, cs_14, ct0, ct4]
  try ring

theorem cosum2 : ∑ k ∈ Finset.range 7, ct (2 * (k + 1) * 2) = -√2 := by
  simp only [Finset.sum_range_succ, Finset.sum_range_zero]
  norm_num [cs_8, cs_12, cs_16, cs_20, cs_24, cs_28, ct0, ct4]
  try ring

theorem cosum3 : ∑ k ∈ Finset.range 7, ct (2 * (k + 1) * 3) = 0 := by
  simp only [Finset.sum_range_succ, Finset.sum_range_zero]
  norm_num [cs_12, cs_18, cs_24, cs_30, cs_36, cs_42, ct0, ct4]
  try ring

theorem cosum4 : ∑ k ∈ Finset.range 7, ct (2 * (k + 1) * 4) = -√2 := by
  simp only [Finset.sum_range_succ, Finset.sum_range_zero]
  norm_num [cs_8, cs_16, cs_24, cs_32, cs_40, cs_48, cs_56, ct0, ct4]
  try ring

theorem cosum5 : ∑ k ∈ Finset.range 7, ct (2 * (k + 1) * 5) = 0 := by
  simp only [Finset.sum_range_succ, Finset.sum_range_zero]
  norm_num [cs_10, cs_20, cs_30, cs_40, cs_50, cs_60, cs_70, ct0, ct4]
  try ring

theorem cosum6 : ∑ k ∈ Finset.range 7, ct (2 * (k + 1) * 6) = -√2 := by
  simp only [Finset.sum_range_succ, Finset.sum_range_zero]
  norm_num [cs_12, cs_24, cs_36, cs_48, cs_60, cs_72, cs_84, ct0, ct4]
  try ring

theorem cosum7 : ∑ k ∈ Finset.range 7, ct (2 * (k + 1) * 7) = 0 := by
  simp only [Finset.sum_range_succ, Finset.sum_range_zero]
  norm_num [cs_14, cs_28, cs_42, cs_56, cs_70, cs_84, cs_98, ct0, ct4]
  try ring

theorem cosum8 : ∑ k ∈ Finset.range 7, ct (2 * (k + 1) * 8) = -√2 := by
  simp only [Finset.sum_range_succ, Finset.sum_range_zero]
  norm_num [cs_16, cs_32, cs_48, cs_64, cs_80, cs_96, cs_112, ct0, ct4]
  try ring

theorem cosum9 : ∑ k ∈ Finset.range 7, ct (2 * (k + 1) * 9) = 0 := by
  simp only [Finset.sum_range_succ, Finset.sum_range_zero]
  norm_num [cs_18, cs_36, cs_54, cs_72, cs_90, cs_108, cs_126, ct0, ct4]
  try ring

theorem cosum10 : ∑ k ∈ Finset.range 7, ct (2 * (k + 1) * 10) = -√2 := by
  simp only [Finset.sum_range_succ, Finset.sum_range_zero]
  norm_num [cs_20, cs_40, cs_60, cs_80, cs_100, cs_120, cs_140, ct0, ct4]
  try ring

theorem cosum11 : ∑ k ∈ Finset.range 7, ct (2 * (k + 1) * 11) = 0 := by
  simp only [Finset.sum_range_succ, Finset.sum_range_zero]
  norm_num [cs_22, cs_44, cs_66, cs_88, cs_110, cs_132, cs_154, ct0, ct4]
  try ring

theorem cosum12 : ∑ k ∈ Finset.range 7, ct (2 * (k + 1) * 12) = -√2 := by
  simp only [Finset.sum_range_succ, Finset.sum_range_zero]
  norm_num [cs_24, cs_48, cs_72, cs_96, cs_120, cs_144, cs_168, ct0, ct4]
  try ring

theorem cosum13 : ∑ k ∈ Finset.range 7, ct (2 * (k + 1) * 13) = 0 := by
  simp only [Finset.sum_range_succ, Finset.sum_range_zero]
  norm_num [cs_26, cs_52, cs_78, cs_104, cs_130, cs_156, cs_182, ct0, ct4]
  try ring

theorem cosum14 : ∑ k ∈ Finset.range 7, ct (2 * (k + 1) * 14) = -√2 := by
  simp only [Finset.sum_range_succ, Finset.sum_range_zero]
  norm_num [cs_28, cs_56, cs_84, cs_112, cs_140, cs_168, cs_196, ct0, ct4]
  try ring

theorem cosum {m : Nat} (hm : m < 15) : ∑ k ∈ Finset.range 7, ct (2 * (k + 1) * m) = if m = 0 then 7 * √2 else if m % 2 = 1 then 0 else -√2 := by
  interval_cases m
  exacts [cosum0, cosum1, cosum2, cosum3, cosum4, cosum5, cosum6, cosum7, cosum8, cosum9, cosum10, cosum11, cosum12, cosum13, cosum14]

/-- The orthonormal matrix of the DCT. -/
noncomputable def dctM (y u : Nat) : ℝ := dctC u / 2 * cos ((2 * y + 1) * u * π / 16)

theorem cos_prod (a b k : Nat) (hab : b ≤ a) : √2 * (cos ((2 * a + 1) * k * π / 16) * cos ((2 * b + 1) * k * π / 16)) =
    (ct (2 * k * (a + b + 1)) + ct (2 * k * (a - b))) / 2 := by
  unfold ct
  have h1 : ((2 * k * (a + b + 1) : Nat) : ℝ) * π / 16 = (2 * a + 1) * k * π / 16 + (2 * b + 1) * k * π / 16 := by push_cast; ring
  have h2 : ((2 * k * (a - b) : Nat) : ℝ) * π / 16 = (2 * a + 1) * k * π / 16 - (2 * b + 1) * k * π / 16 := by
    push_cast [hab]; ring
  rw [h1, h2, cos_add, cos_sub]
  ring

theorem dctM_orth_le {a b : Nat} (ha : a < 8) (hb : b ≤ a) : ∑ k ∈ Finset.range 8, dctM a k * dctM b k = if a = b then 1 else 0 := by
  have s2 : √2 * √2 = 2 := Real.mul_self_sqrt (by norm_num)
  have s0 : √2 ≠ 0 := by positivity
  rw [Finset.sum_range_succ']
  have h0 : dctM a 0 * dctM b 0 = 1 / 8 := by
    have : dctC 0 = 1 / √2 := if_pos rfl
    simp only [dctM, this, Nat.cast_zero, mul_zero, zero_mul, zero_div, cos_zero, mul_one]
    field_simp
    nlinarith
  have h1 : ∀ k, dctM a (k + 1) * dctM b (k + 1) = (ct (2 * (k + 1) * (a + b + 1)) + ct (2 * (k + 1) * (a - b))) / (8 * √2) := by
    intro k
    have := cos_prod a b (k + 1) hb
    simp only [dctM, dctC, Nat.succ_ne_zero, if_false]
    rw [eq_div_iff (by positivity)]
    linear_combination 2 * this
  rw [h0, Finset.sum_congr rfl fun k _ => h1 k, ← Finset.sum_div, Finset.sum_add_distrib]
  have h7 : ∑ k ∈ Finset.range 7, ct (2 * (k + 1) * (a + b + 1)) + ∑ k ∈ Finset.range 7, ct (2 * (k + 1) * (a - b)) =
      if a = b then 7 * √2 else -√2 := by
    rw [cosum (show a - b < 15 by omega)]
    by_cases h15 : a + b + 1 < 15
    · rw [cosum h15]
      have e1 : a + b + 1 ≠ 0 := by omega
      by_cases he : a = b
      · subst he
        simp [show (a + a + 1) % 2 = 1 by omega]
      · have e2 : a - b ≠ 0 := by omega
        rw [if_neg e1, if_neg e2, if_neg he]
        by_cases hp : (a - b) % 2 = 1
        · rw [if_pos hp, if_neg (by omega)]; ring
        · rw [if_neg hp, if_pos (by omega)]; ring
    · obtain ⟨rfl, rfl⟩ : a = 7 ∧ b = 7 := by omega
      have : ∀ k, ct (2 * (k + 1) * (7 + 7 + 1)) = ct (2 * (k + 1) * 1) := by
        intro k
        unfold ct
        rw [show ((2 * (k + 1) * (7 + 7 + 1) : Nat) : ℝ) * π / 16 = (k + 1 : Nat) * (2 * π) - ((2 * (k + 1) * 1 : Nat) : ℝ) * π / 16 by
          push_cast; ring, cos_nat_mul_two_pi_sub]
      rw [Finset.sum_congr rfl fun k _ => this k, cosum1]
      norm_num
  rw [h7]
  by_cases he : a = b
  · rw [if_pos he, if_pos he]; field_simp; norm_num
  · rw [if_neg he, if_neg he]; field_simp; norm_num

theorem dctM_orth {a b : Nat} (ha : a < 8) (hb : b < 8) : ∑ k ∈ Finset.range 8, dctM a k * dctM b k = if a = b then 1 else 0 := by
  rcases le_total b a with h | h
  · exact dctM_orth_le ha h
  · rw [Finset.sum_congr rfl fun k _ => mul_comm (dctM a k) (dctM b k), dctM_orth_le hb h]
    simp only [eq_comm]

open Matrix in
/-- Rows: samples, columns: frequencies. -/
noncomputable def dctMat : Matrix (Fin 8) (Fin 8) ℝ := Matrix.of fun y u => dctM y u

open Matrix in
theorem dctMat_orth : dctMat * dctMatᵀ = 1 := by
  ext a b
  rw [Matrix.mul_apply]
  simp only [dctMat, Matrix.transpose_apply, Matrix.of_apply]
  have := dctM_orth a.2 b.2
  rw [Finset.sum_range] at this
  rw [this, Matrix.one_apply]
  simp only [Fin.ext_iff]

open Matrix in
theorem dctMat_orth' : dctMatᵀ * dctMat = 1 := mul_eq_one_comm.mp dctMat_orth

open Matrix in
/-- A block as a matrix. -/
noncomputable def blockMat (s : Nat → Nat → ℝ) : Matrix (Fin 8) (Fin 8) ℝ := Matrix.of fun y x => s y x

open Matrix in
theorem blockMat_dct (s : Nat → Nat → ℝ) : blockMat (realDct s) = dctMatᵀ * blockMat s * dctMat := by
  ext u v
  simp only [blockMat, dctMat, Matrix.mul_apply, Matrix.transpose_apply, Matrix.of_apply, realDct, Finset.sum_range]
  rw [Finset.mul_sum]
  simp only [Finset.sum_mul, Finset.mul_sum]
  rw [Finset.sum_comm]
  refine Finset.sum_congr rfl fun x _ => Finset.sum_congr rfl fun y _ => ?_
  simp only [dctM]
  ring

open Matrix in
theorem blockMat_idct (S : Nat → Nat → ℝ) : blockMat (realIdct S) = dctMat * blockMat S * dctMatᵀ := by
  ext y x
  simp only [blockMat, dctMat, Matrix.mul_apply, Matrix.transpose_apply, Matrix.of_apply, realIdct, Finset.sum_range]
  rw [Finset.mul_sum]
  simp only [Finset.sum_mul, Finset.mul_sum]
  rw [Finset.sum_comm]
  refine Finset.sum_congr rfl fun v _ => Finset.sum_congr rfl fun u _ => ?_
  simp only [dctM]
  ring

open Matrix in
theorem sum_sq (s : Nat → Nat → ℝ) : ∑ y ∈ Finset.range 8, ∑ x ∈ Finset.range 8, s y x ^ 2 = (blockMat s * (blockMat s)ᵀ).trace := by
  simp only [Matrix.trace, Matrix.diag_apply, Matrix.mul_apply, Matrix.transpose_apply, blockMat, Matrix.of_apply, Finset.sum_range]
  exact Finset.sum_congr rfl fun y _ => Finset.sum_congr rfl fun x _ => by ring

open Matrix in
/-- Parseval: the squared error of the reconstructed samples is that of the coefficients. -/
theorem parseval (s S : Nat → Nat → ℝ) : ∑ y ∈ Finset.range 8, ∑ x ∈ Finset.range 8, (realIdct S y x - s y x) ^ 2 =
    ∑ u ∈ Finset.range 8, ∑ v ∈ Finset.range 8, (S u v - realDct s u v) ^ 2 := by
  rw [sum_sq fun y x => realIdct S y x - s y x, sum_sq fun u v => S u v - realDct s u v]
  have hE : (blockMat fun u v => S u v - realDct s u v) = blockMat S - dctMatᵀ * blockMat s * dctMat := by
    rw [← blockMat_dct]; rfl
  have he : (blockMat fun y x => realIdct S y x - s y x) = dctMat * (blockMat fun u v => S u v - realDct s u v) * dctMatᵀ := by
    have : (blockMat fun y x => realIdct S y x - s y x) = blockMat (realIdct S) - blockMat s := rfl
    rw [this, blockMat_idct, hE, Matrix.mul_sub, Matrix.sub_mul]
    congr 1
    have : dctMat * (dctMatᵀ * blockMat s * dctMat) * dctMatᵀ = dctMat * dctMatᵀ * blockMat s * (dctMat * dctMatᵀ) := by
      simp only [Matrix.mul_assoc]
    rw [this, dctMat_orth, Matrix.one_mul, Matrix.mul_one]
  rw [he]
  generalize (blockMat fun u v => S u v - realDct s u v) = A
  have : dctMat * A * dctMatᵀ * (dctMat * A * dctMatᵀ)ᵀ = dctMat * (A * (dctMatᵀ * dctMat) * Aᵀ * dctMatᵀ) := by
    simp only [Matrix.transpose_mul, Matrix.transpose_transpose, Matrix.mul_assoc]
  rw [this, dctMat_orth', Matrix.mul_one, Matrix.trace_mul_comm, Matrix.mul_assoc, dctMat_orth', Matrix.mul_one]

end Jpeg
