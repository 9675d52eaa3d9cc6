import Verif.Proofs.Cosine
import Verif.Proofs.Fdct
import Mathlib.Data.Real.Basic
import Mathlib.Tactic.Positivity
/-! Accuracy of the scalar forward DCT. -/
namespace Jpeg
open _root_.Spec Real

/-- The integer matrix of the 8 point transform, scaled by 8192. -/
def dctA (k x : Nat) : Int := ([
   [8192, 8192, 8192, 8192, 8192, 8192, 8192, 8192],
   [11363, 9633, 6437, 2260, -2260, -6437, -9633, -11363],
   [10703, 4433, -4433, -10703, -10703, -4433, 4433, 10703],
   [9633, -2259, -11362, -6436, 6436, 11362, 2259, -9633],
   [8192, -8192, -8192, 8192, 8192, -8192, -8192, 8192],
   [6437, -11362, 2261, 9633, -9633, -2261, 11362, -6437],
   [4433, -10704, 10704, -4433, -4433, 10704, -10704, 4433],
   [2260, -6436, 9633, -11363, 11363, -9633, 6436, -2260]].getD k []).getD x 0

/-- The real matrix. -/
noncomputable def dctc (k x : Nat) : ℝ := √2 * dctC k * cos ((2 * x + 1) * k * π / 16)

theorem dctc_eq (k x : Nat) (hk : k ≠ 0) : dctc k x = ct ((2 * x + 1) * k) := by
  unfold dctc ct dctC
  rw [if_neg hk]
  push_cast
  ring_nf

theorem dctc_zero (x : Nat) : dctc 0 x = 1 := by
  unfold dctc dctC
  rw [if_pos rfl]
  have : √2 ≠ 0 := by positivity
  simp [this]

theorem ct_mod (n m : Nat) : ct (m + 32 * n) = ct m := by
  induction n with
  | zero => rfl
  | succ n ih => rw [show m + 32 * (n + 1) = m + 32 * n + 16 + 16 by ring, ct_add16, ct_add16, neg_neg, ih]

theorem ct_9 : ct 9 = -ct 7 := (ct_mod 0 9).trans (ct_sub16 (m := 7) (by norm_num))
theorem ct_10 : ct 10 = -ct 6 := (ct_mod 0 10).trans (ct_sub16 (m := 6) (by norm_num))
theorem ct_11 : ct 11 = -ct 5 := (ct_mod 0 11).trans (ct_sub16 (m := 5) (by norm_num))
theorem ct_12 : ct 12 = -ct 4 := (ct_mod 0 12).trans (ct_sub16 (m := 4) (by norm_num))
theorem ct_13 : ct 13 = -ct 3 := (ct_mod 0 13).trans (ct_sub16 (m := 3) (by norm_num))
theorem ct_14 : ct 14 = -ct 2 := (ct_mod 0 14).trans (ct_sub16 (m := 2) (by norm_num))
theorem ct_15 : ct 15 = -ct 1 := (ct_mod 0 15).trans (ct_sub16 (m := 1) (by norm_num))
theorem ct_18 : ct 18 = -ct 2 := (ct_mod 0 18).trans (ct_add16 2)
theorem ct_20 : ct 20 = -ct 4 := (ct_mod 0 20).trans (ct_add16 4)
theorem ct_21 : ct 21 = -ct 5 := (ct_mod 0 21).trans (ct_add16 5)
theorem ct_22 : ct 22 = -ct 6 := (ct_mod 0 22).trans (ct_add16 6)
theorem ct_25 : ct 25 = ct 7 := (ct_mod 0 25).trans ((ct_add16 9).trans (by rw [show ct 9 = -ct 7 from ct_sub16 (m := 7) (by norm_num), neg_neg]))
theorem ct_26 : ct 26 = ct 6 := (ct_mod 0 26).trans ((ct_add16 10).trans (by rw [show ct 10 = -ct 6 from ct_sub16 (m := 6) (by norm_num), neg_neg]))
theorem ct_27 : ct 27 = ct 5 := (ct_mod 0 27).trans ((ct_add16 11).trans (by rw [show ct 11 = -ct 5 from ct_sub16 (m := 5) (by norm_num), neg_neg]))
theorem ct_28 : ct 28 = ct 4 := (ct_mod 0 28).trans ((ct_add16 12).trans (by rw [show ct 12 = -ct 4 from ct_sub16 (m := 4) (by norm_num), neg_neg]))
theorem ct_30 : ct 30 = ct 2 := (ct_mod 0 30).trans ((ct_add16 14).trans (by rw [show ct 14 = -ct 2 from ct_sub16 (m := 2) (by norm_num), neg_neg]))
theorem ct_33 : ct 33 = ct 1 := (ct_mod 1 1)
theorem ct_35 : ct 35 = ct 3 := (ct_mod 1 3)
theorem ct_36 : ct 36 = ct 4 := (ct_mod 1 4)
theorem ct_39 : ct 39 = ct 7 := (ct_mod 1 7)
theorem ct_42 : ct 42 = -ct 6 := (ct_mod 1 10).trans (ct_sub16 (m := 6) (by norm_num))
theorem ct_44 : ct 44 = -ct 4 := (ct_mod 1 12).trans (ct_sub16 (m := 4) (by norm_num))
theorem ct_45 : ct 45 = -ct 3 := (ct_mod 1 13).trans (ct_sub16 (m := 3) (by norm_num))
theorem ct_49 : ct 49 = -ct 1 := (ct_mod 1 17).trans (ct_add16 1)
theorem ct_52 : ct 52 = -ct 4 := (ct_mod 1 20).trans (ct_add16 4)
theorem ct_54 : ct 54 = -ct 6 := (ct_mod 1 22).trans (ct_add16 6)
theorem ct_55 : ct 55 = -ct 7 := (ct_mod 1 23).trans (ct_add16 7)
theorem ct_60 : ct 60 = ct 4 := (ct_mod 1 28).trans ((ct_add16 12).trans (by rw [show ct 12 = -ct 4 from ct_sub16 (m := 4) (by norm_num), neg_neg]))
theorem ct_63 : ct 63 = ct 1 := (ct_mod 1 31).trans ((ct_add16 15).trans (by rw [show ct 15 = -ct 1 from ct_sub16 (m := 1) (by norm_num), neg_neg]))
theorem ct_65 : ct 65 = ct 1 := (ct_mod 2 1)
theorem ct_66 : ct 66 = ct 2 := (ct_mod 2 2)
theorem ct_75 : ct 75 = -ct 5 := (ct_mod 2 11).trans (ct_sub16 (m := 5) (by norm_num))
theorem ct_77 : ct 77 = -ct 3 := (ct_mod 2 13).trans (ct_sub16 (m := 3) (by norm_num))
theorem ct_78 : ct 78 = -ct 2 := (ct_mod 2 14).trans (ct_sub16 (m := 2) (by norm_num))
theorem ct_90 : ct 90 = ct 6 := (ct_mod 2 26).trans ((ct_add16 10).trans (by rw [show ct 10 = -ct 6 from ct_sub16 (m := 6) (by norm_num), neg_neg]))
theorem ct_91 : ct 91 = ct 5 := (ct_mod 2 27).trans ((ct_add16 11).trans (by rw [show ct 11 = -ct 5 from ct_sub16 (m := 5) (by norm_num), neg_neg]))
theorem ct_105 : ct 105 = -ct 7 := (ct_mod 3 9).trans (ct_sub16 (m := 7) (by norm_num))

theorem err1 : ∑ x ∈ Finset.range 8, |((dctA 1 x : Int) : ℝ) - 8192 * dctc 1 x| ≤ 4.95 := by
  obtain ⟨⟨h1a, h1b⟩, ⟨h2a, h2b⟩, ⟨h3a, h3b⟩, ⟨h5a, h5b⟩, ⟨h6a, h6b⟩, h7a, h7b⟩ := ct_bounds
  have h4 := ct4
  have c0 : dctc 1 0 = ct 1 := dctc_eq 1 0 (by norm_num)
  have t0 : |((dctA 1 0 : Int) : ℝ) - 8192 * dctc 1 0| ≤ 0.376 := by
    rw [c0, show dctA 1 0 = 11363 from rfl, abs_le]; push_cast; constructor <;> linarith
  have c1 : dctc 1 1 = ct 3 := dctc_eq 1 1 (by norm_num)
  have t1 : |((dctA 1 1 : Int) : ℝ) - 8192 * dctc 1 1| ≤ 0.233 := by
    rw [c1, show dctA 1 1 = 9633 from rfl, abs_le]; push_cast; constructor <;> linarith
  have c2 : dctc 1 2 = ct 5 := dctc_eq 1 2 (by norm_num)
  have t2 : |((dctA 1 2 : Int) : ℝ) - 8192 * dctc 1 2| ≤ 0.593 := by
    rw [c2, show dctA 1 2 = 6437 from rfl, abs_le]; push_cast; constructor <;> linarith
  have c3 : dctc 1 3 = ct 7 := dctc_eq 1 3 (by norm_num)
  have t3 : |((dctA 1 3 : Int) : ℝ) - 8192 * dctc 1 3| ≤ 0.174 := by
    rw [c3, show dctA 1 3 = 2260 from rfl, abs_le]; push_cast; constructor <;> linarith
  have c4 : dctc 1 4 = -ct 7 := (dctc_eq 1 4 (by norm_num)).trans ct_9
  have t4 : |((dctA 1 4 : Int) : ℝ) - 8192 * dctc 1 4| ≤ 0.174 := by
    rw [c4, show dctA 1 4 = -2260 from rfl, abs_le]; push_cast; constructor <;> linarith
  have c5 : dctc 1 5 = -ct 5 := (dctc_eq 1 5 (by norm_num)).trans ct_11
  have t5 : |((dctA 1 5 : Int) : ℝ) - 8192 * dctc 1 5| ≤ 0.593 := by
    rw [c5, show dctA 1 5 = -6437 from rfl, abs_le]; push_cast; constructor <;> linarith
  have c6 : dctc 1 6 = -ct 3 := (dctc_eq 1 6 (by norm_num)).trans ct_13
  have t6 : |((dctA 1 6 : Int) : ℝ) - 8192 * dctc 1 6| ≤ 0.233 := by
    rw [c6, show dctA 1 6 = -9633 from rfl, abs_le]; push_cast; constructor <;> linarith
  have c7 : dctc 1 7 = -ct 1 := (dctc_eq 1 7 (by norm_num)).trans ct_15
  have t7 : |((dctA 1 7 : Int) : ℝ) - 8192 * dctc 1 7| ≤ 0.376 := by
    rw [c7, show dctA 1 7 = -11363 from rfl, abs_le]; push_cast; constructor <;> linarith
  simp only [Finset.sum_range_succ, Finset.sum_range_zero]
  linarith

theorem err2 : ∑ x ∈ Finset.range 8, |((dctA 2 x : Int) : ℝ) - 8192 * dctc 2 x| ≤ 4.95 := by
  obtain ⟨⟨h1a, h1b⟩, ⟨h2a, h2b⟩, ⟨h3a, h3b⟩, ⟨h5a, h5b⟩, ⟨h6a, h6b⟩, h7a, h7b⟩ := ct_bounds
  have h4 := ct4
  have c0 : dctc 2 0 = ct 2 := dctc_eq 2 0 (by norm_num)
  have t0 : |((dctA 2 0 : Int) : ℝ) - 8192 * dctc 2 0| ≤ 0.37 := by
    rw [c0, show dctA 2 0 = 10703 from rfl, abs_le]; push_cast; constructor <;> linarith
  have c1 : dctc 2 1 = ct 6 := dctc_eq 2 1 (by norm_num)
  have t1 : |((dctA 2 1 : Int) : ℝ) - 8192 * dctc 2 1| ≤ 0.484 := by
    rw [c1, show dctA 2 1 = 4433 from rfl, abs_le]; push_cast; constructor <;> linarith
  have c2 : dctc 2 2 = -ct 6 := (dctc_eq 2 2 (by norm_num)).trans ct_10
  have t2 : |((dctA 2 2 : Int) : ℝ) - 8192 * dctc 2 2| ≤ 0.484 := by
    rw [c2, show dctA 2 2 = -4433 from rfl, abs_le]; push_cast; constructor <;> linarith
  have c3 : dctc 2 3 = -ct 2 := (dctc_eq 2 3 (by norm_num)).trans ct_14
  have t3 : |((dctA 2 3 : Int) : ℝ) - 8192 * dctc 2 3| ≤ 0.37 := by
    rw [c3, show dctA 2 3 = -10703 from rfl, abs_le]; push_cast; constructor <;> linarith
  have c4 : dctc 2 4 = -ct 2 := (dctc_eq 2 4 (by norm_num)).trans ct_18
  have t4 : |((dctA 2 4 : Int) : ℝ) - 8192 * dctc 2 4| ≤ 0.37 := by
    rw [c4, show dctA 2 4 = -10703 from rfl, abs_le]; push_cast; constructor <;> linarith
  have c5 : dctc 2 5 = -ct 6 := (dctc_eq 2 5 (by norm_num)).trans ct_22
  have t5 : |((dctA 2 5 : Int) : ℝ) - 8192 * dctc 2 5| ≤ 0.484 := by
    rw [c5, show dctA 2 5 = -4433 from rfl, abs_le]; push_cast; constructor <;> linarith
  have c6 : dctc 2 6 = ct 6 := (dctc_eq 2 6 (by norm_num)).trans ct_26
  have t6 : |((dctA 2 6 : Int) : ℝ) - 8192 * dctc 2 6| ≤ 0.484 := by
    rw [c6, show dctA 2 6 = 4433 from rfl, abs_le]; push_cast; constructor <;> linarith
  have c7 : dctc 2 7 = ct 2 := (dctc_eq 2 7 (by norm_num)).trans ct_30
  have t7 : |((dctA 2 7 : Int) : ℝ) - 8192 * dctc 2 7| ≤ 0.37 := by
    rw [c7, show dctA 2 7 = 10703 from rfl, abs_le]; push_cast; constructor <;> linarith
  simp only [Finset.sum_range_succ, Finset.sum_range_zero]
  linarith

theorem err3 : ∑ x ∈ Finset.range 8, |((dctA 3 x : Int) : ℝ) - 8192 * dctc 3 x| ≤ 4.95 := by
  obtain ⟨⟨h1a, h1b⟩, ⟨h2a, h2b⟩, ⟨h3a, h3b⟩, ⟨h5a, h5b⟩, ⟨h6a, h6b⟩, h7a, h7b⟩ := ct_bounds
  have h4 := ct4
  have c0 : dctc 3 0 = ct 3 := dctc_eq 3 0 (by norm_num)
  have t0 : |((dctA 3 0 : Int) : ℝ) - 8192 * dctc 3 0| ≤ 0.233 := by
    rw [c0, show dctA 3 0 = 9633 from rfl, abs_le]; push_cast; constructor <;> linarith
  have c1 : dctc 3 1 = -ct 7 := (dctc_eq 3 1 (by norm_num)).trans ct_9
  have t1 : |((dctA 3 1 : Int) : ℝ) - 8192 * dctc 3 1| ≤ 1.174 := by
    rw [c1, show dctA 3 1 = -2259 from rfl, abs_le]; push_cast; constructor <;> linarith
  have c2 : dctc 3 2 = -ct 1 := (dctc_eq 3 2 (by norm_num)).trans ct_15
  have t2 : |((dctA 3 2 : Int) : ℝ) - 8192 * dctc 3 2| ≤ 0.636 := by
    rw [c2, show dctA 3 2 = -11362 from rfl, abs_le]; push_cast; constructor <;> linarith
  have c3 : dctc 3 3 = -ct 5 := (dctc_eq 3 3 (by norm_num)).trans ct_21
  have t3 : |((dctA 3 3 : Int) : ℝ) - 8192 * dctc 3 3| ≤ 0.419 := by
    rw [c3, show dctA 3 3 = -6436 from rfl, abs_le]; push_cast; constructor <;> linarith
  have c4 : dctc 3 4 = ct 5 := (dctc_eq 3 4 (by norm_num)).trans ct_27
  have t4 : |((dctA 3 4 : Int) : ℝ) - 8192 * dctc 3 4| ≤ 0.419 := by
    rw [c4, show dctA 3 4 = 6436 from rfl, abs_le]; push_cast; constructor <;> linarith
  have c5 : dctc 3 5 = ct 1 := (dctc_eq 3 5 (by norm_num)).trans ct_33
  have t5 : |((dctA 3 5 : Int) : ℝ) - 8192 * dctc 3 5| ≤ 0.636 := by
    rw [c5, show dctA 3 5 = 11362 from rfl, abs_le]; push_cast; constructor <;> linarith
  have c6 : dctc 3 6 = ct 7 := (dctc_eq 3 6 (by norm_num)).trans ct_39
  have t6 : |((dctA 3 6 : Int) : ℝ) - 8192 * dctc 3 6| ≤ 1.174 := by
    rw [c6, show dctA 3 6 = 2259 from rfl, abs_le]; push_cast; constructor <;> linarith
  have c7 : dctc 3 7 = -ct 3 := (dctc_eq 3 7 (by norm_num)).trans ct_45
  have t7 : |((dctA 3 7 : Int) : ℝ) - 8192 * dctc 3 7| ≤ 0.233 := by
    rw [c7, show dctA 3 7 = -9633 from rfl, abs_le]; push_cast; constructor <;> linarith
  simp only [Finset.sum_range_succ, Finset.sum_range_zero]
  linarith

theorem err4 : ∑ x ∈ Finset.range 8, |((dctA 4 x : Int) : ℝ) - 8192 * dctc 4 x| ≤ 4.95 := by
  obtain ⟨⟨h1a, h1b⟩, ⟨h2a, h2b⟩, ⟨h3a, h3b⟩, ⟨h5a, h5b⟩, ⟨h6a, h6b⟩, h7a, h7b⟩ := ct_bounds
  have h4 := ct4
  have c0 : dctc 4 0 = ct 4 := dctc_eq 4 0 (by norm_num)
  have t0 : |((dctA 4 0 : Int) : ℝ) - 8192 * dctc 4 0| ≤ 0 := by
    rw [c0, show dctA 4 0 = 8192 from rfl, abs_le]; push_cast; constructor <;> linarith
  have c1 : dctc 4 1 = -ct 4 := (dctc_eq 4 1 (by norm_num)).trans ct_12
  have t1 : |((dctA 4 1 : Int) : ℝ) - 8192 * dctc 4 1| ≤ 0 := by
    rw [c1, show dctA 4 1 = -8192 from rfl, abs_le]; push_cast; constructor <;> linarith
  have c2 : dctc 4 2 = -ct 4 := (dctc_eq 4 2 (by norm_num)).trans ct_20
  have t2 : |((dctA 4 2 : Int) : ℝ) - 8192 * dctc 4 2| ≤ 0 := by
    rw [c2, show dctA 4 2 = -8192 from rfl, abs_le]; push_cast; constructor <;> linarith
  have c3 : dctc 4 3 = ct 4 := (dctc_eq 4 3 (by norm_num)).trans ct_28
  have t3 : |((dctA 4 3 : Int) : ℝ) - 8192 * dctc 4 3| ≤ 0 := by
    rw [c3, show dctA 4 3 = 8192 from rfl, abs_le]; push_cast; constructor <;> linarith
  have c4 : dctc 4 4 = ct 4 := (dctc_eq 4 4 (by norm_num)).trans ct_36
  have t4 : |((dctA 4 4 : Int) : ℝ) - 8192 * dctc 4 4| ≤ 0 := by
    rw [c4, show dctA 4 4 = 8192 from rfl, abs_le]; push_cast; constructor <;> linarith
  have c5 : dctc 4 5 = -ct 4 := (dctc_eq 4 5 (by norm_num)).trans ct_44
  have t5 : |((dctA 4 5 : Int) : ℝ) - 8192 * dctc 4 5| ≤ 0 := by
    rw [c5, show dctA 4 5 = -8192 from rfl, abs_le]; push_cast; constructor <;> linarith
  have c6 : dctc 4 6 = -ct 4 := (dctc_eq 4 6 (by norm_num)).trans ct_52
  have t6 : |((dctA 4 6 : Int) : ℝ) - 8192 * dctc 4 6| ≤ 0 := by
    rw [c6, show dctA 4 6 = -8192 from rfl, abs_le]; push_cast; constructor <;> linarith
  have c7 : dctc 4 7 = ct 4 := (dctc_eq 4 7 (by norm_num)).trans ct_60
  have t7 : |((dctA 4 7 : Int) : ℝ) - 8192 * dctc 4 7| ≤ 0 := by
    rw [c7, show dctA 4 7 = 8192 from rfl, abs_le]; push_cast; constructor <;> linarith
  simp only [Finset.sum_range_succ, Finset.sum_range_zero]
  linarith

theorem err5 : ∑ x ∈ Finset.range 8, |((dctA 5 x : Int) : ℝ) - 8192 * dctc 5 x| ≤ 4.95 := by
  obtain ⟨⟨h1a, h1b⟩, ⟨h2a, h2b⟩, ⟨h3a, h3b⟩, ⟨h5a, h5b⟩, ⟨h6a, h6b⟩, h7a, h7b⟩ := ct_bounds
  have h4 := ct4
  have c0 : dctc 5 0 = ct 5 := dctc_eq 5 0 (by norm_num)
  have t0 : |((dctA 5 0 : Int) : ℝ) - 8192 * dctc 5 0| ≤ 0.593 := by
    rw [c0, show dctA 5 0 = 6437 from rfl, abs_le]; push_cast; constructor <;> linarith
  have c1 : dctc 5 1 = -ct 1 := (dctc_eq 5 1 (by norm_num)).trans ct_15
  have t1 : |((dctA 5 1 : Int) : ℝ) - 8192 * dctc 5 1| ≤ 0.636 := by
    rw [c1, show dctA 5 1 = -11362 from rfl, abs_le]; push_cast; constructor <;> linarith
  have c2 : dctc 5 2 = ct 7 := (dctc_eq 5 2 (by norm_num)).trans ct_25
  have t2 : |((dctA 5 2 : Int) : ℝ) - 8192 * dctc 5 2| ≤ 0.838 := by
    rw [c2, show dctA 5 2 = 2261 from rfl, abs_le]; push_cast; constructor <;> linarith
  have c3 : dctc 5 3 = ct 3 := (dctc_eq 5 3 (by norm_num)).trans ct_35
  have t3 : |((dctA 5 3 : Int) : ℝ) - 8192 * dctc 5 3| ≤ 0.233 := by
    rw [c3, show dctA 5 3 = 9633 from rfl, abs_le]; push_cast; constructor <;> linarith
  have c4 : dctc 5 4 = -ct 3 := (dctc_eq 5 4 (by norm_num)).trans ct_45
  have t4 : |((dctA 5 4 : Int) : ℝ) - 8192 * dctc 5 4| ≤ 0.233 := by
    rw [c4, show dctA 5 4 = -9633 from rfl, abs_le]; push_cast; constructor <;> linarith
  have c5 : dctc 5 5 = -ct 7 := (dctc_eq 5 5 (by norm_num)).trans ct_55
  have t5 : |((dctA 5 5 : Int) : ℝ) - 8192 * dctc 5 5| ≤ 0.838 := by
    rw [c5, show dctA 5 5 = -2261 from rfl, abs_le]; push_cast; constructor <;> linarith
  have c6 : dctc 5 6 = ct 1 := (dctc_eq 5 6 (by norm_num)).trans ct_65
  have t6 : |((dctA 5 6 : Int) : ℝ) - 8192 * dctc 5 6| ≤ 0.636 := by
    rw [c6, show dctA 5 6 = 11362 from rfl, abs_le]; push_cast; constructor <;> linarith
  have c7 : dctc 5 7 = -ct 5 := (dctc_eq 5 7 (by norm_num)).trans ct_75
  have t7 : |((dctA 5 7 : Int) : ℝ) - 8192 * dctc 5 7| ≤ 0.593 := by
    rw [c7, show dctA 5 7 = -6437 from rfl, abs_le]; push_cast; constructor <;> linarith
  simp only [Finset.sum_range_succ, Finset.sum_range_zero]
  linarith

theorem err6 : ∑ x ∈ Finset.range 8, |((dctA 6 x : Int) : ℝ) - 8192 * dctc 6 x| ≤ 4.95 := by
  obtain ⟨⟨h1a, h1b⟩, ⟨h2a, h2b⟩, ⟨h3a, h3b⟩, ⟨h5a, h5b⟩, ⟨h6a, h6b⟩, h7a, h7b⟩ := ct_bounds
  have h4 := ct4
  have c0 : dctc 6 0 = ct 6 := dctc_eq 6 0 (by norm_num)
  have t0 : |((dctA 6 0 : Int) : ℝ) - 8192 * dctc 6 0| ≤ 0.484 := by
    rw [c0, show dctA 6 0 = 4433 from rfl, abs_le]; push_cast; constructor <;> linarith
  have c1 : dctc 6 1 = -ct 2 := (dctc_eq 6 1 (by norm_num)).trans ct_18
  have t1 : |((dctA 6 1 : Int) : ℝ) - 8192 * dctc 6 1| ≤ 0.642 := by
    rw [c1, show dctA 6 1 = -10704 from rfl, abs_le]; push_cast; constructor <;> linarith
  have c2 : dctc 6 2 = ct 2 := (dctc_eq 6 2 (by norm_num)).trans ct_30
  have t2 : |((dctA 6 2 : Int) : ℝ) - 8192 * dctc 6 2| ≤ 0.642 := by
    rw [c2, show dctA 6 2 = 10704 from rfl, abs_le]; push_cast; constructor <;> linarith
  have c3 : dctc 6 3 = -ct 6 := (dctc_eq 6 3 (by norm_num)).trans ct_42
  have t3 : |((dctA 6 3 : Int) : ℝ) - 8192 * dctc 6 3| ≤ 0.484 := by
    rw [c3, show dctA 6 3 = -4433 from rfl, abs_le]; push_cast; constructor <;> linarith
  have c4 : dctc 6 4 = -ct 6 := (dctc_eq 6 4 (by norm_num)).trans ct_54
  have t4 : |((dctA 6 4 : Int) : ℝ) - 8192 * dctc 6 4| ≤ 0.484 := by
    rw [c4, show dctA 6 4 = -4433 from rfl, abs_le]; push_cast; constructor <;> linarith
  have c5 : dctc 6 5 = ct 2 := (dctc_eq 6 5 (by norm_num)).trans ct_66
  have t5 : |((dctA 6 5 : Int) : ℝ) - 8192 * dctc 6 5| ≤ 0.642 := by
    rw [c5, show dctA 6 5 = 10704 from rfl, abs_le]; push_cast; constructor <;> linarith
  have c6 : dctc 6 6 = -ct 2 := (dctc_eq 6 6 (by norm_num)).trans ct_78
  have t6 : |((dctA 6 6 : Int) : ℝ) - 8192 * dctc 6 6| ≤ 0.642 := by
    rw [c6, show dctA 6 6 = -10704 from rfl, abs_le]; push_cast; constructor <;> linarith
  have c7 : dctc 6 7 = ct 6 := (dctc_eq 6 7 (by norm_num)).trans ct_90
  have t7 : |((dctA 6 7 : Int) : ℝ) - 8192 * dctc 6 7| ≤ 0.484 := by
    rw [c7, show dctA 6 7 = 4433 from rfl, abs_le]; push_cast; constructor <;> linarith
  simp only [Finset.sum_range_succ, Finset.sum_range_zero]
  linarith

theorem err7 : ∑ x ∈ Finset.range 8, |((dctA 7 x : Int) : ℝ) - 8192 * dctc 7 x| ≤ 4.95 := by
  obtain ⟨⟨h1a, h1b⟩, ⟨h2a, h2b⟩, ⟨h3a, h3b⟩, ⟨h5a, h5b⟩, ⟨h6a, h6b⟩, h7a, h7b⟩ := ct_bounds
  have h4 := ct4
  have c0 : dctc 7 0 = ct 7 := dctc_eq 7 0 (by norm_num)
  have t0 : |((dctA 7 0 : Int) : ℝ) - 8192 * dctc 7 0| ≤ 0.174 := by
    rw [c0, show dctA 7 0 = 2260 from rfl, abs_le]; push_cast; constructor <;> linarith
  have c1 : dctc 7 1 = -ct 5 := (dctc_eq 7 1 (by norm_num)).trans ct_21
  have t1 : |((dctA 7 1 : Int) : ℝ) - 8192 * dctc 7 1| ≤ 0.419 := by
    rw [c1, show dctA 7 1 = -6436 from rfl, abs_le]; push_cast; constructor <;> linarith
  have c2 : dctc 7 2 = ct 3 := (dctc_eq 7 2 (by norm_num)).trans ct_35
  have t2 : |((dctA 7 2 : Int) : ℝ) - 8192 * dctc 7 2| ≤ 0.233 := by
    rw [c2, show dctA 7 2 = 9633 from rfl, abs_le]; push_cast; constructor <;> linarith
  have c3 : dctc 7 3 = -ct 1 := (dctc_eq 7 3 (by norm_num)).trans ct_49
  have t3 : |((dctA 7 3 : Int) : ℝ) - 8192 * dctc 7 3| ≤ 0.376 := by
    rw [c3, show dctA 7 3 = -11363 from rfl, abs_le]; push_cast; constructor <;> linarith
  have c4 : dctc 7 4 = ct 1 := (dctc_eq 7 4 (by norm_num)).trans ct_63
  have t4 : |((dctA 7 4 : Int) : ℝ) - 8192 * dctc 7 4| ≤ 0.376 := by
    rw [c4, show dctA 7 4 = 11363 from rfl, abs_le]; push_cast; constructor <;> linarith
  have c5 : dctc 7 5 = -ct 3 := (dctc_eq 7 5 (by norm_num)).trans ct_77
  have t5 : |((dctA 7 5 : Int) : ℝ) - 8192 * dctc 7 5| ≤ 0.233 := by
    rw [c5, show dctA 7 5 = -9633 from rfl, abs_le]; push_cast; constructor <;> linarith
  have c6 : dctc 7 6 = ct 5 := (dctc_eq 7 6 (by norm_num)).trans ct_91
  have t6 : |((dctA 7 6 : Int) : ℝ) - 8192 * dctc 7 6| ≤ 0.419 := by
    rw [c6, show dctA 7 6 = 6436 from rfl, abs_le]; push_cast; constructor <;> linarith
  have c7 : dctc 7 7 = -ct 7 := (dctc_eq 7 7 (by norm_num)).trans ct_105
  have t7 : |((dctA 7 7 : Int) : ℝ) - 8192 * dctc 7 7| ≤ 0.174 := by
    rw [c7, show dctA 7 7 = -2260 from rfl, abs_le]; push_cast; constructor <;> linarith
  simp only [Finset.sum_range_succ, Finset.sum_range_zero]
  linarith

theorem err0 : ∑ x ∈ Finset.range 8, |((dctA 0 x : Int) : ℝ) - 8192 * dctc 0 x| ≤ 4.95 := by
  simp only [Finset.sum_range_succ, Finset.sum_range_zero, dctc_zero]
  norm_num [dctA]

theorem dct_err {k : Nat} (hk : k < 8) : ∑ x ∈ Finset.range 8, |((dctA k x : Int) : ℝ) - 8192 * dctc k x| ≤ 4.95 := by
  rcases lt8_cases hk with rfl | rfl | rfl | rfl | rfl | rfl | rfl | rfl
  exacts [err0, err1, err2, err3, err4, err5, err6, err7]

theorem dctA_sum {k : Nat} (hk : k < 8) : ∑ x ∈ Finset.range 8, |((dctA k x : Int) : ℝ)| ≤ 65536 := by
  have : ∀ k, k < 8 → ∑ x ∈ Finset.range 8, |dctA k x| ≤ 65536 := by decide
  have := this k hk
  exact_mod_cast this

theorem dctc_sum {k : Nat} (hk : k < 8) : ∑ x ∈ Finset.range 8, |8192 * dctc k x| ≤ 65541 := by
  have h1 := dct_err hk
  have h2 := dctA_sum hk
  have : ∀ x, |8192 * dctc k x| ≤ |((dctA k x : Int) : ℝ)| + |((dctA k x : Int) : ℝ) - 8192 * dctc k x| := by
    intro x
    have := abs_sub_abs_le_abs_sub (8192 * dctc k x) ((dctA k x : Int) : ℝ)
    rw [abs_sub_comm] at this
    linarith
  have := Finset.sum_le_sum (s := Finset.range 8) fun x _ => this x
  rw [Finset.sum_add_distrib] at this
  linarith

/-- The numerator of output `k`, scaled by 8192. -/
def dctN (k : Nat) (d : Nat → Int) : Int := ∑ x ∈ Finset.range 8, dctA k x * d x

theorem dsc_err11 (x : Int) : |((dsc x 11 : Int) : ℝ) - x / 2048| ≤ 1 / 2 := by
  have h : 2 * (2048 * dsc x 11 - x) ≤ 2048 ∧ -2048 ≤ 2 * (2048 * dsc x 11 - x) := by
    unfold dsc; norm_num; omega
  have h1 : (2 * (2048 * (dsc x 11 : ℝ) - x)) ≤ 2048 := by exact_mod_cast h.1
  have h2 : -2048 ≤ (2 * (2048 * (dsc x 11 : ℝ) - x)) := by exact_mod_cast h.2
  rw [abs_le]; constructor <;> linarith

theorem dsc_err15 (x : Int) : |((dsc x 15 : Int) : ℝ) - x / 32768| ≤ 1 / 2 := by
  have h : 2 * (32768 * dsc x 15 - x) ≤ 32768 ∧ -32768 ≤ 2 * (32768 * dsc x 15 - x) := by
    unfold dsc; norm_num; omega
  have h1 : (2 * (32768 * (dsc x 15 : ℝ) - x)) ≤ 32768 := by exact_mod_cast h.1
  have h2 : -32768 ≤ (2 * (32768 * (dsc x 15 : ℝ) - x)) := by exact_mod_cast h.2
  rw [abs_le]; constructor <;> linarith

theorem dsc_err2 (x : Int) : |((dsc x 2 : Int) : ℝ) - x / 4| ≤ 1 / 2 := by
  have h : 2 * (4 * dsc x 2 - x) ≤ 4 ∧ -4 ≤ 2 * (4 * dsc x 2 - x) := by
    unfold dsc; norm_num; omega
  have h1 : (2 * (4 * (dsc x 2 : ℝ) - x)) ≤ 4 := by exact_mod_cast h.1
  have h2 : -4 ≤ (2 * (4 * (dsc x 2 : ℝ) - x)) := by exact_mod_cast h.2
  rw [abs_le]; constructor <;> linarith

/-- One 8 point transform computes `dctN`, rounded. -/
theorem dct8P_err (ev : Int → Int) (n : Nat) (m : ℝ) (hev : ∀ v, |((ev v : Int) : ℝ) - v * (8192 / m)| ≤ 1 / 2)
    (hn : ∀ v, |((dsc v n : Int) : ℝ) - v / m| ≤ 1 / 2) (d : Nat → Int) {k : Nat} (hk : k < 8) :
    |(((dct8P ev n (d 0) (d 1) (d 2) (d 3) (d 4) (d 5) (d 6) (d 7)).getD k 0 : Int) : ℝ) - dctN k d / m| ≤ 1 / 2 := by
  have E : dctN k d = dctA k 0 * d 0 + dctA k 1 * d 1 + dctA k 2 * d 2 + dctA k 3 * d 3 + dctA k 4 * d 4 + dctA k 5 * d 5 +
      dctA k 6 * d 6 + dctA k 7 * d 7 := by
    simp only [dctN, Finset.sum_range_succ, Finset.sum_range_zero, zero_add]
  rcases lt8_cases hk with rfl | rfl | rfl | rfl | rfl | rfl | rfl | rfl <;>
    simp only [dct8P, List.getD_cons_zero, List.getD_cons_succ]
  · have : dctN 0 d = 8192 * num0 (d 0) (d 1) (d 2) (d 3) (d 4) (d 5) (d 6) (d 7) := by
      rw [E]; simp only [dctA, num0, List.getD_cons_zero, List.getD_cons_succ]; ring
    rw [this]; have := hev (num0 (d 0) (d 1) (d 2) (d 3) (d 4) (d 5) (d 6) (d 7)); push_cast; convert this using 2; ring
  · have : dctN 1 d = num1 (d 0) (d 1) (d 2) (d 3) (d 4) (d 5) (d 6) (d 7) := by
      rw [E]; simp only [dctA, num1, List.getD_cons_zero, List.getD_cons_succ]; ring
    rw [this]; exact hn _
  · have : dctN 2 d = num2 (d 0) (d 1) (d 2) (d 3) (d 4) (d 5) (d 6) (d 7) := by
      rw [E]; simp only [dctA, num2, List.getD_cons_zero, List.getD_cons_succ]; ring
    rw [this]; exact hn _
  · have : dctN 3 d = num3 (d 0) (d 1) (d 2) (d 3) (d 4) (d 5) (d 6) (d 7) := by
      rw [E]; simp only [dctA, num3, List.getD_cons_zero, List.getD_cons_succ]; ring
    rw [this]; exact hn _
  · have : dctN 4 d = 8192 * num4 (d 0) (d 1) (d 2) (d 3) (d 4) (d 5) (d 6) (d 7) := by
      rw [E]; simp only [dctA, num4, List.getD_cons_zero, List.getD_cons_succ]; ring
    rw [this]; have := hev (num4 (d 0) (d 1) (d 2) (d 3) (d 4) (d 5) (d 6) (d 7)); push_cast; convert this using 2; ring
  · have : dctN 5 d = num5 (d 0) (d 1) (d 2) (d 3) (d 4) (d 5) (d 6) (d 7) := by
      rw [E]; simp only [dctA, num5, List.getD_cons_zero, List.getD_cons_succ]; ring
    rw [this]; exact hn _
  · have : dctN 6 d = num6 (d 0) (d 1) (d 2) (d 3) (d 4) (d 5) (d 6) (d 7) := by
      rw [E]; simp only [dctA, num6, List.getD_cons_zero, List.getD_cons_succ]; ring
    rw [this]; exact hn _
  · have : dctN 7 d = num7 (d 0) (d 1) (d 2) (d 3) (d 4) (d 5) (d 6) (d 7) := by
      rw [E]; simp only [dctA, num7, List.getD_cons_zero, List.getD_cons_succ]; ring
    rw [this]; exact hn _

theorem sum_mul_le {a b : Nat → ℝ} {B S : ℝ} (hb : ∀ x, x < 8 → |b x| ≤ B) (hB : 0 ≤ B) (ha : ∑ x ∈ Finset.range 8, |a x| ≤ S) :
    |∑ x ∈ Finset.range 8, a x * b x| ≤ S * B := by
  refine (Finset.abs_sum_le_sum_abs _ _).trans ?_
  have : ∑ x ∈ Finset.range 8, |a x * b x| ≤ ∑ x ∈ Finset.range 8, |a x| * B := by
    refine Finset.sum_le_sum fun x hx => ?_
    rw [abs_mul]
    exact mul_le_mul_of_nonneg_left (hb x (Finset.mem_range.mp hx)) (abs_nonneg _)
  refine this.trans ?_
  rw [← Finset.sum_mul]
  exact mul_le_mul_of_nonneg_right ha hB

/-- The exact one-dimensional transform of row `y`. -/
noncomputable def rowR (data : List Int) (y v : Nat) : ℝ := ∑ x ∈ Finset.range 8, dctc v x * ((data.getD (8 * y + x) 0 : Int) : ℝ)

theorem shifted_abs {data : List Int} (h : Shifted data) (i : Nat) : |((data.getD i 0 : Int) : ℝ)| ≤ 128 := by
  have := h.getD i
  rw [abs_le]
  constructor
  · exact_mod_cast this.1
  · have : data.getD i 0 ≤ 128 := by omega
    exact_mod_cast this

theorem rowR_abs {data : List Int} (h : Shifted data) (y : Nat) {v : Nat} (hv : v < 8) : |rowR data y v| ≤ 1024.1 := by
  have h1 := sum_mul_le (a := fun x => 8192 * dctc v x) (b := fun x => ((data.getD (8 * y + x) 0 : Int) : ℝ))
    (fun x _ => shifted_abs h _) (by norm_num) (dctc_sum hv)
  have : ∑ x ∈ Finset.range 8, 8192 * dctc v x * ((data.getD (8 * y + x) 0 : Int) : ℝ) = 8192 * rowR data y v := by
    rw [rowR, Finset.mul_sum]; exact Finset.sum_congr rfl fun x _ => by ring
  rw [this, abs_mul, abs_of_pos (by norm_num)] at h1
  linarith

theorem rho_err {data : List Int} (h : Shifted data) (y : Nat) {v : Nat} (hv : v < 8) :
    |((rhoP data y v : Int) : ℝ) - 4 * rowR data y v| ≤ 0.8095 := by
  have h1 := dct8P_err (fun v => v * 4) 11 2048 (fun v => by push_cast; norm_num) dsc_err11 (fun x => data.getD (8 * y + x) 0) hv
  have h2 := sum_mul_le (a := fun x => ((dctA v x : Int) : ℝ) - 8192 * dctc v x) (b := fun x => ((data.getD (8 * y + x) 0 : Int) : ℝ))
    (fun x _ => shifted_abs h _) (by norm_num) (dct_err hv)
  have e : ∑ x ∈ Finset.range 8, (((dctA v x : Int) : ℝ) - 8192 * dctc v x) * ((data.getD (8 * y + x) 0 : Int) : ℝ) =
      ((dctN v fun x => data.getD (8 * y + x) 0 : Int) : ℝ) - 8192 * rowR data y v := by
    rw [rowR, dctN, Finset.mul_sum]
    push_cast
    rw [← Finset.sum_sub_distrib]
    exact Finset.sum_congr rfl fun x _ => by ring
  rw [e] at h2
  have h1' : |((rhoP data y v : Int) : ℝ) - ((dctN v fun x => data.getD (8 * y + x) 0 : Int) : ℝ) / 2048| ≤ 1 / 2 := h1
  rw [abs_le] at h1' h2 ⊢
  constructor <;> linarith [h1'.1, h1'.2, h2.1, h2.2]

theorem col_err {data : List Int} (h : Shifted data) {u v : Nat} (hu : u < 8) (hv : v < 8) :
    |(((colP data v).getD u 0 : Int) : ℝ) - ∑ y ∈ Finset.range 8, dctc u y * rowR data y v| ≤ 2.75 := by
  have h1 : |(((colP data v).getD u 0 : Int) : ℝ) - ((dctN u fun y => rhoP data y v : Int) : ℝ) / 32768| ≤ 1 / 2 :=
    dct8P_err (fun v => dsc v 2) 15 32768 (fun v => by have := dsc_err2 v; convert this using 3; norm_num; ring) dsc_err15
      (fun y => rhoP data y v) hu
  have h2 := sum_mul_le (a := fun y => ((dctA u y : Int) : ℝ)) (b := fun y => ((rhoP data y v : Int) : ℝ) - 4 * rowR data y v)
    (fun y _ => rho_err h y hv) (by norm_num) (dctA_sum hu)
  have h3 := sum_mul_le (a := fun y => ((dctA u y : Int) : ℝ) - 8192 * dctc u y) (b := fun y => rowR data y v)
    (fun y _ => rowR_abs h y hv) (by norm_num) (dct_err hu)
  have e : ((dctN u fun y => rhoP data y v : Int) : ℝ) =
      ∑ y ∈ Finset.range 8, ((dctA u y : Int) : ℝ) * (((rhoP data y v : Int) : ℝ) - 4 * rowR data y v) +
      4 * ∑ y ∈ Finset.range 8, (((dctA u y : Int) : ℝ) - 8192 * dctc u y) * rowR data y v +
      32768 * ∑ y ∈ Finset.range 8, dctc u y * rowR data y v := by
    rw [dctN, Finset.mul_sum, Finset.mul_sum, ← Finset.sum_add_distrib, ← Finset.sum_add_distrib]
    push_cast
    exact Finset.sum_congr rfl fun x _ => by ring
  rw [e] at h1
  generalize ∑ y ∈ Finset.range 8, dctc u y * rowR data y v = T at *
  generalize ∑ y ∈ Finset.range 8, ((dctA u y : Int) : ℝ) * (((rhoP data y v : Int) : ℝ) - 4 * rowR data y v) = X at *
  generalize ∑ y ∈ Finset.range 8, (((dctA u y : Int) : ℝ) - 8192 * dctc u y) * rowR data y v = Y at *
  rw [abs_le] at h1 h2 h3 ⊢
  constructor <;> linarith [h1.1, h1.2, h2.1, h2.2, h3.1, h3.2]

theorem realDct_eq (data : List Int) (u v : Nat) :
    8 * realDct (fun y x => ((data.getD (8 * y + x) 0 : Int) : ℝ)) u v = ∑ y ∈ Finset.range 8, dctc u y * rowR data y v := by
  have s2 : √2 * √2 = 2 := Real.mul_self_sqrt (by norm_num)
  unfold realDct rowR
  rw [Finset.mul_sum, Finset.mul_sum]
  refine Finset.sum_congr rfl fun y _ => ?_
  rw [Finset.mul_sum, Finset.mul_sum, Finset.mul_sum]
  refine Finset.sum_congr rfl fun x _ => ?_
  unfold dctc
  linear_combination (-(dctC u * dctC v * ((data.getD (8 * y + x) 0 : Int) : ℝ) * cos ((2 * x + 1) * v * π / 16) * cos ((2 * y + 1) * u * π / 16))) * s2

/-- Every output of the forward DCT is close to 8 times the exact one. -/
theorem fdctP_accuracy {data : List Int} (h : Shifted data) {u v : Nat} (hu : u < 8) (hv : v < 8) :
    |(((fdctP data).getD (8 * u + v) 0 : Int) : ℝ) - 8 * realDct (fun y x => ((data.getD (8 * y + x) 0 : Int) : ℝ)) u v| ≤ 2.75 := by
  rw [fdctP_getD data (show 8 * u + v < 64 by omega), realDct_eq, show (8 * u + v) % 8 = v by omega, show (8 * u + v) / 8 = u by omega]
  exact col_err h hu hv

end Jpeg
