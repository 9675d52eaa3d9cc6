import Verif.Props.Local
/-! Exact properties of the integer transforms: adding a constant, equal lines, equal columns. -/
namespace Jpeg
open _root_.Spec

theorem dct8P_shift (ev : Int → Int) (n : Nat) (d0 d1 d2 d3 d4 d5 d6 d7 c : Int) {k : Nat} (hk : k ≠ 0) :
    (dct8P ev n (d0 + c) (d1 + c) (d2 + c) (d3 + c) (d4 + c) (d5 + c) (d6 + c) (d7 + c)).getD k 0 = (dct8P ev n d0 d1 d2 d3 d4 d5 d6 d7).getD k 0 := by
  have h4 : num4 (d0 + c) (d1 + c) (d2 + c) (d3 + c) (d4 + c) (d5 + c) (d6 + c) (d7 + c) = num4 d0 d1 d2 d3 d4 d5 d6 d7 := by unfold num4; ring
  have h2 : num2 (d0 + c) (d1 + c) (d2 + c) (d3 + c) (d4 + c) (d5 + c) (d6 + c) (d7 + c) = num2 d0 d1 d2 d3 d4 d5 d6 d7 := by unfold num2; ring
  have h6 : num6 (d0 + c) (d1 + c) (d2 + c) (d3 + c) (d4 + c) (d5 + c) (d6 + c) (d7 + c) = num6 d0 d1 d2 d3 d4 d5 d6 d7 := by unfold num6; ring
  have h1 : num1 (d0 + c) (d1 + c) (d2 + c) (d3 + c) (d4 + c) (d5 + c) (d6 + c) (d7 + c) = num1 d0 d1 d2 d3 d4 d5 d6 d7 := by unfold num1; ring
  have h3 : num3 (d0 + c) (d1 + c) (d2 + c) (d3 + c) (d4 + c) (d5 + c) (d6 + c) (d7 + c) = num3 d0 d1 d2 d3 d4 d5 d6 d7 := by unfold num3; ring
  have h5 : num5 (d0 + c) (d1 + c) (d2 + c) (d3 + c) (d4 + c) (d5 + c) (d6 + c) (d7 + c) = num5 d0 d1 d2 d3 d4 d5 d6 d7 := by unfold num5; ring
  have h7 : num7 (d0 + c) (d1 + c) (d2 + c) (d3 + c) (d4 + c) (d5 + c) (d6 + c) (d7 + c) = num7 d0 d1 d2 d3 d4 d5 d6 d7 := by unfold num7; ring
  obtain ⟨k, rfl⟩ := Nat.exists_eq_succ_of_ne_zero hk
  unfold dct8P
  rw [h1, h2, h3, h4, h5, h6, h7]
  rfl

theorem dct8P_zero (ev : Int → Int) (n : Nat) (d0 d1 d2 d3 d4 d5 d6 d7 : Int) :
    (dct8P ev n d0 d1 d2 d3 d4 d5 d6 d7).getD 0 0 = ev (num0 d0 d1 d2 d3 d4 d5 d6 d7) := rfl

theorem dct8P_flat (ev : Int → Int) (hev : ev 0 = 0) {n : Nat} (hn : dsc 0 n = 0) (c : Int) {k : Nat} (hk : k ≠ 0) : (dct8P ev n c c c c c c c c).getD k 0 = 0 := by
  have h := dct8P_shift ev n 0 0 0 0 0 0 0 0 c hk
  simp only [Int.zero_add] at h
  rw [h]
  obtain ⟨k, rfl⟩ := Nat.exists_eq_succ_of_ne_zero hk
  simp only [dct8P, num1, num2, num3, num4, num5, num6, num7, hev, Int.mul_zero, Int.zero_mul, Int.add_zero, Int.sub_zero, hn, List.getD_cons_succ]
  match k with
  | 0 | 1 | 2 | 3 | 4 | 5 | 6 => rfl
  | k + 7 => rfl

/-- How outputs 0 and 4 of the second pass are rounded. -/
def evS (simd : Bool) (x : Nat) (v : Int) : Int := if simd = true ∧ x % 2 = 1 then v / 4 else dsc v 2

/-- What both transforms compute in the second pass, column `x`. -/
def colS (simd : Bool) (data : List Int) (x : Nat) : List Int :=
  dct8P (evS simd x) 15 (rhoP data 0 x) (rhoP data 1 x) (rhoP data 2 x) (rhoP data 3 x)
    (rhoP data 4 x) (rhoP data 5 x) (rhoP data 6 x) (rhoP data 7 x)

theorem colS_false (data : List Int) (x : Nat) : colS false data x = colP data x := by
  unfold colS colP
  have : evS false x = fun v => dsc v 2 := by funext v; simp [evS]
  rw [this]

theorem colS_true (data : List Int) (x : Nat) : colS true data x = Avx2.colA data x := by
  unfold colS Avx2.colA
  congr 1
  funext v
  unfold evS
  by_cases h : x % 2 = 1
  · rw [if_pos ⟨rfl, h⟩, if_neg (by omega)]
  · rw [if_neg (by tauto), if_pos (by omega)]

/-- The output of the transform of a build, entry by entry. -/
theorem dct_getD (simd : Bool) (data : List Int) {i : Nat} (hi : i < 64) :
    (if simd then Avx2.fdctA data else fdctP data).getD i 0 = (colS simd data (i % 8)).getD (i / 8) 0 := by
  cases simd
  · rw [colS_false]; exact fdctP_getD data hi
  · rw [colS_true]; exact Avx2.fdctA_getD data hi

/-- The DC output is the sum of the samples. -/
theorem dct_dc (simd : Bool) {data : List Int} (hl : data.length = 64) : (if simd then Avx2.fdctA data else fdctP data).getD 0 0 = data.sum := by
  rw [← fdctP_dc hl]
  cases simd
  · rfl
  · exact (Avx2.fdctA_spec data (by omega)).2.2 (by omega)

section
variable {a b : List Int}

/-- Adding a constant to all samples changes the DC output only. -/
theorem dct_shift (simd : Bool) (c : Int) (h : ∀ i, i < 64 → b.getD i 0 = a.getD i 0 + c) {i : Nat} (h0 : i ≠ 0) (hi : i < 64) :
    (if simd then Avx2.fdctA b else fdctP b).getD i 0 = (if simd then Avx2.fdctA a else fdctP a).getD i 0 := by
  rw [dct_getD simd _ hi, dct_getD simd _ hi]
  have hrho : ∀ y x, y < 8 → rhoP b y x = rhoP a y x + if x = 0 then 32 * c else 0 := by
    intro y x hy
    unfold rhoP rowP
    rw [h _ (show 8 * y < 64 by omega), h _ (show 8 * y + 1 < 64 by omega), h _ (show 8 * y + 2 < 64 by omega), h _ (show 8 * y + 3 < 64 by omega),
      h _ (show 8 * y + 4 < 64 by omega), h _ (show 8 * y + 5 < 64 by omega), h _ (show 8 * y + 6 < 64 by omega), h _ (show 8 * y + 7 < 64 by omega)]
    by_cases hx : x = 0
    · subst hx
      rw [dct8P_zero, dct8P_zero, if_pos rfl]
      unfold num0
      ring
    · rw [dct8P_shift _ _ _ _ _ _ _ _ _ _ _ hx, if_neg hx, Int.add_zero]
  unfold colS
  rw [hrho 0 _ (by omega), hrho 1 _ (by omega), hrho 2 _ (by omega), hrho 3 _ (by omega), hrho 4 _ (by omega), hrho 5 _ (by omega), hrho 6 _ (by omega),
    hrho 7 _ (by omega)]
  by_cases hx : i % 8 = 0
  · rw [if_pos hx]
    exact dct8P_shift _ _ _ _ _ _ _ _ _ _ _ (by omega)
  · rw [if_neg hx]
    simp only [Int.add_zero]

theorem ev_zero (simd : Bool) (x : Nat) : evS simd x 0 = 0 := by
  unfold evS
  split <;> decide

/-- Eight equal lines: only the first line of the transform is not zero. -/
theorem dct_equal_lines (simd : Bool) (h : ∀ y x, y < 8 → x < 8 → a.getD (8 * y + x) 0 = a.getD x 0) {i : Nat} (h0 : 8 ≤ i) (hi : i < 64) :
    (if simd then Avx2.fdctA a else fdctP a).getD i 0 = 0 := by
  rw [dct_getD simd _ hi]
  have hrho : ∀ y x, y < 8 → rhoP a y x = rhoP a 0 x := by
    intro y x hy
    unfold rhoP rowP
    have e := h y 0 hy (by omega)
    rw [Nat.add_zero] at e
    rw [e, h y 1 hy (by omega), h y 2 hy (by omega), h y 3 hy (by omega), h y 4 hy (by omega), h y 5 hy (by omega), h y 6 hy (by omega), h y 7 hy (by omega)]
  unfold colS
  rw [hrho 1 _ (by omega), hrho 2 _ (by omega), hrho 3 _ (by omega), hrho 4 _ (by omega), hrho 5 _ (by omega), hrho 6 _ (by omega),
    hrho 7 _ (by omega)]
  exact dct8P_flat (evS simd (i % 8)) (ev_zero simd _) (show dsc 0 15 = 0 by decide) _ (by omega)

/-- Eight equal columns: only the first column of the transform is not zero. -/
theorem dct_equal_columns (simd : Bool) (h : ∀ y x, y < 8 → x < 8 → a.getD (8 * y + x) 0 = a.getD (8 * y) 0) {i : Nat} (h0 : i % 8 ≠ 0) (hi : i < 64) :
    (if simd then Avx2.fdctA a else fdctP a).getD i 0 = 0 := by
  rw [dct_getD simd _ hi]
  have hrho : ∀ y, y < 8 → rhoP a y (i % 8) = 0 := by
    intro y hy
    unfold rhoP rowP
    rw [h y 1 hy (by omega), h y 2 hy (by omega), h y 3 hy (by omega), h y 4 hy (by omega), h y 5 hy (by omega), h y 6 hy (by omega), h y 7 hy (by omega)]
    exact dct8P_flat _ (by decide) (by decide) _ h0
  unfold colS
  rw [hrho 0 (by omega), hrho 1 (by omega), hrho 2 (by omega), hrho 3 (by omega), hrho 4 (by omega), hrho 5 (by omega), hrho 6 (by omega),
    hrho 7 (by omega)]
  by_cases hk : i / 8 = 0
  · rw [hk, dct8P_zero]
    exact ev_zero simd _
  · exact dct8P_flat (evS simd (i % 8)) (ev_zero simd _) (show dsc 0 15 = 0 by decide) _ hk

end

/-- The mean of the reconstructed samples is given by the DC coefficient alone. -/
theorem idct_sum (S : Nat → Nat → ℝ) : ∑ y ∈ Finset.range 8, ∑ x ∈ Finset.range 8, realIdct S y x = 8 * S 0 0 := by
  have h1 : blockMat (realDct (realIdct S)) = blockMat S := by
    rw [blockMat_dct, blockMat_idct]
    have : dctMat.transpose * (dctMat * blockMat S * dctMat.transpose) * dctMat = dctMat.transpose * dctMat * blockMat S * (dctMat.transpose * dctMat) := by
      simp only [Matrix.mul_assoc]
    rw [this, dctMat_orth', Matrix.one_mul, Matrix.mul_one]
  have h2 : realDct (realIdct S) 0 0 = S 0 0 := congrFun (congrFun h1 (0 : Fin 8)) (0 : Fin 8)
  rw [← h2, realDct]
  simp only [dctC, if_true, Nat.cast_zero, mul_zero, zero_mul, zero_div, Real.cos_zero, mul_one]
  have h4 : (√2 : ℝ) ^ 2 = 2 := Real.sq_sqrt (by norm_num)
  have h3 : (√2 : ℝ) ≠ 0 := by positivity
  field_simp
  rw [h4]
  ring

end Jpeg
