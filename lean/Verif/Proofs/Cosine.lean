import Verif.Spec.Dct
import Mathlib.Tactic.IntervalCases
import Mathlib.Tactic.NormNum
import Mathlib.Tactic.Linarith
/-! Rational bounds for the cosines of the DCT. -/
namespace Spec
open Real

/-- `√2 cos(mπ/16)` -/
noncomputable def ct (m : Nat) : ℝ := √2 * cos (m * π / 16)

theorem ct_add16 (m : Nat) : ct (m + 16) = -ct m := by
  unfold ct
  rw [show ((m + 16 : Nat) : ℝ) * π / 16 = m * π / 16 + π by push_cast; ring, cos_add_pi]
  ring

theorem ct_sub16 {m : Nat} (h : m ≤ 16) : ct (16 - m) = -ct m := by
  unfold ct
  rw [show ((16 - m : Nat) : ℝ) * π / 16 = π - m * π / 16 by push_cast [h]; ring, cos_pi_sub]
  ring

theorem sqrt2_bounds : (1.41421356236 : ℝ) ≤ √2 ∧ √2 ≤ 1.41421356239 := by
  constructor
  · exact Real.le_sqrt_of_sq_le (by norm_num)
  · exact Real.sqrt_le_iff.mpr ⟨by norm_num, by norm_num⟩

theorem ct4 : ct 4 = 1 := by
  unfold ct
  rw [show ((4 : Nat) : ℝ) * π / 16 = π / 4 by push_cast; ring, cos_pi_div_four]
  have : √2 * √2 = 2 := Real.mul_self_sqrt (by norm_num)
  linarith

theorem cos1_bounds : (0.980785279 : ℝ) ≤ cos (π / 16) ∧ cos (π / 16) ≤ 0.980785282 := by
  rw [cos_pi_div_sixteen]
  obtain ⟨a, b⟩ := sqrt2_bounds
  have c1 : (1.8477590649 : ℝ) ≤ √(2 + √2) := Real.le_sqrt_of_sq_le (by norm_num; linarith)
  have c2 : √(2 + √2) ≤ (1.8477590652 : ℝ) := Real.sqrt_le_iff.mpr ⟨by norm_num, by norm_num; linarith⟩
  have d1 : (1.9615705607 : ℝ) ≤ √(2 + √(2 + √2)) := Real.le_sqrt_of_sq_le (by norm_num; linarith)
  have d2 : √(2 + √(2 + √2)) ≤ (1.9615705610 : ℝ) := Real.sqrt_le_iff.mpr ⟨by norm_num, by norm_num; linarith⟩
  constructor <;> linarith

theorem sin1_bounds : (0.19509031 : ℝ) ≤ sin (π / 16) ∧ sin (π / 16) ≤ 0.19509034 := by
  rw [sin_pi_div_sixteen]
  obtain ⟨a, b⟩ := sqrt2_bounds
  have c1 : (1.8477590649 : ℝ) ≤ √(2 + √2) := Real.le_sqrt_of_sq_le (by norm_num; linarith)
  have c2 : √(2 + √2) ≤ (1.8477590652 : ℝ) := Real.sqrt_le_iff.mpr ⟨by norm_num, by norm_num; linarith⟩
  have d1 : (0.390180643 : ℝ) ≤ √(2 - √(2 + √2)) := Real.le_sqrt_of_sq_le (by norm_num; linarith)
  have d2 : √(2 - √(2 + √2)) ≤ (0.390180646 : ℝ) := Real.sqrt_le_iff.mpr ⟨by norm_num, by norm_num; linarith⟩
  constructor <;> linarith

theorem cos2_bounds : (0.923879531 : ℝ) ≤ cos (π / 8) ∧ cos (π / 8) ≤ 0.923879534 := by
  rw [cos_pi_div_eight]
  obtain ⟨a, b⟩ := sqrt2_bounds
  have c1 : (1.8477590649 : ℝ) ≤ √(2 + √2) := Real.le_sqrt_of_sq_le (by norm_num; linarith)
  have c2 : √(2 + √2) ≤ (1.8477590652 : ℝ) := Real.sqrt_le_iff.mpr ⟨by norm_num, by norm_num; linarith⟩
  constructor <;> linarith

theorem sin2_bounds : (0.38268342 : ℝ) ≤ sin (π / 8) ∧ sin (π / 8) ≤ 0.38268345 := by
  rw [sin_pi_div_eight]
  obtain ⟨a, b⟩ := sqrt2_bounds
  have c1 : (0.765366863 : ℝ) ≤ √(2 - √2) := Real.le_sqrt_of_sq_le (by norm_num; linarith)
  have c2 : √(2 - √2) ≤ (0.765366866 : ℝ) := Real.sqrt_le_iff.mpr ⟨by norm_num, by norm_num; linarith⟩
  constructor <;> linarith

/-- `cos(3π/16) = cos(π/8) cos(π/16) - sin(π/8) sin(π/16)` -/
theorem cos3_bounds : (0.83146957 : ℝ) ≤ cos (3 * π / 16) ∧ cos (3 * π / 16) ≤ 0.83146966 := by
  rw [show 3 * π / 16 = π / 8 + π / 16 by ring, cos_add]
  obtain ⟨a1, a2⟩ := cos1_bounds
  obtain ⟨b1, b2⟩ := sin1_bounds
  obtain ⟨c1, c2⟩ := cos2_bounds
  obtain ⟨d1, d2⟩ := sin2_bounds
  have e1 : (0.923879531 : ℝ) * 0.980785279 ≤ cos (π / 8) * cos (π / 16) := by gcongr
  have e2 : cos (π / 8) * cos (π / 16) ≤ 0.923879534 * 0.980785282 := by gcongr
  have e3 : (0.38268342 : ℝ) * 0.19509031 ≤ sin (π / 8) * sin (π / 16) := by gcongr
  have e4 : sin (π / 8) * sin (π / 16) ≤ 0.38268345 * 0.19509034 := by gcongr
  constructor
  · refine le_trans (by norm_num) (sub_le_sub e1 e4)
  · refine le_trans (sub_le_sub e2 e3) (by norm_num)

theorem cos5_bounds : (0.55557019 : ℝ) ≤ cos (5 * π / 16) ∧ cos (5 * π / 16) ≤ 0.55557028 := by
  rw [show 5 * π / 16 = π / 2 - (π / 8 + π / 16) by ring, cos_pi_div_two_sub, sin_add]
  obtain ⟨a1, a2⟩ := cos1_bounds
  obtain ⟨b1, b2⟩ := sin1_bounds
  obtain ⟨c1, c2⟩ := cos2_bounds
  obtain ⟨d1, d2⟩ := sin2_bounds
  have e1 : (0.38268342 : ℝ) * 0.980785279 ≤ sin (π / 8) * cos (π / 16) := by gcongr
  have e2 : sin (π / 8) * cos (π / 16) ≤ 0.38268345 * 0.980785282 := by gcongr
  have e3 : (0.923879531 : ℝ) * 0.19509031 ≤ cos (π / 8) * sin (π / 16) := by gcongr
  have e4 : cos (π / 8) * sin (π / 16) ≤ 0.923879534 * 0.19509034 := by gcongr
  constructor
  · refine le_trans (by norm_num) (add_le_add e1 e3)
  · refine le_trans (add_le_add e2 e4) (by norm_num)

theorem mul_sqrt2 {c lo hi : ℝ} (h0 : 0 ≤ lo) (h : lo ≤ c ∧ c ≤ hi) : 1.41421356236 * lo ≤ √2 * c ∧ √2 * c ≤ 1.41421356239 * hi := by
  obtain ⟨a, b⟩ := sqrt2_bounds
  obtain ⟨h1, h2⟩ := h
  have : 0 ≤ c := le_trans h0 h1
  constructor
  · exact mul_le_mul a h1 h0 (Real.sqrt_nonneg 2)
  · exact mul_le_mul b h2 this (by norm_num)

/-- The seven cosines, scaled by `8192 √2`. -/
theorem ct_bounds : (11362.628 ≤ 8192 * ct 1 ∧ 8192 * ct 1 ≤ 11362.633) ∧ (10703.361 ≤ 8192 * ct 2 ∧ 8192 * ct 2 ≤ 10703.366) ∧
    (9632.770 ≤ 8192 * ct 3 ∧ 8192 * ct 3 ≤ 9632.775) ∧ (6436.411 ≤ 8192 * ct 5 ∧ 8192 * ct 5 ≤ 6436.416) ∧
    (4433.476 ≤ 8192 * ct 6 ∧ 8192 * ct 6 ≤ 4433.481) ∧ (2260.165 ≤ 8192 * ct 7 ∧ 8192 * ct 7 ≤ 2260.170) := by
  have h1 := mul_sqrt2 (by norm_num) cos1_bounds
  have h2 := mul_sqrt2 (by norm_num) cos2_bounds
  have h3 := mul_sqrt2 (by norm_num) cos3_bounds
  have h5 := mul_sqrt2 (by norm_num) cos5_bounds
  have h6 := mul_sqrt2 (by norm_num) sin2_bounds
  have h7 := mul_sqrt2 (by norm_num) sin1_bounds
  have e1 : ct 1 = √2 * cos (π / 16) := by unfold ct; congr 2; push_cast; ring
  have e2 : ct 2 = √2 * cos (π / 8) := by unfold ct; congr 2; push_cast; ring
  have e3 : ct 3 = √2 * cos (3 * π / 16) := by unfold ct; congr 2
  have e5 : ct 5 = √2 * cos (5 * π / 16) := by unfold ct; congr 2
  have e6 : ct 6 = √2 * sin (π / 8) := by
    unfold ct; rw [← cos_pi_div_two_sub]; congr 2; push_cast; ring
  have e7 : ct 7 = √2 * sin (π / 16) := by
    unfold ct; rw [← cos_pi_div_two_sub]; congr 2; push_cast; ring
  rw [e1, e2, e3, e5, e6, e7]
  norm_num at *
  obtain ⟨h1a, h1b⟩ := h1
  obtain ⟨h2a, h2b⟩ := h2
  obtain ⟨h3a, h3b⟩ := h3
  obtain ⟨h5a, h5b⟩ := h5
  obtain ⟨h6a, h6b⟩ := h6
  obtain ⟨h7a, h7b⟩ := h7
  refine ⟨⟨?_, ?_⟩, ⟨?_, ?_⟩, ⟨?_, ?_⟩, ⟨?_, ?_⟩, ⟨?_, ?_⟩, ?_, ?_⟩ <;> linarith

end Spec
