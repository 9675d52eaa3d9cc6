import Verif.Props.Quant
/-! C22, exact rounding of small coefficients. -/
namespace Jpeg
set_option maxRecDepth 100000

/-- The rounding of `x` (8 times the coefficient) with step `v` is to the nearest multiple. -/
def nearestAt (v x : Nat) : Bool := decide (8 * v * quantAbs v x ≤ x + 4 * v) && decide (x ≤ 8 * v * quantAbs v x + 4 * v)

theorem nearest_small_steps : ((List.range 42).all fun v => v == 0 || (List.range 167).all fun x => nearestAt v x) = true := by decide +kernel

theorem nearest_large_steps : ((List.range 2049).all fun v => decide (v < 42) || decide (quantAbs v 166 = 0)) = true := by decide +kernel

theorem quantAbs_small {v x : Nat} (h1 : 1 ≤ v) (h2 : v ≤ 2048) (hx : x ≤ 166) : 8 * v * quantAbs v x ≤ x + 4 * v ∧ x ≤ 8 * v * quantAbs v x + 4 * v := by
  by_cases hv : v < 42
  · have h := List.all_eq_true.mp nearest_small_steps v (List.mem_range.mpr hv)
    rw [Bool.or_eq_true] at h
    have h := h.resolve_left (by simp; omega)
    have h := List.all_eq_true.mp h x (List.mem_range.mpr (by omega))
    simpa [nearestAt] using h
  · have h := List.all_eq_true.mp nearest_large_steps v (List.mem_range.mpr (by omega))
    simp only [Bool.or_eq_true, decide_eq_true_eq] at h
    have h0 := h.resolve_left hv
    have hz : quantAbs v x = 0 := by
      have := quantAbs_mono v hx
      omega
    rw [hz]
    omega

/-- Coefficients below 20.875 (`x` is 8 times the coefficient, `|x| ≤ 166`) are rounded to the nearest multiple of the divisor, for every
table, quality, position and platform: the error is at most half a step. -/
theorem C22_nearest_small (pf : Platform) (type : QuantizationTableType) (quality : UInt8) (luma : Bool) :
    ∃ q, QuantizationTable.newWithQuality type quality.toNat luma = .ok q ∧
      ∀ k (hk : k < 64), ∃ v : Nat, 1 ≤ v ∧ v ≤ 2048 ∧ q.get k = .ok (v % 256) ∧
        ((∀ t, type ≠ .custom t) → v ≤ 255) ∧ (∀ t, type = .custom t → v = max 1 (min 2048 t[k].toNat)) ∧
        ∀ x : Int, |x| ≤ 166 → ∃ c : Int, q.quantize pf x k = .ok c ∧ |(v : ℚ) * c - x / 8| ≤ v / 2 := by
  refine ⟨_, newWithQuality_eq _ _ _, fun k hk => ?_⟩
  have hl : k < (steps type quality.toNat luma).length := by rw [steps_length]; exact hk
  have hr := steps_range type quality.toNat luma _ (getD_mem hl)
  refine ⟨(steps type quality.toNat luma).getD k 1, hr.1, hr.2, mkQ_get _ hl, ?_, ?_, fun x hx => ?_⟩
  · intro hc
    have hc' : isCustom type = false := by cases type <;> first | rfl | exact absurd rfl (hc _)
    exact (steps_range255 type quality.toNat luma hc' _ (getD_mem hl)).2
  · rintro t rfl
    simp [steps, List.getD, hk, Spec.clamp]
  have hx' : x.natAbs ≤ 166 := by
    have := abs_le.mp hx; omega
  refine ⟨_, quantize_eq pf _ (steps_range type quality.toNat luma) k hl x (by omega), ?_⟩
  generalize hv : (steps type quality.toNat luma).getD k 1 = v at *
  obtain ⟨e1, e2⟩ := quantAbs_small hr.1 hr.2 hx'
  have key : |8 * (v : Int) * quantOf v x - x| ≤ 4 * v := by
    rw [abs_le]
    simp only [quantOf]
    generalize quantAbs v x.natAbs = qa at *
    zify at e1 e2
    split
    · rename_i hneg
      have : (x.natAbs : Int) = -x := by omega
      simp only [Int.natCast_natAbs] at e1 e2 this
      rw [this] at e1 e2
      constructor <;> nlinarith
    · rename_i hneg
      have : (x.natAbs : Int) = x := by omega
      simp only [Int.natCast_natAbs] at e1 e2 this
      rw [this] at e1 e2
      constructor <;> linarith
  have key' : |8 * (v : ℚ) * quantOf v x - x| ≤ 4 * v := by exact_mod_cast key
  rw [abs_le] at key' ⊢
  constructor <;> linarith [key'.1, key'.2]

/-- The bound is sharp: with divisor 42 the coefficient 167/8 = 20.875 is quantised to 1, while 0 is closer. -/
theorem C22_small_sharp : ∃ q, QuantizationTable.newWithQuality (.custom (Vector.replicate 64 42)) 75 true = .ok q ∧ q.get 0 = .ok 42 ∧
    q.quantize ⟨true, 8⟩ 167 0 = .ok 1 ∧ |(42 : ℚ) * 0 - 167 / 8| < |(42 : ℚ) * 1 - 167 / 8| := by
  refine ⟨_, newWithQuality_eq _ _ _, by decide, by decide, ?_⟩
  norm_num [abs_of_pos, abs_of_neg]

/-- With divisor 34 the coefficient 137/8 = 17.125 becomes 1 (34): half a step is 17. -/
example : ∃ q, QuantizationTable.newWithQuality (.custom (Vector.replicate 64 34)) 75 true = .ok q ∧ q.quantize ⟨true, 8⟩ 137 5 = .ok 1 :=
  ⟨_, newWithQuality_eq _ _ _, by decide⟩

theorem reciprocal_near {v : Nat} (h1 : 1 ≤ v) (h2 : v ≤ 2048) :
    let r := (computeReciprocal (8 * v)).1
    let k := (computeReciprocal (8 * v)).2
    (k = 4 * v ∧ 32768 ≤ r * (8 * v) ∧ r * (8 * v) ≤ 32768 + 4 * v) ∨ (k = 4 * v + 1 ∧ r * (8 * v) ≤ 32768 ∧ 32768 ≤ r * (8 * v) + 4 * v) := by
  have h : ¬ 8 * v ≤ 1 := by omega
  simp only [computeReciprocal, h, if_false, SHIFT]
  norm_num
  have e : 8 * v * (32768 / (8 * v)) + 32768 % (8 * v) = 32768 := Nat.div_add_mod _ _
  have m : 32768 % (8 * v) < 8 * v := Nat.mod_lt _ (by omega)
  have e' : 32768 / (8 * v) * (8 * v) = 8 * v * (32768 / (8 * v)) := Nat.mul_comm _ _
  split <;> [skip; split] <;> dsimp only <;> (try rw [Nat.add_mul]) <;> omega

theorem quantAbs_almost {v x : Nat} (h1 : 1 ≤ v) (h2 : v ≤ 2048) :
    8192 * (8 * v * quantAbs v x) ≤ 8192 * x + 8192 * (4 * v + 1) + (x + 4 * v) * v ∧
    8192 * x ≤ 8192 * (8 * v * quantAbs v x) + 8192 * (4 * v + 1) + (x + 4 * v) * v := by
  obtain ⟨lo, hi⟩ := quantAbs_bounds (v := v) (x := x) h1 h2
  have hr := reciprocal_near h1 h2
  generalize (computeReciprocal (8 * v)).1 = r at *
  generalize (computeReciprocal (8 * v)).2 = k at *
  generalize quantAbs v x = q at *
  have lo' : q * 32768 * (8 * v) ≤ (x + k) * (r * (8 * v)) := by
    rw [← Nat.mul_assoc (x + k)]; exact Nat.mul_le_mul_right _ lo
  have hi' : (x + k) * (r * (8 * v)) ≤ (q + 1) * 32768 * (8 * v) := by
    rw [← Nat.mul_assoc (x + k)]; exact Nat.mul_le_mul_right _ hi.le
  dsimp only at hr
  generalize r * (8 * v) = m at *
  rcases hr with ⟨rfl, a, b⟩ | ⟨rfl, a, b⟩
  · have u1 := Nat.mul_le_mul_left (x + 4 * v) a
    have u2 := Nat.mul_le_mul_left (x + 4 * v) b
    constructor <;> nlinarith
  · have u1 := Nat.mul_le_mul_left (x + (4 * v + 1)) a
    have u2 := Nat.mul_le_mul_left (x + (4 * v + 1)) b
    constructor <;> nlinarith

/-- How far quantisation is from rounding to nearest: the error of a coefficient `x / 8` is at most half a step, plus 1/8, plus `step / 8192` of the coefficient
(and half a step), for every table, quality, position, platform and coefficient, also beyond the range of the transform. -/
theorem C22_almost_nearest (pf : Platform) (type : QuantizationTableType) (quality : UInt8) (luma : Bool) :
    ∃ q, QuantizationTable.newWithQuality type quality.toNat luma = .ok q ∧
      ∀ k (hk : k < 64), ∃ v : Nat, 1 ≤ v ∧ v ≤ 2048 ∧ q.get k = .ok (v % 256) ∧
        ((∀ t, type ≠ .custom t) → v ≤ 255) ∧ (∀ t, type = .custom t → v = max 1 (min 2048 t[k].toNat)) ∧
        ∀ x : Int, |x| ≤ 32768 → ∃ c : Int, q.quantize pf x k = .ok c ∧ |(v : ℚ) * c - x / 8| ≤ v / 2 + 1 / 8 + (|(x : ℚ)| / 8 + v / 2) * v / 8192 := by
  refine ⟨_, newWithQuality_eq _ _ _, fun k hk => ?_⟩
  have hl : k < (steps type quality.toNat luma).length := by rw [steps_length]; exact hk
  have hr := steps_range type quality.toNat luma _ (getD_mem hl)
  refine ⟨(steps type quality.toNat luma).getD k 1, hr.1, hr.2, mkQ_get _ hl, ?_, ?_, fun x hx => ?_⟩
  · intro hc
    have hc' : isCustom type = false := by cases type <;> first | rfl | exact absurd rfl (hc _)
    exact (steps_range255 type quality.toNat luma hc' _ (getD_mem hl)).2
  · rintro t rfl
    simp [steps, List.getD, hk, Spec.clamp]
  have hx' : x.natAbs ≤ 32768 := by
    have := abs_le.mp hx; omega
  refine ⟨_, quantize_eq pf _ (steps_range type quality.toNat luma) k hl x hx', ?_⟩
  generalize hv : (steps type quality.toNat luma).getD k 1 = v at *
  obtain ⟨e1, e2⟩ := quantAbs_almost (x := x.natAbs) hr.1 hr.2
  have eabs : |(x : ℚ)| = (x.natAbs : ℚ) := by rw [Nat.cast_natAbs]; push_cast; rfl
  have key : |(v : ℚ) * quantOf v x - x / 8| = |(v : ℚ) * quantAbs v x.natAbs - (x.natAbs : ℚ) / 8| := by
    rw [← eabs]
    rcases lt_or_ge x 0 with hneg | hneg
    · rw [quantOf, if_pos hneg, abs_of_neg (show (x : ℚ) < 0 by exact_mod_cast hneg), ← abs_neg]
      push_cast
      congr 1
      ring
    · rw [quantOf, if_neg (by omega), abs_of_nonneg (show (0 : ℚ) ≤ x by exact_mod_cast hneg)]
      push_cast
      rfl
  rw [key, eabs]
  generalize quantAbs v x.natAbs = qa at *
  generalize x.natAbs = n at *
  have e1' : (8192 : ℚ) * (8 * v * qa) ≤ 8192 * n + 8192 * (4 * v + 1) + (n + 4 * v) * v := by exact_mod_cast e1
  have e2' : (8192 : ℚ) * n ≤ 8192 * (8 * v * qa) + 8192 * (4 * v + 1) + (n + 4 * v) * v := by exact_mod_cast e2
  rw [abs_le]
  constructor <;> nlinarith

-- a coefficient of 100 and a step of 16 or less: at most 0.35 above half a step
example (v : ℚ) (h0 : 0 ≤ v) (h : v ≤ 16) : v / 2 + 1 / 8 + (|(800 : ℚ)| / 8 + v / 2) * v / 8192 ≤ v / 2 + 0.35 := by
  rw [abs_of_nonneg (by norm_num)]
  nlinarith

end Jpeg
