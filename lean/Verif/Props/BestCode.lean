import Verif.Props.Tables
import Mathlib.Algebra.Order.BigOperators.Group.Finset
import Mathlib.Data.Rat.Cast.Order
/-! C11: many symbols of many kinds are within the bounds. -/
namespace Jpeg

theorem length_tangent (l : Nat) : (9 : ℚ) - 256 * (1 / 2) ^ l ≤ l := by
  by_cases h : l < 9
  · rcases (show l = 0 ∨ l = 1 ∨ l = 2 ∨ l = 3 ∨ l = 4 ∨ l = 5 ∨ l = 6 ∨ l = 7 ∨ l = 8 by omega) with rfl | rfl | rfl | rfl | rfl | rfl | rfl | rfl | rfl <;> norm_num
  · have h1 : (9 : ℚ) ≤ l := by exact_mod_cast (show 9 ≤ l by omega)
    have h2 : (0 : ℚ) < (1 / 2) ^ l := by positivity
    linarith

theorem tangent_sum (S : Finset Nat) (l : Nat → Nat) : (9 : ℚ) * S.card - 256 * S.sum (fun s => (1 / 2 : ℚ) ^ l s) ≤ (S.sum l : ℕ) := by
  rw [Nat.cast_sum, Finset.mul_sum, Finset.card_eq_sum_ones, Nat.cast_sum, Finset.mul_sum, ← Finset.sum_sub_distrib]
  refine Finset.sum_le_sum fun s _ => ?_
  have := length_tangent (l s)
  push_cast
  linarith

/-- 254 symbols with the same count `K`, together more than 2^31 occurrences. -/
theorem short_equal {K : Nat} (hK : 25 < K) : Spec.ShortCodes (insert 256 (Finset.range 254)) fun s => if s < 254 then K else 1 := by
  intro l ⟨hk, hb⟩ a ha
  have h256 : 256 ∉ Finset.range 254 := by simp
  have cost : ∀ l : Nat → Nat, (insert 256 (Finset.range 254)).sum (fun s => (if s < 254 then K else 1) * l s) = l 256 + K * (Finset.range 254).sum l := by
    intro l
    rw [Finset.sum_insert h256, Finset.mul_sum]
    refine congrArg₂ (· + ·) ?_ ?_
    · rw [if_neg (by decide), Nat.one_mul]
    · exact Finset.sum_congr rfl fun s hs => by rw [if_pos (Finset.mem_range.mp hs)]
  have hb := hb (fun s => if s = 0 then 7 else 8) (by
    rw [Finset.sum_insert h256, Finset.sum_range_succ']
    simp only [Nat.add_eq_zero_iff, one_ne_zero, and_false, if_false, if_true, Finset.sum_const, Finset.card_range, nsmul_eq_mul]
    norm_num)
  rw [cost, cost] at hb
  have e1 : (Finset.range 254).sum (fun s => if s = 0 then 7 else 8) = 2031 := by decide +kernel
  rw [e1, if_neg (by decide)] at hb
  rw [Finset.sum_insert h256] at hk
  by_contra hc
  rcases Finset.mem_insert.mp ha with rfl | ha
  · have h1 := tangent_sum (Finset.range 254) l
    rw [Finset.card_range] at h1
    have h2 : (0 : ℚ) < (1 / 2) ^ l 256 := by positivity
    have h3 : (2030 : ℚ) < ((Finset.range 254).sum l : ℕ) := by push_cast at h1 ⊢; linarith
    have h4 : 2031 ≤ (Finset.range 254).sum l := by exact_mod_cast h3
    have := Nat.mul_le_mul_left K h4
    omega
  · rw [← Finset.add_sum_erase _ _ ha] at hb hk
    have h1 := tangent_sum ((Finset.range 254).erase a) l
    rw [Finset.card_erase_of_mem ha, Finset.card_range] at h1
    have h2 : (0 : ℚ) < (1 / 2) ^ l 256 := by positivity
    have h3 : (0 : ℚ) < (1 / 2) ^ l a := by positivity
    have h4 : (2020 : ℚ) < (((Finset.range 254).erase a).sum l : ℕ) := by push_cast at h1 ⊢; linarith
    have h5 : 2021 ≤ ((Finset.range 254).erase a).sum l := by exact_mod_cast h4
    have := Nat.mul_le_mul_left K (show 2054 ≤ l a + ((Finset.range 254).erase a).sum l by omega)
    have e : ((Finset.range 254).erase a).sum l = ∑ x ∈ (Finset.range 254).erase a, l x := rfl
    rw [e] at this
    generalize K * (l a + ∑ x ∈ (Finset.range 254).erase a, l x) = X at *
    omega

-- many different symbols, and more than 2^31 of them
example : Spec.Countable (List.replicate 254 10000000 ++ [0, 0]) := by
  refine ⟨by decide +kernel, ⟨10000000, by decide +kernel, by decide⟩, by decide +kernel, Or.inr ⟨by decide +kernel, Or.inr ?_⟩⟩
  have e1 : ((Finset.range 257).filter fun s => (List.replicate 254 10000000 ++ [0, 0] ++ [1]).getD s 0 ≠ 0) = insert 256 (Finset.range 254) := by decide +kernel
  rw [e1]
  intro l hl
  refine short_equal (K := 10000000) (by decide) l ?_
  have e2 : ∀ s ∈ insert 256 (Finset.range 254), (List.replicate 254 10000000 ++ [0, 0] ++ [1]).getD s 0 = if s < 254 then 10000000 else 1 := by decide +kernel
  have e3 : ∀ l : Nat → Nat, (insert 256 (Finset.range 254)).sum (fun s => (List.replicate 254 10000000 ++ [0, 0] ++ [1]).getD s 0 * l s) =
      (insert 256 (Finset.range 254)).sum fun s => (if s < 254 then 10000000 else 1) * l s :=
    fun l => Finset.sum_congr rfl fun s hs => by rw [e2 s hs]
  refine ⟨hl.1, fun l' h' => ?_⟩
  have := hl.2 l' h'
  rw [e3, e3] at this
  exact this
end Jpeg
