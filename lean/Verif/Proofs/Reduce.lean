import Mathlib.Algebra.BigOperators.Group.Finset.Basic
import Mathlib.Algebra.BigOperators.Group.Finset.Piecewise
import Mathlib.Algebra.Order.BigOperators.Group.Finset
import Mathlib.Algebra.Order.Field.Rat
import Mathlib.Algebra.BigOperators.Ring.Finset
import Mathlib.Data.Finset.Max
import Mathlib.Tactic.Ring
import Mathlib.Tactic.Linarith
import Mathlib.Tactic.FieldSimp
import Mathlib.Tactic.Positivity
/-! The step of the optimality proof of Huffman's algorithm: merging the two smallest weights. -/
namespace Jpeg

/-- Exchanging the lengths of `a` and `b`, where `a` has the smaller weight and `b` the larger length. -/
theorem exchange {S : Finset Nat} {w l : Nat → Nat} {a b : Nat} (ha : a ∈ S) (hb : b ∈ S) (hw : w a ≤ w b) (hl : l a ≤ l b) :
    ∃ l' : Nat → Nat, l' a = l b ∧ l' b = l a ∧ (∀ c, c ≠ a → c ≠ b → l' c = l c) ∧
      (S.sum fun c => (1 / 2 : ℚ) ^ l' c) = (S.sum fun c => (1 / 2 : ℚ) ^ l c) ∧ (S.sum fun c => w c * l' c) ≤ S.sum fun c => w c * l c := by
  by_cases hab : a = b
  · subst hab
    exact ⟨l, rfl, rfl, fun _ _ _ => rfl, rfl, le_refl _⟩
  · have split : ∀ {M : Type} [AddCommMonoid M] (g : Nat → M), S.sum g = g a + (g b + ((S.erase a).erase b).sum g) := by
      intro M _ g
      rw [← Finset.add_sum_erase S g ha, ← Finset.add_sum_erase (S.erase a) g (Finset.mem_erase.mpr ⟨Ne.symm hab, hb⟩)]
    have out : ∀ c ∈ (S.erase a).erase b, (if c = a then l b else if c = b then l a else l c) = l c := by
      intro c hc
      simp only [Finset.mem_erase] at hc
      rw [if_neg hc.2.1, if_neg hc.1]
    refine ⟨fun c => if c = a then l b else if c = b then l a else l c, by simp, by simp [Ne.symm hab], ?_, ?_, ?_⟩
    · intro c h1 h2
      simp [h1, h2]
    · rw [split, split]
      have e : (((S.erase a).erase b).sum fun c => (1 / 2 : ℚ) ^ (if c = a then l b else if c = b then l a else l c)) =
          ((S.erase a).erase b).sum fun c => (1 / 2 : ℚ) ^ l c := Finset.sum_congr rfl fun c hc => by rw [out c hc]
      rw [e]
      simp only [if_true, Ne.symm hab, if_false]
      ring
    · rw [split, split]
      have e : (((S.erase a).erase b).sum fun c => w c * (if c = a then l b else if c = b then l a else l c)) =
          ((S.erase a).erase b).sum fun c => w c * l c := Finset.sum_congr rfl fun c hc => by rw [out c hc]
      rw [e]
      simp only [if_true, Ne.symm hab, if_false]
      obtain ⟨x, hx⟩ := Nat.exists_eq_add_of_le hw
      obtain ⟨y, hy⟩ := Nat.exists_eq_add_of_le hl
      rw [hx, hy]
      have : w a * (l a + y) + (w a + x) * l a ≤ w a * l a + (w a + x) * (l a + y) := by
        have : w a * l a + (w a + x) * (l a + y) = w a * (l a + y) + (w a + x) * l a + x * y := by ring
        rw [this]
        exact Nat.le_add_right _ _
      omega

/-- Merging the two smallest weights. -/
theorem reduce {S : Finset Nat} {w : Nat → Nat} {a b : Nat} (ha : a ∈ S) (hb : b ∈ S) (hab : a ≠ b) (h1 : ∀ c ∈ S, w a ≤ w c)
    (h2 : ∀ c ∈ S, c ≠ a → w b ≤ w c) {l : Nat → Nat} (hk : (S.sum fun c => (1 / 2 : ℚ) ^ l c) ≤ 1) :
    ∃ l' : Nat → Nat, ((S.erase b).sum fun c => (1 / 2 : ℚ) ^ l' c) ≤ 1 ∧
      ((S.erase b).sum fun c => (if c = a then w a + w b else w c) * l' c) + (w a + w b) ≤ S.sum fun c => w c * l c := by
  -- the largest length to a
  obtain ⟨u, hu, hum⟩ := Finset.exists_max_image S l ⟨a, ha⟩
  obtain ⟨l1, p1, p2, p3, p4, p5⟩ := exchange ha hu (h1 u hu) (hum a ha)
  have hmax1 : ∀ c ∈ S, l1 c ≤ l1 a := by
    intro c hc
    rw [p1]
    by_cases e1 : c = a
    · subst e1; rw [p1]
    · by_cases e2 : c = u
      · subst e2; rw [p2]; exact hum a ha
      · rw [p3 c e1 e2]; exact hum c hc
  -- the second largest to b
  have hbS : b ∈ S.erase a := Finset.mem_erase.mpr ⟨Ne.symm hab, hb⟩
  obtain ⟨v, hv, hvm⟩ := Finset.exists_max_image (S.erase a) l1 ⟨b, hbS⟩
  have hv' := Finset.mem_erase.mp hv
  obtain ⟨l2, q1, q2, q3, q4, q5⟩ := exchange hb hv'.2 (h2 v hv'.2 hv'.1) (hvm b hbS)
  have ea : l2 a = l1 a := q3 a hab (Ne.symm hv'.1)
  have hmax2 : ∀ c ∈ S.erase a, l2 c ≤ l2 b := by
    intro c hc
    rw [q1]
    by_cases e1 : c = b
    · subst e1; rw [q1]
    · by_cases e2 : c = v
      · subst e2; rw [q2]; exact hvm b hbS
      · rw [q3 c e1 e2]; exact hvm c hc
  have hba : l2 b ≤ l2 a := by rw [ea, q1]; exact hmax1 v hv'.2
  have hk2 : (S.sum fun c => (1 / 2 : ℚ) ^ l2 c) ≤ 1 := by rw [q4, p4]; exact hk
  have hc2 : (S.sum fun c => w c * l2 c) ≤ S.sum fun c => w c * l c := le_trans q5 p5
  -- a, b, the rest
  have split : ∀ {M : Type} [AddCommMonoid M] (g : Nat → M), S.sum g = g a + (g b + ((S.erase a).erase b).sum g) := by
    intro M _ g
    rw [← Finset.add_sum_erase S g ha, ← Finset.add_sum_erase (S.erase a) g hbS]
  have hrest : ∀ {M : Type} [AddCommMonoid M] (g : Nat → M), (S.erase b).sum g = g a + ((S.erase a).erase b).sum g := by
    intro M _ g
    rw [Finset.erase_right_comm, ← Finset.add_sum_erase (S.erase b) g (Finset.mem_erase.mpr ⟨hab, ha⟩)]
  rw [split] at hk2
  -- in units of (1/2)^(l2 b)
  have hunit : (((S.erase a).erase b).sum fun c => (1 / 2 : ℚ) ^ l2 c) =
      (1 / 2 : ℚ) ^ l2 b * ((((S.erase a).erase b).sum fun c => 2 ^ (l2 b - l2 c) : Nat) : ℚ) := by
    push_cast
    rw [Finset.mul_sum]
    refine Finset.sum_congr rfl fun c hc => ?_
    have hcb := hmax2 c (Finset.mem_of_mem_erase hc)
    obtain ⟨m, hm⟩ := Nat.exists_eq_add_of_le hcb
    rw [hm, Nat.add_sub_cancel_left, pow_add, mul_assoc, ← mul_pow]
    norm_num
  obtain ⟨N, hN⟩ : ∃ N : Nat, N = ((S.erase a).erase b).sum fun c => 2 ^ (l2 b - l2 c) := ⟨_, rfl⟩
  rw [← hN] at hunit
  rw [hunit] at hk2
  have hpa : (0 : ℚ) < (1 / 2 : ℚ) ^ l2 a := by positivity
  have hpb : (0 : ℚ) < (1 / 2 : ℚ) ^ l2 b := by positivity
  have hinv : (1 / 2 : ℚ) ^ l2 b * 2 ^ l2 b = 1 := by
    rw [← mul_pow]
    norm_num
  have hlt : N + 2 ≤ 2 ^ l2 b := by
    have : (1 / 2 : ℚ) ^ l2 b * ((N + 1 : Nat) : ℚ) < (1 / 2 : ℚ) ^ l2 b * ((2 ^ l2 b : Nat) : ℚ) := by
      push_cast
      rw [hinv]
      linarith
    have := lt_of_mul_lt_mul_left this hpb.le
    have := Nat.cast_lt.mp this
    omega
  have hb1 : 1 ≤ l2 b := by
    by_contra h0
    rw [show l2 b = 0 by omega] at hlt
    simp at hlt
  refine ⟨fun c => if c = a then l2 b - 1 else l2 c, ?_, ?_⟩
  · rw [hrest]
    have : (((S.erase a).erase b).sum fun c => (1 / 2 : ℚ) ^ (if c = a then l2 b - 1 else l2 c)) = ((S.erase a).erase b).sum fun c => (1 / 2 : ℚ) ^ l2 c := by
      refine Finset.sum_congr rfl fun c hc => ?_
      rw [if_neg (Finset.mem_erase.mp (Finset.mem_of_mem_erase hc)).1]
    rw [this, hunit]
    simp only [if_true]
    have e2 : (1 / 2 : ℚ) ^ (l2 b - 1) = (1 / 2 : ℚ) ^ l2 b * 2 := by
      obtain ⟨m, hm⟩ : ∃ m, l2 b = m + 1 := ⟨l2 b - 1, by omega⟩
      rw [hm, Nat.add_sub_cancel, pow_succ]
      ring
    rw [e2, ← mul_add]
    have : (1 / 2 : ℚ) ^ l2 b * (2 + (N : ℚ)) ≤ (1 / 2 : ℚ) ^ l2 b * 2 ^ l2 b := by
      apply mul_le_mul_of_nonneg_left _ hpb.le
      have : ((N + 2 : Nat) : ℚ) ≤ ((2 ^ l2 b : Nat) : ℚ) := Nat.cast_le.mpr hlt
      push_cast at this
      linarith
    rw [hinv] at this
    exact this
  · rw [hrest]
    have : (((S.erase a).erase b).sum fun c => (if c = a then w a + w b else w c) * (if c = a then l2 b - 1 else l2 c)) =
        ((S.erase a).erase b).sum fun c => w c * l2 c := by
      refine Finset.sum_congr rfl fun c hc => ?_
      have := (Finset.mem_erase.mp (Finset.mem_of_mem_erase hc)).1
      rw [if_neg this, if_neg this]
    rw [this]
    simp only [if_true]
    rw [split] at hc2
    have e1 : (w a + w b) * (l2 b - 1) + (w a + w b) = (w a + w b) * l2 b := by
      obtain ⟨m, hm⟩ : ∃ m, l2 b = m + 1 := ⟨l2 b - 1, by omega⟩
      rw [hm, Nat.add_sub_cancel, Nat.mul_succ]
    have e2 : w a * l2 b ≤ w a * l2 a := Nat.mul_le_mul_left _ hba
    have e3 : (w a + w b) * l2 b = w a * l2 b + w b * l2 b := by ring
    omega

end Jpeg
