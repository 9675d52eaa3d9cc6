import Verif.Spec.Huffman
import Mathlib.Tactic.Ring
import Mathlib.Tactic.NormNum
/-! Lemmas about bit strings. -/
namespace Spec

@[simp] theorem toBits_length (n v : Nat) : (toBits n v).length = n := by
  induction n with
  | zero => rfl
  | succ n ih => simp [toBits, ih]

theorem toBits_add (a b v : Nat) : toBits (a + b) v = toBits a (v / 2 ^ b) ++ toBits b v := by
  induction a with
  | zero => simp [toBits]
  | succ a ih =>
    have : a + 1 + b = (a + b) + 1 := by omega
    rw [this]
    simp only [toBits, ih, List.cons_append, List.cons.injEq, and_true]
    rw [Nat.div_div_eq_div_mul, ← Nat.pow_add, Nat.add_comm b a]

theorem toBits_mod (n v m : Nat) (h : n ≤ m) : toBits n (v % 2 ^ m) = toBits n v := by
  induction n with
  | zero => rfl
  | succ n ih =>
    simp only [toBits, ih (by omega), List.cons.injEq, and_true]
    have : v % 2 ^ m / 2 ^ n % 2 = v / 2 ^ n % 2 := by
      have e : 2 ^ m = 2 ^ n * 2 ^ (m - n) := by rw [← Nat.pow_add]; congr 1; omega
      rw [e, Nat.mod_mul_right_div_self]
      have : 2 ^ (m - n) = 2 * 2 ^ (m - n - 1) := by rw [← Nat.pow_succ']; congr 1; omega
      rw [this, Nat.mod_mul_right_mod]
    rw [this]

theorem ofBits_append (a b : Bits) : ofBits (a ++ b) = ofBits a * 2 ^ b.length + ofBits b := by
  have key : ∀ (b : Bits) (x : Nat), b.foldl (fun n x => 2 * n + x.toNat) x = x * 2 ^ b.length + ofBits b := by
    intro b
    induction b with
    | nil => intro x; simp [ofBits]
    | cons y ys ih =>
      intro x
      simp only [List.foldl_cons, ofBits, List.length_cons]
      rw [ih, ih (2 * 0 + y.toNat)]
      rw [Nat.pow_succ]
      ring
  rw [ofBits, List.foldl_append, key b]
  rfl

theorem ofBits_cons (x : Bool) (b : Bits) : ofBits (x :: b) = x.toNat * 2 ^ b.length + ofBits b := by
  have := ofBits_append [x] b
  simpa [ofBits] using this

theorem ofBits_lt (b : Bits) : ofBits b < 2 ^ b.length := by
  induction b with
  | nil => simp [ofBits]
  | cons x xs ih =>
    rw [ofBits_cons, List.length_cons, Nat.pow_succ]
    cases x <;> simp <;> omega

theorem ofBits_toBits (n v : Nat) : ofBits (toBits n v) = v % 2 ^ n := by
  induction n with
  | zero => simp [toBits, ofBits, Nat.mod_one]
  | succ n ih =>
    simp only [toBits]
    rw [ofBits_cons, ih, toBits_length, Nat.pow_succ, Nat.mod_mul]
    have : (v / 2 ^ n % 2 == 1).toNat = v / 2 ^ n % 2 := by
      rcases Nat.mod_two_eq_zero_or_one (v / 2 ^ n) with h | h <;> simp [h]
    rw [this]
    ring

theorem toBits_ofBits (b : Bits) : toBits b.length (ofBits b) = b := by
  induction b with
  | nil => rfl
  | cons x xs ih =>
    simp only [List.length_cons, toBits]
    rw [ofBits_cons]
    have hlt := ofBits_lt xs
    have h1 : (x.toNat * 2 ^ xs.length + ofBits xs) / 2 ^ xs.length = x.toNat := by
      rw [Nat.mul_comm, Nat.mul_add_div (Nat.two_pow_pos _), Nat.div_eq_of_lt hlt, Nat.add_zero]
    have h2 : toBits xs.length (x.toNat * 2 ^ xs.length + ofBits xs) = xs := by
      rw [← toBits_mod _ _ xs.length (Nat.le_refl _), Nat.mul_comm, Nat.mul_add_mod, toBits_mod _ _ _ (Nat.le_refl _)]
      exact ih
    rw [h1, h2]
    cases x <;> rfl

theorem toBits_inj {n v w : Nat} (h : toBits n v = toBits n w) (hv : v < 2 ^ n) (hw : w < 2 ^ n) : v = w := by
  have := congrArg ofBits h
  rwa [ofBits_toBits, ofBits_toBits, Nat.mod_eq_of_lt hv, Nat.mod_eq_of_lt hw] at this

theorem bytesToBits_append (a b : List UInt8) : bytesToBits (a ++ b) = bytesToBits a ++ bytesToBits b := by
  simp [bytesToBits]

theorem bytesToBits_cons (a : UInt8) (b : List UInt8) : bytesToBits (a :: b) = toBits 8 a.toNat ++ bytesToBits b := rfl

theorem bytesToBits_length (l : List UInt8) : (bytesToBits l).length = 8 * l.length := by
  induction l with
  | nil => rfl
  | cons x xs ih => rw [bytesToBits_cons, List.length_append, ih, toBits_length, List.length_cons]; omega

theorem isPrefix_iff (a b : Bits) : isPrefix a b = true ↔ a <+: b := by
  induction a generalizing b with
  | nil => simp [isPrefix]
  | cons x xs ih =>
    cases b with
    | nil => simp [isPrefix]
    | cons y ys => simp [isPrefix, ih, List.cons_prefix_cons]

theorem prefix_toBits {l1 c1 l2 c2 : Nat} (h : toBits l1 c1 <+: toBits l2 c2) (hc1 : c1 < 2 ^ l1) (hc2 : c2 < 2 ^ l2) :
    l1 ≤ l2 ∧ c2 / 2 ^ (l2 - l1) = c1 := by
  have hl : l1 ≤ l2 := by simpa using h.length_le
  refine ⟨hl, ?_⟩
  obtain ⟨r, hr⟩ := h
  have e : l2 = l1 + (l2 - l1) := by omega
  have : toBits l2 c2 = toBits l1 (c2 / 2 ^ (l2 - l1)) ++ toBits (l2 - l1) c2 := by
    conv_lhs => rw [e]
    exact toBits_add _ _ _
  rw [this] at hr
  have := List.append_inj_left hr (by simp)
  refine (toBits_inj this hc1 ?_).symm
  rw [Nat.div_lt_iff_lt_mul (Nat.two_pow_pos _), ← Nat.pow_add]
  rwa [← e]

end Spec
