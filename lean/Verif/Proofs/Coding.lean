import Verif.Proofs.Basic
import Verif.Spec.Quant
/-! Magnitude categories: closed forms of `getCode` and `getNumBits`. -/
namespace Jpeg

/-- Number of bits of a natural number. -/
def bitLen (n : Nat) : Nat := if n = 0 then 0 else n.log2 + 1

theorem bitLen_zero : bitLen 0 = 0 := rfl

theorem bitLen_pos {n : Nat} (h : 0 < n) : 0 < bitLen n ∧ 2 ^ (bitLen n - 1) ≤ n ∧ n < 2 ^ bitLen n := by
  have hne : n ≠ 0 := by omega
  simp only [bitLen, if_neg hne]
  refine ⟨by omega, ?_, Nat.lt_log2_self⟩
  simpa using Nat.log2_self_le hne

theorem lt_two_pow_bitLen (n : Nat) : n < 2 ^ bitLen n := by
  rcases Nat.eq_zero_or_pos n with h | h
  · subst h; simp [bitLen]
  · exact (bitLen_pos h).2.2

theorem bitLen_le {n k : Nat} (h : n < 2 ^ k) : bitLen n ≤ k := by
  rcases Nat.eq_zero_or_pos n with h0 | h0
  · subst h0; simp [bitLen]
  · by_contra hc
    have := (bitLen_pos h0).2.1
    have h2 : 2 ^ k ≤ 2 ^ (bitLen n - 1) := Nat.pow_le_pow_right (by omega) (by omega)
    omega

theorem bitLen_unique {n k : Nat} (h1 : 2 ^ k ≤ n) (h2 : n < 2 ^ (k + 1)) : bitLen n = k + 1 := by
  have hpos : 0 < n := Nat.lt_of_lt_of_le (Nat.two_pow_pos k) h1
  have ha := bitLen_le h2
  by_contra hc
  have hl : bitLen n ≤ k := by omega
  have := lt_two_pow_bitLen n
  have h3 : 2 ^ bitLen n ≤ 2 ^ k := Nat.pow_le_pow_right (by omega) hl
  omega

theorem bitLen_half {n : Nat} (h : 0 < n) : bitLen n = bitLen (n / 2) + 1 := by
  obtain ⟨h1, h2, h3⟩ := bitLen_pos h
  rcases Nat.eq_zero_or_pos (n / 2) with h0 | h0
  · have : n = 1 := by omega
    subst this; decide
  · obtain ⟨g1, g2, g3⟩ := bitLen_pos h0
    apply bitLen_unique
    · have : 2 ^ bitLen (n / 2) = 2 * 2 ^ (bitLen (n / 2) - 1) := by
        rw [← Nat.pow_succ']; congr 1; omega
      omega
    · rw [Nat.pow_succ]; omega

/-- Category of a coefficient. -/
def catOf (v : Int) : Nat := bitLen v.natAbs

/-- Additional bits of a coefficient. -/
def addBits (v : Int) : Nat := if v < 0 then (v - 1 + 2 ^ catOf v).toNat else v.toNat

theorem natAbs_lt_cat (v : Int) : v.natAbs < 2 ^ catOf v := lt_two_pow_bitLen _

theorem addBits_lt (v : Int) : addBits v < 2 ^ catOf v := by
  have := natAbs_lt_cat v
  have e : ((2 ^ catOf v : Nat) : Int) = (2 : Int) ^ catOf v := by push_cast; rfl
  simp only [addBits]
  split <;> omega

theorem getCode_eq (pf : Platform) (v : Int) (h : v.natAbs ≤ 16383) : getCode pf v = .ok (catOf v, addBits v) := by
  have hcl : catOf v ≤ 14 := bitLen_le (by omega)
  have hlt := natAbs_lt_cat v
  unfold getCode
  have h2 : (if v < 0 then -v else v) = (v.natAbs : Int) := by split <;> omega
  rw [ckI16_ok (by split <;> omega) (by split <;> omega), h2, ckI16_ok (by omega) (by omega)]
  simp only [ok_bind]
  have hor : repr16 ((v.natAbs : Int) * 2) ||| 1 = 2 * v.natAbs + 1 := by
    have : repr16 ((v.natAbs : Int) * 2) = 2 ^ 1 * v.natAbs := by simp only [repr16]; omega
    rw [this, ← Nat.two_pow_add_eq_or_of_lt (by omega)]
  have hlz : leadingZeros16 (2 * v.natAbs + 1) = 15 - catOf v := by
    have hb : bitLen (2 * v.natAbs + 1) = catOf v + 1 := by
      rw [bitLen_half (by omega)]
      simp only [catOf]
      congr 2
      omega
    have : leadingZeros16 (2 * v.natAbs + 1) = 16 - bitLen (2 * v.natAbs + 1) := rfl
    rw [this, hb]
    omega
  rw [hor, hlz, ckU16_ok (by omega) (by omega)]
  simp only [ok_bind]
  have hn : ((15 : Int) - ((15 - catOf v : Nat) : Int)).toNat = catOf v := by omega
  rw [hn]
  have hs : ckShift pf 16 (catOf v : Int) = .ok (catOf v) := by
    simp only [ckShift]
    rw [if_pos (by omega)]
    simp
  rw [hs]
  simp only [ok_bind]
  have hp : 2 ^ catOf v ≤ 16384 := by
    have : 2 ^ catOf v ≤ 2 ^ 14 := Nat.pow_le_pow_right (by omega) hcl
    omega
  have hp1 : 1 ≤ 2 ^ catOf v := Nat.one_le_two_pow
  have e : ((2 ^ catOf v : Nat) : Int) = (2 : Int) ^ catOf v := by push_cast; rfl
  rw [Int.bmod_eq_of_le (by omega) (by omega), ckI16_ok (by omega) (by omega)]
  simp only [ok_bind]
  have hm : repr16 ((2 : Int) ^ catOf v - 1) = 2 ^ catOf v - 1 := by
    simp only [repr16]; omega
  rw [hm, Nat.and_two_pow_sub_one_eq_mod, Nat.mod_eq_of_lt (show catOf v < 256 by omega)]
  have hdvd : ∃ m : Nat, 65536 = 2 ^ catOf v * m := ⟨2 ^ (16 - catOf v), by rw [← Nat.pow_add, show catOf v + (16 - catOf v) = 16 by omega]⟩
  obtain ⟨m, hm'⟩ := hdvd
  have hr : repr16 (v - if v < 0 then 1 else 0) % 2 ^ catOf v = addBits v := by
    simp only [addBits, repr16]
    split
    · rename_i hneg
      have h65 : ((v - 1) % 65536).toNat = (v - 1 + 2 ^ catOf v).toNat + (65536 - 2 ^ catOf v) := by omega
      rw [h65, hm', show 2 ^ catOf v * m - 2 ^ catOf v = 2 ^ catOf v * (m - 1) by
        rw [Nat.mul_sub, Nat.mul_one], Nat.add_mul_mod_self_left]
      apply Nat.mod_eq_of_lt
      omega
    · rename_i hneg
      have h65 : ((v - 0) % 65536).toNat = v.toNat := by omega
      rw [h65]
      apply Nat.mod_eq_of_lt
      omega
  rw [hr]

theorem numBitsLoop_eq (pf : Platform) (fuel n k : Nat) (h : bitLen n < fuel) (hk : bitLen n + k < 256) :
    numBitsLoop pf fuel (n : Int) k = .ok (bitLen n + k) := by
  induction fuel generalizing n k with
  | zero => omega
  | succ f ih =>
    unfold numBitsLoop
    rcases Nat.eq_zero_or_pos n with h0 | h0
    · subst h0; simp [bitLen]
    · rw [if_pos (by omega), ckU8_ok (by omega) (by rw [bitLen_half h0] at hk; omega)]
      simp only [ok_bind]
      have e : (n : Int) / 2 = ((n / 2 : Nat) : Int) := by omega
      have e2 : ((k : Int) + 1).toNat = k + 1 := by omega
      rw [bitLen_half h0] at h hk
      rw [e, e2, ih (n / 2) (k + 1) (by omega) (by omega), bitLen_half h0]
      congr 1
      omega

theorem getNumBits_eq (pf : Platform) (v : Int) (h : v.natAbs ≤ 32767) : getNumBits pf v = .ok (catOf v) := by
  unfold getNumBits
  have h2 : (if v < 0 then -v else v) = (v.natAbs : Int) := by split <;> omega
  rw [h2, ckI16_ok (by omega) (by omega)]
  simp only [ok_bind]
  have : bitLen v.natAbs ≤ 15 := bitLen_le (by omega)
  rw [numBitsLoop_eq pf 17 v.natAbs 0 (by omega) (by omega)]
  rfl

theorem catOf_zero_iff (v : Int) : catOf v = 0 ↔ v = 0 := by
  constructor
  · intro h
    by_contra hne
    have := (bitLen_pos (show 0 < v.natAbs by omega)).1
    simp only [catOf] at h; omega
  · rintro rfl; rfl

theorem extend_addBits (v : Int) : Spec.extend (addBits v) (catOf v) = v := by
  have e : ((2 ^ catOf v : Nat) : Int) = (2 : Int) ^ catOf v := by push_cast; rfl
  have e' : ((2 ^ (catOf v - 1) : Nat) : Int) = (2 : Int) ^ (catOf v - 1) := by push_cast; rfl
  by_cases h0 : v = 0
  · subst h0; decide
  · obtain ⟨g1, g2, g3⟩ := bitLen_pos (show 0 < v.natAbs by omega)
    change 0 < catOf v at g1
    change 2 ^ (catOf v - 1) ≤ _ at g2
    change _ < 2 ^ catOf v at g3
    have hd : 2 ^ catOf v = 2 * 2 ^ (catOf v - 1) := by rw [← Nat.pow_succ']; congr 1; omega
    by_cases hneg : v < 0
    · have ha : addBits v = (v - 1 + 2 ^ catOf v).toNat := by simp only [addBits, hneg, if_true]
      simp only [Spec.extend]
      rw [ha, if_pos (by omega)]; omega
    · have ha : addBits v = v.toNat := by simp only [addBits, hneg, if_false]
      simp only [Spec.extend]
      rw [ha, if_neg (by omega)]; omega

end Jpeg
