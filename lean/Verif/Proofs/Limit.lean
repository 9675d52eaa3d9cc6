import Verif.Proofs.Merge
import Mathlib.Algebra.BigOperators.Intervals
import Mathlib.Algebra.Order.BigOperators.Group.Finset
import Mathlib.Algebra.BigOperators.Ring.Finset
/-! Figures K.2 and K.3 in `new_optimized`: counting the code sizes and limiting them to 16 bits. -/
namespace Jpeg

/-- Weighted sum of the 33 counters. -/
def wsum (w : Nat → Nat) (bits : List Nat) : Nat := ∑ k ∈ Finset.range 33, bits.getD k 0 * w k

theorem wsum_set (w : Nat → Nat) {bits : List Nat} (hl : bits.length = 33) {i : Nat} (a : Nat) (hi : i < 33) :
    wsum w (bits.set i a) + bits.getD i 0 * w i = wsum w bits + a * w i := by
  have hm : i ∈ Finset.range 33 := Finset.mem_range.mpr hi
  unfold wsum
  rw [← Finset.add_sum_erase _ _ hm, ← Finset.add_sum_erase (Finset.range 33) (fun k => bits.getD k 0 * w k) hm]
  have : ∑ k ∈ (Finset.range 33).erase i, (bits.set i a).getD k 0 * w k = ∑ k ∈ (Finset.range 33).erase i, bits.getD k 0 * w k := by
    apply Finset.sum_congr rfl
    intro k hk
    rw [getD_set _ _ _ _ _ (by omega), if_neg (Finset.ne_of_mem_erase hk)]
  rw [this, getD_set _ _ _ _ _ (by omega), if_pos rfl]
  omega

theorem wsum_ge (w : Nat → Nat) (bits : List Nat) {i : Nat} (hi : i < 33) : bits.getD i 0 * w i ≤ wsum w bits :=
  Finset.single_le_sum (f := fun k => bits.getD k 0 * w k) (fun _ _ => Nat.zero_le _) (Finset.mem_range.mpr hi)

theorem wsum_ge2 (w : Nat → Nat) (bits : List Nat) {i j : Nat} (hi : i < 33) (hj : j < 33) (hne : i ≠ j) :
    bits.getD i 0 * w i + bits.getD j 0 * w j ≤ wsum w bits := by
  unfold wsum
  rw [← Finset.add_sum_erase _ _ (Finset.mem_range.mpr hi)]
  have : bits.getD j 0 * w j ≤ ∑ k ∈ (Finset.range 33).erase i, bits.getD k 0 * w k :=
    Finset.single_le_sum (f := fun k => bits.getD k 0 * w k) (fun _ _ => Nat.zero_le _) (Finset.mem_erase.mpr ⟨Ne.symm hne, Finset.mem_range.mpr hj⟩)
  omega

theorem countBits_ok (cs : List Nat) (bits : List Nat) (hl : bits.length = 33) (h32 : ∀ c ∈ cs, c ≤ 32)
    (hb : wsum (fun _ => 1) bits + (cs.filter (0 < ·)).length ≤ 255) :
    ∃ bits', (∀ pf, countBits pf cs bits = .ok bits') ∧ bits'.length = 33 ∧ bits'.getD 0 0 = bits.getD 0 0 ∧
      ∀ w, wsum w bits' = wsum w bits + ((cs.filter (0 < ·)).map w).sum := by
  induction cs generalizing bits with
  | nil => exact ⟨bits, fun _ => rfl, hl, rfl, by simp⟩
  | cons c cs ih =>
    by_cases hc : 0 < c
    · have hc32 := h32 c (by simp)
      rw [List.filter_cons_of_pos (by simpa using hc), List.length_cons] at hb
      have hge := wsum_ge (fun _ => 1) bits (i := c) (by omega)
      have hset := fun w => wsum_set w hl (i := c) (bits.getD c 0 + 1) (by omega)
      obtain ⟨b', r1, r2, r3, r4⟩ := ih (bits.set c (bits.getD c 0 + 1)) (by simpa using hl) (fun x hx => h32 x (by simp [hx]))
        (by have := hset (fun _ => 1); omega)
      refine ⟨b', ?_, r2, ?_, ?_⟩
      · intro pf
        unfold countBits
        rw [if_pos hc, idx_eq_getD 0 (by omega)]
        simp only [ok_bind]
        rw [ckU8_ok (by omega) (by omega)]
        simp only [ok_bind]
        have e : ((bits.getD c 0 : Int) + 1).toNat = bits.getD c 0 + 1 := by omega
        rw [e, setIdx_ok (by omega)]
        simp only [ok_bind]
        exact r1 pf
      · rw [r3, getD_set _ _ _ _ _ (by omega), if_neg (by omega)]
      · intro w
        rw [r4, List.filter_cons_of_pos (by simpa using hc), List.map_cons, List.sum_cons]
        have := hset w
        have e : (bits.getD c 0 + 1) * w c = bits.getD c 0 * w c + w c := by ring
        omega
    · have hz : c = 0 := by omega
      subst hz
      rw [List.filter_cons_of_neg (by simp)] at hb ⊢
      obtain ⟨b', r1, r2⟩ := ih bits hl (fun x hx => h32 x (by simp [hx])) hb
      exact ⟨b', fun pf => by unfold countBits; rw [if_neg (by omega)]; exact r1 pf, r2⟩

/-- Weight of a code of length `k` in units of `2^-32`. -/
def wt (k : Nat) : Nat := 2 ^ (32 - k)

/-- State of the limiting loop with all codes of length at most `m`; `K` is the Kraft sum in units of `2^-32`. -/
structure LInvK (K S m : Nat) (bits : List Nat) : Prop where
  len : bits.length = 33
  zero : bits.getD 0 0 = 0
  sum : wsum (fun _ => 1) bits = S
  kraft : wsum wt bits = K
  above : ∀ k, m < k → bits.getD k 0 = 0

/-- The codes form a full tree. -/
abbrev LInv := LInvK (2 ^ 32)

theorem LInvK.le {K S m : Nat} {bits : List Nat} (h : LInvK K S m bits) (k : Nat) : bits.getD k 0 ≤ S := by
  by_cases hk : k < 33
  · have := wsum_ge (fun _ => 1) bits hk
    have := h.sum
    omega
  · rw [List.getD_eq_getElem?_getD, List.getElem?_eq_none (by have := h.len; omega)]
    exact Nat.zero_le _

theorem LInvK.split {K S m : Nat} {bits : List Nat} (h : LInvK K S m bits) (hm : m ≤ 32) :
    ∑ k ∈ Finset.range m, bits.getD k 0 * wt k + bits.getD m 0 * wt m = K := by
  rw [← h.kraft]
  unfold wsum
  rw [← Finset.sum_range_succ (fun k => bits.getD k 0 * wt k)]
  apply Finset.sum_subset (by intro k; simp; omega)
  intro k _ hk
  rw [h.above k (by simp at hk; omega), Nat.zero_mul]

theorem LInvK.even {K S m : Nat} {bits : List Nat} (hK : 2 ^ 32 ∣ K) (h : LInvK K S m bits) (hm : m ≤ 32) (h1 : 1 ≤ m) : 2 ∣ bits.getD m 0 := by
  have hs := h.split hm
  have d1 : 2 ^ (33 - m) ∣ ∑ k ∈ Finset.range m, bits.getD k 0 * wt k := by
    apply Finset.dvd_sum
    intro k hk
    have := Finset.mem_range.mp hk
    exact Dvd.dvd.mul_left (Nat.pow_dvd_pow 2 (by omega)) _
  have d2 : 2 ^ (33 - m) ∣ K := dvd_trans (Nat.pow_dvd_pow 2 (by omega)) hK
  have d3 : 2 ^ (33 - m) ∣ bits.getD m 0 * wt m := by
    have := Nat.dvd_sub (hs ▸ d2) d1
    rwa [Nat.add_sub_cancel_left] at this
  have e : 2 ^ (33 - m) = 2 * wt m := by
    unfold wt
    rw [← Nat.pow_succ']
    congr 1
    omega
  rw [e] at d3
  exact Nat.dvd_of_mul_dvd_mul_right (by unfold wt; positivity) d3

theorem LInvK.exists_j {K S m : Nat} {bits : List Nat} (hK : 2 ^ 32 ∣ K) (h : LInvK K S m bits) (hm : m ≤ 32) (h16 : 17 ≤ m) (hS : S ≤ 255) (hb : bits.getD m 0 ≠ 0) :
    ∃ j, 1 ≤ j ∧ j ≤ m - 2 ∧ bits.getD j 0 ≠ 0 ∧ ∀ k, j < k → k ≤ m - 2 → bits.getD k 0 = 0 := by
  classical
  have hex : ∃ j, j ≤ m - 2 ∧ bits.getD j 0 ≠ 0 := by
    by_contra hno
    push Not at hno
    have hs := h.split hm
    have hK32 : 2 ^ 32 ≤ K := by
      apply Nat.le_of_dvd ?_ hK
      have : 0 < bits.getD m 0 * wt m := Nat.mul_pos (by omega) (by unfold wt; positivity)
      omega
    obtain ⟨m', rfl⟩ : ∃ m', m = m' + 1 := ⟨m - 1, by omega⟩
    rw [Finset.sum_range_succ] at hs
    have hz : ∑ k ∈ Finset.range m', bits.getD k 0 * wt k = 0 := by
      apply Finset.sum_eq_zero
      intro k hk
      rw [hno k (by have := Finset.mem_range.mp hk; omega), Nat.zero_mul]
    rw [hz, Nat.zero_add] at hs
    have hb1 := h.le m'
    have hb2 := h.le (m' + 1)
    have hw1 : wt m' ≤ 2 ^ 16 := Nat.pow_le_pow_right (by omega) (by omega)
    have hw2 : wt (m' + 1) ≤ 2 ^ 16 := Nat.pow_le_pow_right (by omega) (by omega)
    have a := Nat.mul_le_mul (le_trans hb1 hS) hw1
    have b := Nat.mul_le_mul (le_trans hb2 hS) hw2
    have : (2 : Nat) ^ 32 = 65536 * 65536 := by norm_num
    omega
  have hP : ∃ j, (j ≤ m - 2 ∧ bits.getD j 0 ≠ 0) := hex
  refine ⟨Nat.findGreatest (fun j => bits.getD j 0 ≠ 0) (m - 2), ?_, Nat.findGreatest_le _, ?_, ?_⟩
  · obtain ⟨j, hj, hb⟩ := hex
    have : j ≤ Nat.findGreatest (fun j => bits.getD j 0 ≠ 0) (m - 2) := Nat.le_findGreatest hj hb
    have : j ≠ 0 := by rintro rfl; exact hb h.zero
    omega
  · obtain ⟨j, hj, hb⟩ := hex
    exact Nat.findGreatest_spec (P := fun j => bits.getD j 0 ≠ 0) hj hb
  · intro k hk hkm
    have := Nat.findGreatest_is_greatest hk hkm
    simpa using this

theorem findJ_ok {pf : Platform} (hpf : pf.Valid) {bits : List Nat} (hl : bits.length = 33) {j : Nat} (hj : bits.getD j 0 ≠ 0) (d fuel : Nat)
    (hz : ∀ k, j < k → k ≤ j + d → bits.getD k 0 = 0) (hd : j + d < 33) (hf : d < fuel) : findJ pf bits fuel (j + d) = .ok j := by
  induction d generalizing fuel with
  | zero =>
    obtain ⟨fuel, rfl⟩ : ∃ m, fuel = m + 1 := ⟨fuel - 1, by omega⟩
    unfold findJ
    rw [idx_eq_getD 0 (by omega)]
    simp only [ok_bind]
    rw [if_neg (show ¬ bits.getD (j + 0) 0 = 0 from hj)]
    rfl
  | succ d ih =>
    obtain ⟨fuel, rfl⟩ : ∃ m, fuel = m + 1 := ⟨fuel - 1, by omega⟩
    unfold findJ
    rw [idx_eq_getD 0 (by omega)]
    simp only [ok_bind]
    rw [if_pos (hz _ (by omega) (by omega)), ckUsize_ok hpf (by omega) (by omega)]
    simp only [ok_bind]
    have e : (((j + (d + 1) : Nat) : Int) - 1).toNat = j + d := by omega
    rw [e]
    exact ih fuel (fun k hk hk' => hz k hk (by omega)) (by omega) (by omega)

/-- One round of the inner loop. -/
def limitStep (i j : Nat) (bits : List Nat) : List Nat :=
  let b1 := bits.set i (bits.getD i 0 - 2)
  let b2 := b1.set (i - 1) (b1.getD (i - 1) 0 + 1)
  let b3 := b2.set (j + 1) (b2.getD (j + 1) 0 + 2)
  b3.set j (b3.getD j 0 - 1)

theorem limitStep_inv {K S m : Nat} {bits : List Nat} (h : LInvK K S m bits) (hm : m ≤ 32) (h16 : 17 ≤ m) {j : Nat} (hj1 : 1 ≤ j) (hjm : j ≤ m - 2)
    (hb : 2 ≤ bits.getD m 0) (hj : bits.getD j 0 ≠ 0) : LInvK K S m (limitStep m j bits) ∧ (limitStep m j bits).getD m 0 = bits.getD m 0 - 2 ∧
      bits.getD (m - 1) 0 + 1 ≤ (limitStep m j bits).getD (m - 1) 0 := by
  have hl := h.len
  obtain ⟨b1, e1⟩ : ∃ b, b = bits.set m (bits.getD m 0 - 2) := ⟨_, rfl⟩
  obtain ⟨b2, e2⟩ : ∃ b, b = b1.set (m - 1) (b1.getD (m - 1) 0 + 1) := ⟨_, rfl⟩
  obtain ⟨b3, e3⟩ : ∃ b, b = b2.set (j + 1) (b2.getD (j + 1) 0 + 2) := ⟨_, rfl⟩
  obtain ⟨b4, e4⟩ : ∃ b, b = b3.set j (b3.getD j 0 - 1) := ⟨_, rfl⟩
  have hl1 : b1.length = 33 := by rw [e1]; simpa using hl
  have hl2 : b2.length = 33 := by rw [e2]; simpa using hl1
  have hl3 : b3.length = 33 := by rw [e3]; simpa using hl2
  have hl4 : b4.length = 33 := by rw [e4]; simpa using hl3
  have hstep : limitStep m j bits = b4 := by rw [e4, e3, e2, e1]; rfl
  have g1 : ∀ k, b1.getD k 0 = if k = m then bits.getD m 0 - 2 else bits.getD k 0 := fun k => by rw [e1, getD_set _ _ _ _ _ (by omega)]
  have g2 : ∀ k, b2.getD k 0 = if k = m - 1 then b1.getD (m - 1) 0 + 1 else b1.getD k 0 := fun k => by rw [e2, getD_set _ _ _ _ _ (by omega)]
  have g3 : ∀ k, b3.getD k 0 = if k = j + 1 then b2.getD (j + 1) 0 + 2 else b2.getD k 0 := fun k => by rw [e3, getD_set _ _ _ _ _ (by omega)]
  have g4 : ∀ k, b4.getD k 0 = if k = j then b3.getD j 0 - 1 else b3.getD k 0 := fun k => by rw [e4, getD_set _ _ _ _ _ (by omega)]
  have hbj : b3.getD j 0 = bits.getD j 0 := by
    rw [g3, if_neg (by omega), g2, if_neg (by omega), g1, if_neg (by omega)]
  have hw : ∀ w, wsum w b4 + 2 * w m + w j = wsum w bits + w (m - 1) + 2 * w (j + 1) := by
    intro w
    have a1 := wsum_set w hl (i := m) (bits.getD m 0 - 2) (by omega)
    have a2 := wsum_set w hl1 (i := m - 1) (b1.getD (m - 1) 0 + 1) (by omega)
    have a3 := wsum_set w hl2 (i := j + 1) (b2.getD (j + 1) 0 + 2) (by omega)
    have a4 := wsum_set w hl3 (i := j) (b3.getD j 0 - 1) (by omega)
    rw [← e1] at a1
    rw [← e2] at a2
    rw [← e3] at a3
    rw [← e4] at a4
    obtain ⟨x, hx⟩ : ∃ x, bits.getD m 0 = x + 2 := ⟨bits.getD m 0 - 2, by omega⟩
    obtain ⟨y, hy⟩ : ∃ y, b3.getD j 0 = y + 1 := ⟨b3.getD j 0 - 1, by omega⟩
    rw [hx, Nat.add_sub_cancel] at a1
    rw [hy, Nat.add_sub_cancel] at a4
    rw [Nat.add_mul] at a1 a2 a3 a4
    rw [Nat.one_mul] at a2 a4
    omega
  rw [hstep]
  refine ⟨⟨hl4, ?_, ?_, ?_, ?_⟩, ?_, ?_⟩
  · rw [g4, if_neg (by omega), g3, if_neg (by omega), g2, if_neg (by omega), g1, if_neg (by omega), h.zero]
  · have := hw (fun _ => 1)
    have := h.sum
    omega
  · have := hw wt
    have w1 : wt (m - 1) = 2 * wt m := by unfold wt; rw [← Nat.pow_succ']; congr 1; omega
    have w2 : wt j = 2 * wt (j + 1) := by unfold wt; rw [← Nat.pow_succ']; congr 1; omega
    have := h.kraft
    omega
  · intro k hk
    rw [g4, if_neg (by omega), g3, if_neg (by omega), g2, if_neg (by omega), g1, if_neg (by omega), h.above k hk]
  · rw [g4, if_neg (by omega), g3, if_neg (by omega), g2, if_neg (by omega), g1, if_pos rfl]
  · have e : b2.getD (m - 1) 0 = bits.getD (m - 1) 0 + 1 := by rw [g2, if_pos rfl, g1, if_neg (by omega)]
    rw [g4, if_neg (by omega), g3]
    split
    · rename_i hj'
      rw [← hj', e]; omega
    · rw [e]

theorem limitInner_ok {K S m : Nat} (hK : 2 ^ 32 ∣ K) (hm : m ≤ 32) (h16 : 17 ≤ m) (hS : S ≤ 255) (fuel : Nat) {bits : List Nat} (h : LInvK K S m bits) (hf : bits.getD m 0 < fuel) :
    ∃ bits', (∀ pf, pf.Valid → limitInner pf m fuel bits = .ok bits') ∧ LInvK K S (m - 1) bits' ∧
      (bits' = bits ∨ 1 ≤ bits'.getD (m - 1) 0) ∧ bits.getD (m - 1) 0 ≤ bits'.getD (m - 1) 0 := by
  induction fuel using Nat.strongRecOn generalizing bits with
  | ind fuel ih =>
    obtain ⟨fuel, rfl⟩ : ∃ m, fuel = m + 1 := ⟨fuel - 1, by omega⟩
    have hl := h.len
    by_cases hz : bits.getD m 0 = 0
    · refine ⟨bits, ?_, ⟨h.len, h.zero, h.sum, h.kraft, ?_⟩, Or.inl rfl, le_refl _⟩
      · intro pf _
        unfold limitInner
        rw [idx_eq_getD 0 (by omega)]
        simp only [ok_bind]
        rw [if_neg (by omega)]
      · intro k hk
        by_cases hkm : k = m
        · rw [hkm]; exact hz
        · exact h.above k (by omega)
    · have hev := LInvK.even hK h hm (by omega)
      have hb : 2 ≤ bits.getD m 0 := by omega
      obtain ⟨j, hj1, hjm, hj, hjz⟩ := LInvK.exists_j hK h hm h16 hS hz
      obtain ⟨hi, hd, hup⟩ := limitStep_inv h hm h16 hj1 hjm hb hj
      obtain ⟨b', r1, r2, -, r3⟩ := ih fuel (by omega) hi (by omega)
      refine ⟨b', ?_, r2, Or.inr (by omega), by omega⟩
      intro pf hpf
      have hle := h.le
      have hbm := hle m
      unfold limitInner
      rw [idx_eq_getD 0 (by omega)]
      simp only [ok_bind]
      rw [if_pos (by omega), ckUsize_ok hpf (by omega) (by omega)]
      simp only [ok_bind]
      have e : ((m : Int) - 2).toNat = j + (m - 2 - j) := by omega
      rw [e, findJ_ok hpf hl hj (m - 2 - j) 33 (fun k hk hk' => hjz k hk (by omega)) (by omega) (by omega)]
      simp only [ok_bind]
      rw [ckU8_ok (by omega) (by omega)]
      simp only [ok_bind]
      have e : ((bits.getD m 0 : Int) - 2).toNat = bits.getD m 0 - 2 := by omega
      rw [e, setIdx_ok (by omega)]
      simp only [ok_bind]
      obtain ⟨b1, e1⟩ : ∃ b, b = bits.set m (bits.getD m 0 - 2) := ⟨_, rfl⟩
      obtain ⟨b2, e2⟩ : ∃ b, b = b1.set (m - 1) (b1.getD (m - 1) 0 + 1) := ⟨_, rfl⟩
      obtain ⟨b3, e3⟩ : ∃ b, b = b2.set (j + 1) (b2.getD (j + 1) 0 + 2) := ⟨_, rfl⟩
      have hl1 : b1.length = 33 := by rw [e1]; simpa using hl
      have hl2 : b2.length = 33 := by rw [e2]; simpa using hl1
      have hl3 : b3.length = 33 := by rw [e3]; simpa using hl2
      have hstep : limitStep m j bits = b3.set j (b3.getD j 0 - 1) := by rw [e3, e2, e1]; rfl
      have s1 := wsum_set (fun _ => 1) hl (i := m) (bits.getD m 0 - 2) (by omega)
      have s2 := wsum_set (fun _ => 1) hl1 (i := m - 1) (b1.getD (m - 1) 0 + 1) (by omega)
      have s3 := wsum_set (fun _ => 1) hl2 (i := j + 1) (b2.getD (j + 1) 0 + 2) (by omega)
      rw [← e1] at s1
      rw [← e2] at s2
      rw [← e3] at s3
      have g1 : ∀ k, b1.getD k 0 = if k = m then bits.getD m 0 - 2 else bits.getD k 0 := fun k => by rw [e1, getD_set _ _ _ _ _ (by omega)]
      have g2 : ∀ k, b2.getD k 0 = if k = m - 1 then b1.getD (m - 1) 0 + 1 else b1.getD k 0 := fun k => by rw [e2, getD_set _ _ _ _ _ (by omega)]
      have g3 : ∀ k, b3.getD k 0 = if k = j + 1 then b2.getD (j + 1) 0 + 2 else b2.getD k 0 := fun k => by rw [e3, getD_set _ _ _ _ _ (by omega)]
      have hbj : b3.getD j 0 = bits.getD j 0 := by
        rw [g3, if_neg (by omega), g2, if_neg (by omega), g1, if_neg (by omega)]
      have u2 := wsum_ge (fun _ => 1) b1 (i := m - 1) (by omega)
      have u3 := wsum_ge2 (fun _ => 1) b2 (i := j + 1) (j := j) (by omega) (by omega) (by omega)
      have hb2j : b2.getD j 0 = bits.getD j 0 := by
        rw [g2, if_neg (by omega), g1, if_neg (by omega)]
      have hsum := h.sum
      rw [← e1, idx_eq_getD 0 (by omega)]
      simp only [ok_bind]
      rw [ckU8_ok (by omega) (by omega)]
      simp only [ok_bind]
      have e : ((b1.getD (m - 1) 0 : Int) + 1).toNat = b1.getD (m - 1) 0 + 1 := by omega
      rw [e, setIdx_ok (by omega)]
      simp only [ok_bind]
      rw [← e2, idx_eq_getD 0 (by omega)]
      simp only [ok_bind]
      rw [ckU8_ok (by omega) (by omega)]
      simp only [ok_bind]
      have e : ((b2.getD (j + 1) 0 : Int) + 2).toNat = b2.getD (j + 1) 0 + 2 := by omega
      rw [e, setIdx_ok (by omega)]
      simp only [ok_bind]
      rw [← e3, idx_eq_getD 0 (by omega)]
      simp only [ok_bind]
      have := hle j
      rw [ckU8_ok (by omega) (by omega)]
      simp only [ok_bind]
      have e : ((b3.getD j 0 : Int) - 1).toNat = b3.getD j 0 - 1 := by omega
      rw [e, setIdx_ok (by omega)]
      simp only [ok_bind]
      rw [← hstep]
      exact r1 pf hpf

theorem limitLoopK_ok {K S : Nat} (hK : 2 ^ 32 ∣ K) (hS : S ≤ 255) (n : Nat) (hn : n ≤ 16) {bits : List Nat} (h : LInvK K S (n + 16) bits) :
    ∃ bits', (∀ pf, pf.Valid → limitLoop pf n bits = .ok bits') ∧ LInvK K S 16 bits' ∧ (bits' = bits ∨ bits'.getD 16 0 ≠ 0) := by
  induction n generalizing bits with
  | zero => exact ⟨bits, fun _ _ => rfl, by simpa using h, Or.inl rfl⟩
  | succ n ih =>
    have e : n + 1 + 16 = n + 17 := by omega
    rw [e] at h
    obtain ⟨b1, r1, r2, r3, -⟩ := limitInner_ok (m := n + 17) hK (by omega) (by omega) hS 257 h (by have := h.le (n + 17); omega)
    obtain ⟨b2, q1, q2, q3⟩ := ih (by omega) (bits := b1) r2
    refine ⟨b2, ?_, q2, ?_⟩
    swap
    · rcases q3 with q3 | q3
      · subst q3
        rcases r3 with r3 | r3
        · exact Or.inl r3
        · right
          by_cases hn0 : n = 0
          · subst hn0
            exact Nat.one_le_iff_ne_zero.mp r3
          · have := q2.above (n + 17 - 1) (by omega)
            omega
      · exact Or.inr q3
    intro pf hpf
    unfold limitLoop
    rw [r1 pf hpf]
    simp only [ok_bind]
    exact q1 pf hpf

theorem limitLoop_ok {S : Nat} (hS : S ≤ 255) (n : Nat) (hn : n ≤ 16) {bits : List Nat} (h : LInv S (n + 16) bits) :
    ∃ bits', (∀ pf, pf.Valid → limitLoop pf n bits = .ok bits') ∧ LInv S 16 bits' ∧ (bits' = bits ∨ bits'.getD 16 0 ≠ 0) :=
  limitLoopK_ok (dvd_refl _) hS n hn h

/-- Without long codes there is nothing to do. -/
theorem limitLoop_id (pf : Platform) {bits : List Nat} (hl : bits.length = 33) (h : ∀ k, 16 < k → bits.getD k 0 = 0) (n : Nat) (hn : n ≤ 16) :
    limitLoop pf n bits = .ok bits := by
  induction n with
  | zero => rfl
  | succ n ih =>
    unfold limitLoop limitInner
    rw [idx_eq_getD 0 (by omega), h (n + 17) (by omega)]
    simp only [ok_bind, gt_iff_lt, lt_irrefl, if_false]
    exact ih (by omega)

theorem dropLast_ok {bits : List Nat} (hl : bits.length = 33) (h0 : bits.getD 0 0 = 0) (hle : ∀ k, bits.getD k 0 ≤ 255) (i : Nat) (hi : i ≤ 16) (fuel : Nat) (hf : i < fuel)
    (hex : ∃ k, k ≤ i ∧ bits.getD k 0 ≠ 0) :
    ∃ k, 1 ≤ k ∧ k ≤ i ∧ bits.getD k 0 ≠ 0 ∧ (∀ k', k < k' → k' ≤ i → bits.getD k' 0 = 0) ∧
      ∀ pf, pf.Valid → dropLast pf bits fuel i = .ok (bits.set k (bits.getD k 0 - 1)) := by
  induction i generalizing fuel with
  | zero =>
    obtain ⟨k, hk, hb⟩ := hex
    have : k = 0 := by omega
    subst this
    exact absurd h0 hb
  | succ i ih =>
    obtain ⟨fuel, rfl⟩ : ∃ m, fuel = m + 1 := ⟨fuel - 1, by omega⟩
    by_cases hz : bits.getD (i + 1) 0 = 0
    · obtain ⟨k, hk, hb⟩ := hex
      have hne : k ≠ i + 1 := by rintro rfl; exact hb hz
      obtain ⟨q, q1, q2, q3, q4, q5⟩ := ih (by omega) fuel (by omega) ⟨k, by omega, hb⟩
      refine ⟨q, q1, by omega, q3, ?_, ?_⟩
      · intro k' h1 h2
        by_cases e : k' = i + 1
        · rw [e]; exact hz
        · exact q4 k' h1 (by omega)
      · intro pf hpf
        unfold dropLast
        rw [idx_eq_getD 0 (by omega)]
        simp only [ok_bind]
        rw [if_pos hz, decide_eq_true (by omega), debugAssert_true]
        simp only [ok_bind]
        rw [ckUsize_ok hpf (by omega) (by omega)]
        simp only [ok_bind]
        have e : (((i + 1 : Nat) : Int) - 1).toNat = i := by omega
        rw [e]
        exact q5 pf hpf
    · refine ⟨i + 1, by omega, le_refl _, hz, by intro k' h1 h2; omega, ?_⟩
      intro pf hpf
      have := hle (i + 1)
      unfold dropLast
      rw [idx_eq_getD 0 (by omega)]
      simp only [ok_bind]
      rw [if_neg hz, ckU8_ok (by omega) (by omega)]
      simp only [ok_bind]
      have e : ((bits.getD (i + 1) 0 : Int) - 1).toNat = bits.getD (i + 1) 0 - 1 := by omega
      rw [e, setIdx_ok (by omega)]

end Jpeg
