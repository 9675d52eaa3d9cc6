import Verif.Proofs.Huffman
import Verif.Proofs.Reduce
import Mathlib.Data.Nat.Fib.Basic
import Mathlib.Algebra.BigOperators.Group.List.Basic
import Mathlib.Algebra.Order.Field.Rat
import Mathlib.Tactic.Ring
import Mathlib.Tactic.Linarith
/-! The merge loop of `new_optimized` (Figure K.1). -/
namespace Jpeg

theorem findMin_spec (skip : Option Nat) (fs : List Nat) (i : Nat) (best : Nat × Option Nat) :
    (findMin skip fs i best = best ∧ ∀ k, k < fs.length → 0 < fs.getD k 0 → some (i + k) ≠ skip → best.1 < fs.getD k 0) ∨
    (∃ k, k < fs.length ∧ findMin skip fs i best = (fs.getD k 0, some (i + k)) ∧ 0 < fs.getD k 0 ∧ fs.getD k 0 ≤ best.1 ∧ some (i + k) ≠ skip ∧
      ∀ k', k' < fs.length → 0 < fs.getD k' 0 → some (i + k') ≠ skip → fs.getD k 0 ≤ fs.getD k' 0) := by
  induction fs generalizing i best with
  | nil => left; exact ⟨rfl, by intro k hk; simp at hk⟩
  | cons f fs ih =>
    unfold findMin
    split
    · rename_i hc
      rcases ih (i + 1) (f, some i) with ⟨h1, h2⟩ | ⟨k, hk, h1, h2, h3, h4, h5⟩
      · right
        refine ⟨0, by simp, ?_, by simpa using hc.1, by simpa using hc.2.1, by simpa using hc.2.2, ?_⟩
        · rw [h1]; rfl
        · intro k' hk' hp hs
          cases k' with
          | zero => exact le_refl _
          | succ k' =>
            simp only [List.length_cons, Nat.add_lt_add_iff_right] at hk'
            have := h2 k' hk' (by simpa using hp) (by rw [Nat.add_assoc, Nat.add_comm 1]; exact hs)
            simp only [List.getD_cons_zero, List.getD_cons_succ]
            dsimp only at this
            omega
      · right
        refine ⟨k + 1, by simpa using hk, ?_, by simpa using h2, ?_, by rw [Nat.add_assoc, Nat.add_comm 1] at h4; exact h4, ?_⟩
        · rw [h1]
          simp only [List.getD_cons_succ, Prod.mk.injEq, Option.some.injEq, true_and]
          omega
        · dsimp only at h3
          simp only [List.getD_cons_succ]
          omega
        · intro k' hk' hp hs
          cases k' with
          | zero => simpa using h3
          | succ k' =>
            simp only [List.length_cons, Nat.add_lt_add_iff_right] at hk'
            simpa using h5 k' hk' (by simpa using hp) (by rw [Nat.add_assoc, Nat.add_comm 1]; exact hs)
    · rename_i hc
      rcases ih (i + 1) best with ⟨h1, h2⟩ | ⟨k, hk, h1, h2, h3, h4, h5⟩
      · left
        refine ⟨h1, ?_⟩
        intro k hk hp hs
        cases k with
        | zero =>
          simp only [List.getD_cons_zero, Nat.add_zero] at hp hs ⊢
          by_contra hle
          exact hc ⟨hp, by omega, hs⟩
        | succ k =>
          simp only [List.length_cons, Nat.add_lt_add_iff_right] at hk
          simpa using h2 k hk (by simpa using hp) (by rw [Nat.add_assoc, Nat.add_comm 1]; exact hs)
      · right
        refine ⟨k + 1, by simpa using hk, ?_, by simpa using h2, by simpa using h3, by rw [Nat.add_assoc, Nat.add_comm 1] at h4; exact h4, ?_⟩
        · rw [h1]
          simp only [List.getD_cons_succ, Prod.mk.injEq, Option.some.injEq, true_and]
          omega
        · intro k' hk' hp hs
          cases k' with
          | zero =>
            simp only [List.getD_cons_zero, List.getD_cons_succ, Nat.add_zero] at hp hs ⊢
            have : ¬ f ≤ best.1 := fun h => hc ⟨hp, h, hs⟩
            omega
          | succ k' =>
            simp only [List.length_cons, Nat.add_lt_add_iff_right] at hk'
            simpa using h5 k' hk' (by simpa using hp) (by rw [Nat.add_assoc, Nat.add_comm 1]; exact hs)

theorem getD_set {α : Type} (l : List α) (i j : Nat) (a d : α) (h : i < l.length) : (l.set i a).getD j d = if j = i then a else l.getD j d := by
  simp only [List.getD_eq_getElem?_getD, List.getElem?_set]
  by_cases hij : i = j
  · subst hij; simp [h]
  · simp [hij, Ne.symm hij]

/-- The list `L` is the chain of links in `others` from its first element. -/
def IsChain (others : List Int) : List Nat → Prop
  | [] => False
  | [v] => v < 257 ∧ others.getD v 0 = -1
  | v :: w :: r => v < 257 ∧ others.getD v 0 = (w : Int) ∧ IsChain others (w :: r)

theorem IsChain.ne_nil {others : List Int} {L : List Nat} (h : IsChain others L) : L ≠ [] := by
  rintro rfl; exact h

theorem IsChain.lt {others : List Int} {L : List Nat} (h : IsChain others L) : ∀ j ∈ L, j < 257 := by
  induction L with
  | nil => exact h.elim
  | cons v r ih =>
    cases r with
    | nil => intro j hj; simp only [List.mem_singleton] at hj; subst hj; exact h.1
    | cons w r =>
      intro j hj
      rcases List.mem_cons.mp hj with rfl | hj
      · exact h.1
      · exact ih h.2.2 j hj

/-- The last element. -/
theorem IsChain.getLast {others : List Int} {L : List Nat} (h : IsChain others L) : others.getD (L.getLast h.ne_nil) 0 = -1 := by
  induction L with
  | nil => exact h.elim
  | cons v r ih =>
    cases r with
    | nil => exact h.2
    | cons w r => rw [List.getLast_cons (by simp)]; exact ih h.2.2

theorem bumpChain_ok {others : List Int} (hlo : others.length = 257) (L : List Nat) (hc : IsChain others L) (hn : L.Nodup) (fuel : Nat)
    (hf : L.length ≤ fuel) (cs : List Nat) (hlc : cs.length = 257) (v : Nat) (hv : L.head? = some v) :
    ∃ cs', bumpChain others fuel v cs = .ok (L.getLast hc.ne_nil, cs') ∧ cs'.length = 257 ∧
      ∀ j, cs'.getD j 0 = cs.getD j 0 + if j ∈ L then 1 else 0 := by
  induction L generalizing fuel cs v with
  | nil => exact hc.elim
  | cons x r ih =>
    cases hv
    obtain ⟨fuel, rfl⟩ : ∃ m, fuel = m + 1 := ⟨fuel - 1, by simp at hf; omega⟩
    have hx : x < 257 := hc.lt x (by simp)
    unfold bumpChain
    rw [idx_eq_getD 0 (by omega)]
    simp only [ok_bind]
    rw [setIdx_ok (by omega)]
    simp only [ok_bind]
    rw [idx_eq_getD 0 (by omega)]
    simp only [ok_bind]
    cases r with
    | nil =>
      rw [if_neg (by rw [hc.2]; omega)]
      refine ⟨_, rfl, by simpa using hlc, ?_⟩
      intro j
      rw [getD_set _ _ _ _ _ (by omega)]
      by_cases hj : j = x <;> simp [hj]
    | cons w r =>
      rw [if_pos (by rw [hc.2.1]; omega), hc.2.1, Int.toNat_natCast]
      obtain ⟨cs', h1, h2, h3⟩ := ih hc.2.2 (List.nodup_cons.mp hn).2 fuel (by simp only [List.length_cons] at hf ⊢; omega)
        (cs.set x (cs.getD x 0 + 1)) (by simpa using hlc) w rfl
      refine ⟨cs', ?_, h2, ?_⟩
      · rw [h1]
        congr 2
      · intro j
        rw [h3, getD_set _ _ _ _ _ (by omega)]
        have hnot : x ∉ w :: r := (List.nodup_cons.mp hn).1
        by_cases hj : j = x
        · subst hj
          simp [hnot]
        · simp [hj]

theorem IsChain.set_other {others : List Int} (hlo : others.length = 257) {L : List Nat} (h : IsChain others L) {i : Nat} (hi : i < 257) (hni : i ∉ L) (x : Int) :
    IsChain (others.set i x) L := by
  induction L with
  | nil => exact h.elim
  | cons v r ih =>
    have hv : v ≠ i := by rintro rfl; simp at hni
    have hg : (others.set i x).getD v 0 = others.getD v 0 := by rw [getD_set _ _ _ _ _ (by omega), if_neg hv]
    cases r with
    | nil => exact ⟨h.1, by rw [hg]; exact h.2⟩
    | cons w r => exact ⟨h.1, by rw [hg]; exact h.2.1, ih h.2.2 (by intro hm; exact hni (by simp [List.mem_cons.mp hm]))⟩

theorem IsChain.append {others : List Int} (hlo : others.length = 257) {L M : List Nat} (h : IsChain others L) (hM : IsChain others M) (hn : L.Nodup)
    (hd : ∀ j ∈ L, j ∉ M) {v : Nat} (hv : M.head? = some v) : IsChain (others.set (L.getLast h.ne_nil) (v : Int)) (L ++ M) := by
  have hlast : L.getLast h.ne_nil ∈ L := List.getLast_mem _
  have hM' : IsChain (others.set (L.getLast h.ne_nil) (v : Int)) M := hM.set_other hlo (h.lt _ hlast) (hd _ hlast) _
  induction L with
  | nil => exact h.elim
  | cons x r ih =>
    cases r with
    | nil =>
      obtain ⟨m, ms, rfl⟩ : ∃ m ms, M = m :: ms := by cases M with
        | nil => exact hM.elim
        | cons m ms => exact ⟨m, ms, rfl⟩
      cases hv
      refine ⟨h.1, ?_, hM'⟩
      rw [getD_set _ _ _ _ _ (by have := h.1; simpa using by omega)]
      simp
    | cons w r =>
      have hlast' : (x :: w :: r).getLast h.ne_nil = (w :: r).getLast h.2.2.ne_nil := List.getLast_cons (by simp)
      rw [hlast'] at hM' ⊢
      have hlt : (w :: r).getLast h.2.2.ne_nil < 257 := h.2.2.lt _ (List.getLast_mem _)
      have hx : x ≠ (w :: r).getLast h.2.2.ne_nil := by
        intro he
        exact (List.nodup_cons.mp hn).1 (he ▸ List.getLast_mem _)
      refine ⟨h.1, ?_, ih h.2.2 (List.nodup_cons.mp hn).2 (fun j hj => hd j (by simp [List.mem_cons.mp hj])) (List.getLast_mem _) hM'⟩
      rw [getD_set _ _ _ _ _ (by omega), if_neg hx]
      exact h.2.1

/-- State of the merge loop: the symbols with non-zero frequency are roots of trees; `L v` are the leaves of the tree of root `v`. -/
structure MInv (f0 freq : List Nat) (others : List Int) (cs : List Nat) (L : Nat → List Nat) : Prop where
  lf : freq.length = 257
  lo : others.length = 257
  lc : cs.length = 257
  sum : freq.sum = f0.sum
  chain : ∀ v, freq.getD v 0 ≠ 0 → IsChain others (L v) ∧ (L v).head? = some v
  nodup : ∀ v, freq.getD v 0 ≠ 0 → (L v).Nodup
  disj : ∀ v u, freq.getD v 0 ≠ 0 → freq.getD u 0 ≠ 0 → v ≠ u → ∀ j ∈ L v, j ∉ L u
  used : ∀ v, freq.getD v 0 ≠ 0 → ∀ j ∈ L v, f0.getD j 0 ≠ 0
  cover : ∀ j, f0.getD j 0 ≠ 0 → ∃ v, freq.getD v 0 ≠ 0 ∧ j ∈ L v
  unused : ∀ j, f0.getD j 0 = 0 → cs.getD j 0 = 0
  kraft : ∀ v, freq.getD v 0 ≠ 0 → ((L v).map fun j => (1 / 2 : ℚ) ^ cs.getD j 0).sum = 1
  fib1 : ∀ v, freq.getD v 0 ≠ 0 → ∀ j ∈ L v, Nat.fib (cs.getD j 0 + 2) ≤ freq.getD v 0
  fib2 : ∀ v u, freq.getD v 0 ≠ 0 → freq.getD u 0 ≠ 0 → v ≠ u → ∀ j ∈ L v, Nat.fib (cs.getD j 0 + 1) ≤ freq.getD u 0
  depth : ∀ v, freq.getD v 0 ≠ 0 → ∀ j ∈ L v, cs.getD j 0 < (L v).length

theorem lt_of_getD_ne {l : List Nat} {v : Nat} (h : l.getD v 0 ≠ 0) : v < l.length := by
  by_contra hv
  exact h (by simp [List.getD_eq_getElem?_getD, List.getElem?_eq_none (Nat.le_of_not_lt hv)])

theorem MInv.init {f0 : List Nat} (h : f0.length = 257) : MInv f0 f0 (List.replicate 257 (-1)) (List.replicate 257 0) fun v => [v] where
  lf := h
  lo := List.length_replicate
  lc := List.length_replicate
  sum := rfl
  chain := fun v hv => by
    have := lt_of_getD_ne hv
    refine ⟨⟨by omega, ?_⟩, rfl⟩
    rw [List.getD_eq_getElem?_getD, List.getElem?_replicate, if_pos (by omega)]
    rfl
  nodup := fun v _ => by simp
  disj := fun v u _ _ hvu j hj => by
    simp only [List.mem_singleton] at hj ⊢
    omega
  used := fun v hv j hj => by
    simp only [List.mem_singleton] at hj
    rwa [hj]
  cover := fun j hj => ⟨j, hj, by simp⟩
  unused := fun j _ => by
    rw [List.getD_eq_getElem?_getD, List.getElem?_replicate]
    split <;> rfl
  kraft := fun v _ => by
    have : (List.replicate 257 0).getD v 0 = 0 := by
      rw [List.getD_eq_getElem?_getD, List.getElem?_replicate]
      split <;> rfl
    rw [List.map_singleton, List.sum_singleton, this, pow_zero]
  fib1 := fun v hv j _ => by
    have : (List.replicate 257 0).getD j 0 = 0 := by
      rw [List.getD_eq_getElem?_getD, List.getElem?_replicate]
      split <;> rfl
    rw [this]
    exact Nat.one_le_iff_ne_zero.mpr hv
  fib2 := fun v u hv hu _ j _ => by
    have : (List.replicate 257 0).getD j 0 = 0 := by
      rw [List.getD_eq_getElem?_getD, List.getElem?_replicate]
      split <;> rfl
    rw [this]
    exact Nat.one_le_iff_ne_zero.mpr hu
  depth := fun v _ j _ => by
    have : (List.replicate 257 0).getD j 0 = 0 := by
      rw [List.getD_eq_getElem?_getD, List.getElem?_replicate]
      split <;> rfl
    rw [this]
    exact Nat.one_pos

theorem sum_set_nat (l : List Nat) (i a : Nat) (h : i < l.length) : (l.set i a).sum + l.getD i 0 = l.sum + a := by
  induction l generalizing i with
  | nil => simp at h
  | cons x l ih =>
    cases i with
    | zero => simp; omega
    | succ i =>
      have := ih i (by simpa using h)
      simp only [List.set_cons_succ, List.sum_cons, List.getD_cons_succ]
      omega

theorem map_sum_half {L : List Nat} {f g : Nat → ℚ} (h : ∀ j ∈ L, g j = f j * (1 / 2)) (hf : (L.map f).sum = 1) : (L.map g).sum = 1 / 2 := by
  have : ∀ l : List Nat, (∀ j ∈ l, g j = f j * (1 / 2)) → (l.map g).sum = (l.map f).sum * (1 / 2) := by
    intro l hl
    induction l with
    | nil => simp
    | cons a l ih =>
      rw [List.map_cons, List.sum_cons, List.map_cons, List.sum_cons, ih (fun j hj => hl j (by simp [hj])), hl a (by simp)]
      ring
  rw [this L h, hf]
  norm_num

theorem MInv.step {f0 freq : List Nat} {others : List Int} {cs : List Nat} {L : Nat → List Nat} (h : MInv f0 freq others cs L) {v1 v2 : Nat}
    (h1 : freq.getD v1 0 ≠ 0) (h2 : freq.getD v2 0 ≠ 0) (hne : v1 ≠ v2) (hm1 : ∀ u, freq.getD u 0 ≠ 0 → freq.getD v1 0 ≤ freq.getD u 0)
    (hm2 : ∀ u, freq.getD u 0 ≠ 0 → u ≠ v1 → freq.getD v2 0 ≤ freq.getD u 0) {cs' : List Nat} (hcl : cs'.length = 257)
    (hcs : ∀ j, cs'.getD j 0 = cs.getD j 0 + if j ∈ L v1 ++ L v2 then 1 else 0) :
    MInv f0 ((freq.set v1 (freq.getD v1 0 + freq.getD v2 0)).set v2 0)
      (others.set ((L v1).getLast (h.chain v1 h1).1.ne_nil) (v2 : Int)) cs' (fun v => if v = v1 then L v1 ++ L v2 else L v) := by
  have l1 : v1 < freq.length := lt_of_getD_ne h1
  have l2 : v2 < freq.length := lt_of_getD_ne h2
  have hg : ∀ v, ((freq.set v1 (freq.getD v1 0 + freq.getD v2 0)).set v2 0).getD v 0 =
      if v = v2 then 0 else if v = v1 then freq.getD v1 0 + freq.getD v2 0 else freq.getD v 0 := by
    intro v
    rw [getD_set _ _ _ _ _ (by simpa using l2), getD_set _ _ _ _ _ l1]
  -- roots of the new forest
  have hroot : ∀ v, ((freq.set v1 (freq.getD v1 0 + freq.getD v2 0)).set v2 0).getD v 0 ≠ 0 ↔ (v ≠ v2 ∧ freq.getD v 0 ≠ 0) := by
    intro v
    rw [hg]
    by_cases e2 : v = v2
    · simp [e2]
    · by_cases e1 : v = v1
      · subst e1; simp only [e2, if_false, if_true, ne_eq, not_false_eq_true, true_and]; omega
      · simp [e1, e2]
  have hlast : (L v1).getLast (h.chain v1 h1).1.ne_nil ∈ L v1 := List.getLast_mem _
  have hcsOut : ∀ v, v ≠ v1 → v ≠ v2 → freq.getD v 0 ≠ 0 → ∀ j ∈ L v, cs'.getD j 0 = cs.getD j 0 := by
    intro v e1 e2 hv j hj
    have n1 : j ∉ L v1 := h.disj v v1 hv h1 e1 j hj
    have n2 : j ∉ L v2 := h.disj v v2 hv h2 e2 j hj
    rw [hcs, if_neg (by simp [n1, n2])]
    rfl
  have hcsIn : ∀ j ∈ L v1 ++ L v2, cs'.getD j 0 = cs.getD j 0 + 1 := by
    intro j hj
    rw [hcs, if_pos hj]
  -- Fibonacci bounds of the merged tree
  have hfibIn : ∀ j ∈ L v1 ++ L v2, Nat.fib (cs.getD j 0 + 2) ≤ freq.getD v2 0 ∧ Nat.fib (cs.getD j 0 + 3) ≤ freq.getD v1 0 + freq.getD v2 0 := by
    intro j hj
    have h12 := hm1 v2 h2
    rcases List.mem_append.mp hj with hj | hj
    · have a := h.fib1 v1 h1 j hj
      have b := h.fib2 v1 v2 h1 h2 hne j hj
      have c : Nat.fib (cs.getD j 0 + 3) = Nat.fib (cs.getD j 0 + 1) + Nat.fib (cs.getD j 0 + 2) := Nat.fib_add_two
      omega
    · have a := h.fib1 v2 h2 j hj
      have b := h.fib2 v2 v1 h2 h1 (Ne.symm hne) j hj
      have c : Nat.fib (cs.getD j 0 + 3) = Nat.fib (cs.getD j 0 + 1) + Nat.fib (cs.getD j 0 + 2) := Nat.fib_add_two
      omega
  refine ⟨by simpa using h.lf, by simpa using h.lo, hcl, ?_, ?_, ?_, ?_, ?_, ?_, ?_, ?_, ?_, ?_, ?_⟩
  · have a := sum_set_nat freq v1 (freq.getD v1 0 + freq.getD v2 0) l1
    have b := sum_set_nat (freq.set v1 (freq.getD v1 0 + freq.getD v2 0)) v2 0 (by simpa using l2)
    rw [getD_set _ _ _ _ _ l1, if_neg (Ne.symm hne)] at b
    have := h.sum
    omega
  · intro v hv
    obtain ⟨e2, hv'⟩ := (hroot v).mp hv
    by_cases e1 : v = v1
    · subst e1
      simp only [if_true]
      refine ⟨(h.chain v h1).1.append h.lo (h.chain v2 h2).1 (h.nodup v h1) (h.disj v v2 h1 h2 hne) (h.chain v2 h2).2, ?_⟩
      rw [List.head?_append, (h.chain v h1).2]
      rfl
    · simp only [e1, if_false]
      exact ⟨(h.chain v hv').1.set_other h.lo ((h.chain v1 h1).1.lt _ hlast) (h.disj v1 v h1 hv' (Ne.symm e1) _ hlast) _, (h.chain v hv').2⟩
  · intro v hv
    obtain ⟨e2, hv'⟩ := (hroot v).mp hv
    beta_reduce
    split
    · exact List.Nodup.append (h.nodup v1 h1) (h.nodup v2 h2) (fun j hj hj' => h.disj v1 v2 h1 h2 hne j hj hj')
    · exact h.nodup v hv'
  · intro v u hv hu hvu j
    obtain ⟨e2, hv'⟩ := (hroot v).mp hv
    obtain ⟨e2', hu'⟩ := (hroot u).mp hu
    beta_reduce
    by_cases e1 : v = v1
    · subst e1
      rw [if_pos rfl, if_neg (Ne.symm hvu)]
      intro hj
      rcases List.mem_append.mp hj with hj | hj
      · exact h.disj v u h1 hu' hvu j hj
      · exact h.disj v2 u h2 hu' (Ne.symm e2') j hj
    · rw [if_neg e1]
      intro hj
      by_cases e1' : u = v1
      · subst e1'
        rw [if_pos rfl, List.mem_append, not_or]
        exact ⟨h.disj v u hv' h1 hvu j hj, h.disj v v2 hv' h2 e2 j hj⟩
      · rw [if_neg e1']
        exact h.disj v u hv' hu' hvu j hj
  · intro v hv j
    obtain ⟨e2, hv'⟩ := (hroot v).mp hv
    beta_reduce
    split
    · intro hj
      rcases List.mem_append.mp hj with hj | hj
      · exact h.used v1 h1 j hj
      · exact h.used v2 h2 j hj
    · exact h.used v hv' j
  · intro j hj
    obtain ⟨v, hv, hm⟩ := h.cover j hj
    by_cases e : v = v1 ∨ v = v2
    · refine ⟨v1, (hroot v1).mpr ⟨hne, h1⟩, ?_⟩
      beta_reduce
      rw [if_pos rfl, List.mem_append]
      rcases e with rfl | rfl
      · exact Or.inl hm
      · exact Or.inr hm
    · push Not at e
      exact ⟨v, (hroot v).mpr ⟨e.2, hv⟩, by beta_reduce; rw [if_neg e.1]; exact hm⟩
  · intro j hj
    have : j ∉ L v1 ++ L v2 := by
      intro hm
      rcases List.mem_append.mp hm with hm | hm
      · exact h.used v1 h1 j hm hj
      · exact h.used v2 h2 j hm hj
    rw [hcs, if_neg this, h.unused j hj]
  · intro v hv
    obtain ⟨e2, hv'⟩ := (hroot v).mp hv
    beta_reduce
    split
    · rw [List.map_append, List.sum_append]
      have a := map_sum_half (L := L v1) (f := fun j => (1 / 2 : ℚ) ^ cs.getD j 0) (g := fun j => (1 / 2 : ℚ) ^ cs'.getD j 0)
        (fun j hj => by rw [hcsIn j (by simp [hj]), pow_succ]) (h.kraft v1 h1)
      have b := map_sum_half (L := L v2) (f := fun j => (1 / 2 : ℚ) ^ cs.getD j 0) (g := fun j => (1 / 2 : ℚ) ^ cs'.getD j 0)
        (fun j hj => by rw [hcsIn j (by simp [hj]), pow_succ]) (h.kraft v2 h2)
      rw [a, b]
      norm_num
    · rename_i e1
      refine Eq.trans ?_ (h.kraft v hv')
      congr 1
      apply List.map_congr_left
      intro j hj
      rw [hcsOut v e1 e2 hv' j hj]
  · intro v hv j
    obtain ⟨e2, hv'⟩ := (hroot v).mp hv
    beta_reduce
    rw [hg, if_neg e2]
    split
    · intro hj
      rw [hcsIn j hj]
      exact (hfibIn j hj).2
    · rename_i e1
      intro hj
      rw [hcsOut v e1 e2 hv' j hj]
      exact h.fib1 v hv' j hj
  · intro v u hv hu hvu j
    obtain ⟨e2, hv'⟩ := (hroot v).mp hv
    obtain ⟨e2', hu'⟩ := (hroot u).mp hu
    beta_reduce
    rw [hg, if_neg e2']
    by_cases e1 : v = v1
    · rw [if_pos e1, if_neg (by omega)]
      intro hj
      rw [hcsIn j hj]
      exact le_trans (hfibIn j hj).1 (hm2 u hu' (by omega))
    · rw [if_neg e1]
      intro hj
      rw [hcsOut v e1 e2 hv' j hj]
      by_cases e1' : u = v1
      · rw [if_pos e1']
        have := h.fib2 v v1 hv' h1 (by omega) j hj
        omega
      · rw [if_neg e1']
        exact h.fib2 v u hv' hu' hvu j hj
  · intro v hv j
    obtain ⟨e2, hv'⟩ := (hroot v).mp hv
    beta_reduce
    split
    · intro hj
      rw [hcsIn j hj, List.length_append]
      have p1 := List.length_pos_of_ne_nil (h.chain v1 h1).1.ne_nil
      have p2 := List.length_pos_of_ne_nil (h.chain v2 h2).1.ne_nil
      rcases List.mem_append.mp hj with hj | hj
      · have := h.depth v1 h1 j hj; omega
      · have := h.depth v2 h2 j hj; omega
    · rename_i e1
      intro hj
      rw [hcsOut v e1 e2 hv' j hj]
      exact h.depth v hv' j hj

theorem getD_le_sum (l : List Nat) (v : Nat) : l.getD v 0 ≤ l.sum := by
  induction l generalizing v with
  | nil => simp
  | cons a l ih =>
    cases v with
    | zero => simp
    | succ v =>
      have := ih v
      simp only [List.getD_cons_succ, List.sum_cons]
      omega

/-- Number of non-zero entries. -/
def rootCount (l : List Nat) : Nat := l.countP fun f => f ≠ 0

theorem rootCount_set (l : List Nat) (i a : Nat) (h : i < l.length) :
    rootCount (l.set i a) + (if l.getD i 0 = 0 then 0 else 1) = rootCount l + if a = 0 then 0 else 1 := by
  induction l generalizing i with
  | nil => simp at h
  | cons x l ih =>
    cases i with
    | zero =>
      simp only [rootCount, List.set_cons_zero, List.getD_cons_zero, List.countP_cons]
      by_cases hx : x = 0 <;> by_cases ha : a = 0 <;> simp [hx, ha]
    | succ i =>
      have := ih i (by simpa using h)
      simp only [rootCount, List.set_cons_succ, List.getD_cons_succ, List.countP_cons] at this ⊢
      omega

theorem chain_length {L : List Nat} (hn : L.Nodup) (hlt : ∀ j ∈ L, j < 257) : L.length ≤ 257 := by
  have := (List.subperm_of_subset hn (l₂ := List.range 257) (fun j hj => List.mem_range.mpr (hlt j hj))).length_le
  simpa using this

theorem findMin_none {freq : List Nat} (hs : freq.sum < 4294967296) {skip : Option Nat} (h : (findMin skip freq 0 (4294967295, none)).2 = none) :
    ∀ v, freq.getD v 0 ≠ 0 → some v = skip := by
  intro v hv
  have hl := lt_of_getD_ne hv
  by_contra hne
  rcases findMin_spec skip freq 0 (4294967295, none) with ⟨_, h2⟩ | ⟨k, _, h1, _⟩
  · have := h2 v hl (by omega) (by rw [Nat.zero_add]; exact hne)
    have := getD_le_sum freq v
    dsimp only at *
    omega
  · rw [h1] at h; cases h

theorem findMin_some {freq : List Nat} {skip : Option Nat} {v1 : Nat} (h : (findMin skip freq 0 (4294967295, none)).2 = some v1) :
    freq.getD v1 0 ≠ 0 ∧ some v1 ≠ skip ∧ ∀ u, freq.getD u 0 ≠ 0 → some u ≠ skip → freq.getD v1 0 ≤ freq.getD u 0 := by
  rcases findMin_spec skip freq 0 (4294967295, none) with ⟨h1, _⟩ | ⟨k, hk, h1, h2, _, h4, h5⟩
  · rw [h1] at h; cases h
  · rw [h1, Nat.zero_add] at h
    cases h
    rw [Nat.zero_add] at h4
    refine ⟨by omega, h4, fun u hu hs => h5 u (lt_of_getD_ne hu) (by omega) (by rw [Nat.zero_add]; exact hs)⟩

/-- The roots of the forest. -/
def rootSet (freq : List Nat) : Finset Nat := (Finset.range 257).filter fun v => freq.getD v 0 ≠ 0

theorem mem_rootSet {freq : List Nat} (hl : freq.length = 257) {v : Nat} : v ∈ rootSet freq ↔ freq.getD v 0 ≠ 0 := by
  unfold rootSet
  rw [Finset.mem_filter, Finset.mem_range]
  exact ⟨fun h => h.2, fun h => ⟨by have := lt_of_getD_ne h; omega, h⟩⟩

/-- Adding `δ` to the lengths of the trees is as good as any other code for the roots. -/
def Best (freq : List Nat) (δ : Nat → Nat) : Prop :=
  ∀ l : Nat → Nat, ((rootSet freq).sum fun v => (1 / 2 : ℚ) ^ l v) ≤ 1 →
    ((rootSet freq).sum fun v => freq.getD v 0 * δ v) ≤ (rootSet freq).sum fun v => freq.getD v 0 * l v

theorem Best.step {freq : List Nat} (hl : freq.length = 257) {v1 v2 : Nat} (h1 : freq.getD v1 0 ≠ 0) (h2 : freq.getD v2 0 ≠ 0) (hne : v1 ≠ v2)
    (hm1 : ∀ u, freq.getD u 0 ≠ 0 → freq.getD v1 0 ≤ freq.getD u 0) (hm2 : ∀ u, freq.getD u 0 ≠ 0 → u ≠ v1 → freq.getD v2 0 ≤ freq.getD u 0)
    {δ : Nat → Nat} (h : Best ((freq.set v1 (freq.getD v1 0 + freq.getD v2 0)).set v2 0) δ) :
    Best freq (fun v => if v = v1 ∨ v = v2 then δ v1 + 1 else δ v) := by
  have l1 : v1 < freq.length := lt_of_getD_ne h1
  have l2 : v2 < freq.length := lt_of_getD_ne h2
  have hg : ∀ v, ((freq.set v1 (freq.getD v1 0 + freq.getD v2 0)).set v2 0).getD v 0 =
      if v = v2 then 0 else if v = v1 then freq.getD v1 0 + freq.getD v2 0 else freq.getD v 0 := by
    intro v
    rw [getD_set _ _ _ _ _ (by simpa using l2), getD_set _ _ _ _ _ l1]
  have hset : rootSet ((freq.set v1 (freq.getD v1 0 + freq.getD v2 0)).set v2 0) = (rootSet freq).erase v2 := by
    ext v
    rw [mem_rootSet (by simpa using hl), Finset.mem_erase, mem_rootSet hl, hg]
    by_cases e2 : v = v2
    · simp [e2]
    · by_cases e1 : v = v1
      · subst e1
        simp only [e2, if_false, if_true, ne_eq, not_false_eq_true, true_and]
        omega
      · simp [e1, e2]
  intro l hk
  have m1 := (mem_rootSet hl).mpr h1
  have m2 := (mem_rootSet hl).mpr h2
  obtain ⟨l', k1, k2⟩ := reduce (w := fun v => freq.getD v 0) m1 m2 hne (fun c hc => hm1 c ((mem_rootSet hl).mp hc))
    (fun c hc => hm2 c ((mem_rootSet hl).mp hc)) hk
  have hb := h l'
  rw [hset] at hb
  have hb := hb k1
  have hcost : ∀ g : Nat → Nat, (((rootSet freq).erase v2).sum fun v => ((freq.set v1 (freq.getD v1 0 + freq.getD v2 0)).set v2 0).getD v 0 * g v) =
      ((rootSet freq).erase v2).sum fun v => (if v = v1 then freq.getD v1 0 + freq.getD v2 0 else freq.getD v 0) * g v := by
    intro g
    refine Finset.sum_congr rfl fun v hv => ?_
    rw [hg, if_neg (Finset.mem_erase.mp hv).1]
  rw [hcost, hcost] at hb
  refine le_trans ?_ k2
  refine le_trans ?_ (Nat.add_le_add_right hb _)
  rw [← Finset.add_sum_erase _ _ m2, ← Finset.add_sum_erase _ _ (Finset.mem_erase.mpr ⟨hne, m1⟩),
    ← Finset.add_sum_erase ((rootSet freq).erase v2) _ (Finset.mem_erase.mpr ⟨hne, m1⟩)]
  have e : ((((rootSet freq).erase v2).erase v1).sum fun v => freq.getD v 0 * if v = v1 ∨ v = v2 then δ v1 + 1 else δ v) =
      (((rootSet freq).erase v2).erase v1).sum fun v => (if v = v1 then freq.getD v1 0 + freq.getD v2 0 else freq.getD v 0) * δ v := by
    refine Finset.sum_congr rfl fun v hv => ?_
    simp only [Finset.mem_erase] at hv
    rw [if_neg (by rintro (h | h); exacts [hv.1 h, hv.2.1 h]), if_neg hv.1]
  rw [e]
  simp only [true_or, or_true, if_true]
  apply le_of_eq
  ring

theorem mergeLoop_inv {f0 : List Nat} (hs : f0.sum < 4294967296) (fuel : Nat) {freq : List Nat} {others : List Int} {cs : List Nat} {L : Nat → List Nat}
    (h : MInv f0 freq others cs L) (hf : rootCount freq < fuel) :
    ∃ cs' freq' others' L', (∀ pf, mergeLoop pf fuel freq others cs = .ok cs') ∧ MInv f0 freq' others' cs' L' ∧
      (∀ v u, freq'.getD v 0 ≠ 0 → freq'.getD u 0 ≠ 0 → v = u) ∧
      ∃ δ : Nat → Nat, (∀ v, freq.getD v 0 ≠ 0 → ∀ j ∈ L v, cs'.getD j 0 = cs.getD j 0 + δ v) ∧ Best freq δ := by
  induction fuel generalizing freq others cs L with
  | zero => omega
  | succ fuel ih =>
    have hs' : freq.sum < 4294967296 := by rw [h.sum]; exact hs
    cases e1 : (findMin none freq 0 (4294967295, none)).2 with
    | none =>
      refine ⟨cs, freq, others, L, ?_, h, ?_, ⟨fun _ => 0, fun _ _ _ _ => rfl, fun l _ => by simp⟩⟩
      · intro pf; unfold mergeLoop; rw [e1]
      · intro v _ hv _; have := findMin_none hs' e1 v hv; cases this
    | some v1 =>
      obtain ⟨h1, _, hm1⟩ := findMin_some e1
      cases e2 : (findMin (some v1) freq 0 (4294967295, none)).2 with
      | none =>
        refine ⟨cs, freq, others, L, ?_, h, ?_, ⟨fun _ => 0, fun _ _ _ _ => rfl, fun l _ => by simp⟩⟩
        · intro pf; unfold mergeLoop; rw [e1]; dsimp only; rw [e2]
        · intro v u hv hu
          have a := findMin_none hs' e2 v hv
          have b := findMin_none hs' e2 u hu
          cases a; cases b; rfl
      | some v2 =>
        obtain ⟨h2, hne, hm2⟩ := findMin_some e2
        have hne' : v1 ≠ v2 := fun e => hne (by rw [e])
        have l1 := lt_of_getD_ne h1
        have l2 := lt_of_getD_ne h2
        have hc1 := h.chain v1 h1
        have hc2 := h.chain v2 h2
        obtain ⟨cs1, b1, b2, b3⟩ := bumpChain_ok h.lo (L v1) hc1.1 (h.nodup v1 h1) 258 (by have := chain_length (h.nodup v1 h1) hc1.1.lt; omega) cs h.lc v1 hc1.2
        have hlast : (L v1).getLast hc1.1.ne_nil ∈ L v1 := List.getLast_mem _
        have hlt := hc1.1.lt _ hlast
        have hc2' : IsChain (others.set ((L v1).getLast hc1.1.ne_nil) (v2 : Int)) (L v2) := hc2.1.set_other h.lo hlt (h.disj v1 v2 h1 h2 hne' _ hlast) _
        obtain ⟨cs2, d1, d2, d3⟩ := bumpChain_ok (by simpa using h.lo) (L v2) hc2' (h.nodup v2 h2) 258
          (by have := chain_length (h.nodup v2 h2) hc2.1.lt; omega) cs1 b2 v2 hc2.2
        have hcs : ∀ j, cs2.getD j 0 = cs.getD j 0 + if j ∈ L v1 ++ L v2 then 1 else 0 := by
          intro j
          rw [d3, b3]
          by_cases m1 : j ∈ L v1
          · have m2 := h.disj v1 v2 h1 h2 hne' j m1
            simp [m1, m2]
          · by_cases m2 : j ∈ L v2 <;> simp [m1, m2]
        have hinv := h.step h1 h2 hne' (fun u hu => hm1 u hu (by simp)) (fun u hu hu1 => hm2 u hu (by simpa using hu1)) d2 hcs
        obtain ⟨cs', freq', others', L', r1, r2, r3, δ, r4, r5⟩ := ih hinv (by
          have a := rootCount_set freq v1 (freq.getD v1 0 + freq.getD v2 0) l1
          have b := rootCount_set (freq.set v1 (freq.getD v1 0 + freq.getD v2 0)) v2 0 (by simpa using l2)
          rw [getD_set _ _ _ _ _ l1, if_neg (Ne.symm hne'), if_neg h2, if_pos rfl] at b
          rw [if_neg h1, if_neg (by omega)] at a
          omega)
        refine ⟨cs', freq', others', L', ?_, r2, r3, _, ?_, r5.step h.lf h1 h2 hne' (fun u hu => hm1 u hu (by simp)) (fun u hu hu1 => hm2 u hu (by simpa using hu1))⟩
        swap
        · intro v hv j hj
          have hr : ∀ v, v ≠ v2 → freq.getD v 0 ≠ 0 → ((freq.set v1 (freq.getD v1 0 + freq.getD v2 0)).set v2 0).getD v 0 ≠ 0 := by
            intro v e2 hv
            rw [getD_set _ _ _ _ _ (by simpa using l2), getD_set _ _ _ _ _ l1, if_neg e2]
            split
            · omega
            · exact hv
          by_cases e : v = v1 ∨ v = v2
          · rw [if_pos e]
            have hm : j ∈ L v1 ++ L v2 := by
              rw [List.mem_append]
              rcases e with rfl | rfl
              · exact Or.inl hj
              · exact Or.inr hj
            have := r4 v1 (hr v1 hne' h1) j (by simpa using hm)
            rw [this, hcs, if_pos hm]
            omega
          · rw [if_neg e]
            have e' : v ≠ v1 ∧ v ≠ v2 := by simpa using e
            have hm : j ∉ L v1 ++ L v2 := by
              rw [List.mem_append, not_or]
              exact ⟨h.disj v v1 hv h1 e'.1 j hj, h.disj v v2 hv h2 e'.2 j hj⟩
            have := r4 v (hr v e'.2 hv) j (by simpa [e'.1] using hj)
            rw [this, hcs, if_neg hm]
            omega
        intro pf
        have hsum : freq.getD v1 0 + freq.getD v2 0 < 4294967296 := by
          have a := sum_set_nat freq v1 0 l1
          have b := getD_le_sum (freq.set v1 0) v2
          rw [getD_set _ _ _ _ _ l1, if_neg (Ne.symm hne')] at b
          omega
        unfold mergeLoop
        rw [e1]
        dsimp only
        rw [e2]
        dsimp only
        rw [idx_eq_getD 0 l1]
        simp only [ok_bind]
        rw [idx_eq_getD 0 l2]
        simp only [ok_bind]
        have hck : ckU pf 32 (((freq.getD v1 0 : Nat) : Int) + ((freq.getD v2 0 : Nat) : Int)) = .ok (freq.getD v1 0 + freq.getD v2 0) := by
          rw [ckU32_ok (by omega) (by omega)]
          rfl
        rw [hck]
        simp only [ok_bind]
        rw [setIdx_ok l1]
        simp only [ok_bind]
        rw [setIdx_ok (by simpa using l2)]
        simp only [ok_bind]
        rw [b1]
        simp only [ok_bind]
        rw [setIdx_ok (by rw [h.lo]; exact hlt)]
        simp only [ok_bind]
        rw [d1]
        simp only [ok_bind]
        exact r1 pf

/-- What the merge loop computes from the frequencies `f0`. -/
structure IsCodeSizes (f0 cs : List Nat) : Prop where
  length : cs.length = 257
  unused : ∀ j, f0.getD j 0 = 0 → cs.getD j 0 = 0
  used : ∀ j k, f0.getD j 0 ≠ 0 → f0.getD k 0 ≠ 0 → j ≠ k → cs.getD j 0 ≠ 0
  kraft : ∃ U : List Nat, U.Nodup ∧ (∀ j, j ∈ U ↔ f0.getD j 0 ≠ 0) ∧ ((∃ j, f0.getD j 0 ≠ 0) → (U.map fun j => (1 / 2 : ℚ) ^ cs.getD j 0).sum = 1) ∧
    ∀ j ∈ U, cs.getD j 0 < U.length
  fib : ∀ j, f0.getD j 0 ≠ 0 → Nat.fib (cs.getD j 0 + 2) ≤ f0.sum
  best : Best f0 fun j => cs.getD j 0

theorem mergeLoop_ok {f0 : List Nat} (hl : f0.length = 257) (hs : f0.sum < 4294967296) :
    ∃ cs, (∀ pf, mergeLoop pf 258 f0 (List.replicate 257 (-1)) (List.replicate 257 0) = .ok cs) ∧ IsCodeSizes f0 cs := by
  obtain ⟨cs, freq, others, L, h1, h2, h3, δ, h4, h5⟩ := mergeLoop_inv hs 258 (MInv.init hl) (by
    have : rootCount f0 ≤ f0.length := List.countP_le_length
    omega)
  refine ⟨cs, h1, h2.lc, h2.unused, ?_, ?_, ?_, ?_⟩
  · intro j k hj hk hne hz
    obtain ⟨v, hv, hjv⟩ := h2.cover j hj
    obtain ⟨u, hu, hku⟩ := h2.cover k hk
    have := h3 v u hv hu
    subst this
    have hkr := h2.kraft v hv
    have hp : ∀ l : List Nat, 0 ≤ (l.map fun j => (1 / 2 : ℚ) ^ cs.getD j 0).sum := by
      intro l
      induction l with
      | nil => simp
      | cons a l ih =>
        rw [List.map_cons, List.sum_cons]
        have : (0 : ℚ) ≤ (1 / 2 : ℚ) ^ cs.getD a 0 := by positivity
        linarith
    have key : ∀ l : List Nat, j ∈ l → k ∈ l → (1 : ℚ) + (1 / 2) ^ cs.getD k 0 ≤ (l.map fun j => (1 / 2 : ℚ) ^ cs.getD j 0).sum := by
      intro l hjl hkl
      have hperm := List.perm_cons_erase hjl
      rw [(hperm.map _).sum_eq, List.map_cons, List.sum_cons, hz, pow_zero]
      have hke : k ∈ l.erase j := (List.mem_erase_of_ne (Ne.symm hne)).mpr hkl
      have hperm2 := List.perm_cons_erase hke
      rw [(hperm2.map _).sum_eq, List.map_cons, List.sum_cons]
      have := hp ((l.erase j).erase k)
      linarith
    have := key (L v) hjv hku
    have hpos : (0 : ℚ) < (1 / 2 : ℚ) ^ cs.getD k 0 := by positivity
    linarith
  · by_cases hex : ∃ j, f0.getD j 0 ≠ 0
    · obtain ⟨j, hj⟩ := hex
      obtain ⟨v, hv, hjv⟩ := h2.cover j hj
      refine ⟨L v, h2.nodup v hv, ?_, fun _ => h2.kraft v hv, h2.depth v hv⟩
      intro k
      constructor
      · exact h2.used v hv k
      · intro hk
        obtain ⟨u, hu, hku⟩ := h2.cover k hk
        rw [h3 v u hv hu]
        exact hku
    · push Not at hex
      exact ⟨[], by simp, fun j => ⟨fun h => by simp at h, fun h => absurd (hex j) h⟩, fun ⟨j, hj⟩ => absurd (hex j) hj, by simp⟩
  · intro j hj
    obtain ⟨v, hv, hjv⟩ := h2.cover j hj
    have := h2.fib1 v hv j hjv
    have := getD_le_sum freq v
    have := h2.sum
    omega
  · have e : ∀ v ∈ rootSet f0, cs.getD v 0 = δ v := by
      intro v hv
      have := h4 v ((mem_rootSet hl).mp hv) v (by simp)
      rw [this, List.getD_eq_getElem?_getD, List.getElem?_replicate]
      split <;> simp
    intro l hk
    have := h5 l hk
    have e' : ((rootSet f0).sum fun v => f0.getD v 0 * cs.getD v 0) = (rootSet f0).sum fun v => f0.getD v 0 * δ v :=
      Finset.sum_congr rfl fun v hv => by rw [e v hv]
    exact e'.trans_le this

end Jpeg
