import Verif.Proofs.Limit
import Verif.Spec.BestCode
/-! `HuffmanTable::new_optimized` as a whole. -/
namespace Jpeg

theorem mem_sortValues {cs : List Nat} {v : Nat} : v ∈ sortValues cs ↔ v < 256 ∧ 1 ≤ cs.getD v 0 ∧ cs.getD v 0 ≤ 32 := by
  unfold sortValues
  simp only [List.mem_flatten, List.mem_map, List.mem_range'_1]
  constructor
  · rintro ⟨l, ⟨i, hi, rfl⟩, hv⟩
    simp only [List.mem_filter, List.mem_range, beq_iff_eq] at hv
    omega
  · rintro ⟨h1, h2, h3⟩
    exact ⟨_, ⟨cs.getD v 0, by omega, rfl⟩, by simp only [List.mem_filter, List.mem_range, beq_iff_eq]; exact ⟨h1, trivial⟩⟩

theorem sortValues_nodup (cs : List Nat) : (sortValues cs).Nodup := by
  unfold sortValues
  rw [List.nodup_flatten]
  constructor
  · intro l hl
    simp only [List.mem_map] at hl
    obtain ⟨i, _, rfl⟩ := hl
    exact List.nodup_range.filter _
  · rw [List.pairwise_map]
    refine (List.nodup_range' (s := 1) (n := 32) (step := 1)).imp ?_
    intro a b hab x hx hx'
    simp only [List.mem_filter, beq_iff_eq] at hx hx'
    omega

theorem list_eq_map_getD (cs : List Nat) : cs = (List.range cs.length).map fun j => cs.getD j 0 := by
  apply List.ext_getElem
  · simp
  · intro i h1 h2
    simp [List.getD_eq_getElem?_getD, h1]

theorem filter_pos_perm {cs U : List Nat} (hl : cs.length = 257) (hn : U.Nodup) (hU : ∀ j, j ∈ U ↔ cs.getD j 0 ≠ 0) :
    (cs.filter (0 < ·)).Perm (U.map fun j => cs.getD j 0) := by
  have e : cs.filter (0 < ·) = ((List.range 257).filter fun j => decide (0 < cs.getD j 0)).map fun j => cs.getD j 0 := by
    conv_lhs => rw [list_eq_map_getD cs, hl]
    rw [List.filter_map]
    rfl
  rw [e]
  apply List.Perm.map
  rw [List.perm_ext_iff_of_nodup (List.nodup_range.filter _) hn]
  intro j
  rw [hU, List.mem_filter, List.mem_range, decide_eq_true_iff]
  constructor
  · intro h; omega
  · intro h; exact ⟨by have := lt_of_getD_ne h; omega, by omega⟩

theorem kraft_nat {cs U : List Nat} (h : ∀ j ∈ U, cs.getD j 0 ≤ 32) :
    (((U.map fun j => wt (cs.getD j 0)).sum : Nat) : ℚ) = 2 ^ 32 * (U.map fun j => (1 / 2 : ℚ) ^ cs.getD j 0).sum := by
  induction U with
  | nil => simp
  | cons a U ih =>
    rw [List.map_cons, List.sum_cons, List.map_cons, List.sum_cons, Nat.cast_add, ih (fun j hj => h j (by simp [hj])), mul_add]
    congr 1
    have := h a (by simp)
    unfold wt
    rw [Nat.cast_pow, Nat.cast_ofNat, one_div, inv_pow, ← div_eq_mul_inv, eq_div_iff (by positivity), ← pow_add]
    congr 1
    omega

/-- The code sizes fit the counters when the frequencies sum to less than the 35th Fibonacci number. -/
theorem IsCodeSizes.le32 {f0 cs : List Nat} (h : IsCodeSizes f0 cs) (hs : f0.sum < 9227465) (j : Nat) : cs.getD j 0 ≤ 32 := by
  by_cases hj : f0.getD j 0 = 0
  · rw [h.unused j hj]; omega
  · by_contra hc
    have h1 := h.fib j hj
    have h2 : Nat.fib 35 ≤ Nat.fib (cs.getD j 0 + 2) := Nat.fib_mono (by omega)
    have h3 : Nat.fib 35 = 9227465 := by decide +kernel
    omega

/-- Trees of small weight are not deep. -/
theorem IsCodeSizes.le15 {f0 cs : List Nat} (h : IsCodeSizes f0 cs) (hs : f0.sum < 2584) (j : Nat) : cs.getD j 0 ≤ 15 := by
  by_cases hj : f0.getD j 0 = 0
  · rw [h.unused j hj]; omega
  · by_contra hc
    have h1 := h.fib j hj
    have h2 : Nat.fib 18 ≤ Nat.fib (cs.getD j 0 + 2) := Nat.fib_mono (by omega)
    have h3 : Nat.fib 18 = 2584 := by decide +kernel
    omega

theorem lengths_facts {bits : List Nat} (hl : bits.length = 33) (h0 : bits.getD 0 0 = 0) (habove : ∀ k, 16 < k → bits.getD k 0 = 0) :
    ((List.range 16).map fun i => bits.getD (i + 1) 0).sum = wsum (fun _ => 1) bits ∧
    _root_.Spec.kraft ((List.range 16).map fun i => bits.getD (i + 1) 0) 1 * 65536 = wsum wt bits := by
  have e : List.range 16 = [0, 1, 2, 3, 4, 5, 6, 7, 8, 9, 10, 11, 12, 13, 14, 15] := by decide
  rw [e]
  have ha : wsum (fun _ => 1) bits = ∑ k ∈ Finset.range 17, bits.getD k 0 := by
    unfold wsum
    simp only [Nat.mul_one]
    symm
    apply Finset.sum_subset (by intro k; simp; omega)
    intro k _ hk
    exact habove k (by simp at hk; omega)
  have hb : wsum wt bits = ∑ k ∈ Finset.range 17, bits.getD k 0 * wt k := by
    unfold wsum
    symm
    apply Finset.sum_subset (by intro k; simp; omega)
    intro k _ hk
    rw [habove k (by simp at hk; omega), Nat.zero_mul]
  rw [ha, hb]
  simp only [Finset.sum_range_succ, Finset.sum_range_zero, h0, List.map_cons, List.map_nil, List.sum_cons, List.sum_nil, _root_.Spec.kraft]
  simp only [wt]
  norm_num
  constructor <;> ring

/-! ### Sizes after removing the reserved code point -/

theorem countP_eq_sum (p : Nat → Bool) (l : List Nat) : l.countP p = (l.map fun x => if p x then 1 else 0).sum := by
  induction l with
  | nil => rfl
  | cons a l ih =>
    rw [List.countP_cons, List.map_cons, List.sum_cons, ih]
    split <;> omega

theorem sorted_count_le {A B : List Nat} (hA : A.Pairwise (· ≤ ·)) (hB : B.Pairwise (· ≤ ·))
    (h : ∀ b, B.countP (fun x => decide (x ≤ b)) ≤ A.countP fun x => decide (x ≤ b)) {j : Nat} (hj : j < A.length) (hj' : j < B.length) : A[j] ≤ B[j] := by
  by_contra hlt
  have hb := h B[j]
  have h1 : j + 1 ≤ B.countP fun x => decide (x ≤ B[j]) := by
    have e : B = B.take (j + 1) ++ B.drop (j + 1) := (List.take_append_drop _ _).symm
    have h2 : (B.take (j + 1)).countP (fun x => decide (x ≤ B[j])) = (B.take (j + 1)).length := by
      rw [List.countP_eq_length]
      intro x hx
      obtain ⟨i, hi, rfl⟩ := List.getElem_of_mem hx
      rw [List.length_take] at hi
      rw [List.getElem_take]
      apply decide_eq_true
      rcases Nat.lt_or_ge i j with h | h
      · exact List.pairwise_iff_getElem.mp hB i j (by omega) hj' h
      · have : i = j := by omega
        subst this
        exact le_refl _
    rw [List.length_take, Nat.min_eq_left (by omega)] at h2
    have h3 : B.countP (fun x => decide (x ≤ B[j])) = (B.take (j + 1)).countP (fun x => decide (x ≤ B[j])) +
        (B.drop (j + 1)).countP (fun x => decide (x ≤ B[j])) := by
      rw [← List.countP_append, ← e]
    omega
  have h2 : A.countP (fun x => decide (x ≤ B[j])) ≤ j := by
    have h3 : A.countP (fun x => decide (x ≤ B[j])) = (A.take j).countP (fun x => decide (x ≤ B[j])) +
        (A.drop j).countP (fun x => decide (x ≤ B[j])) := by
      rw [← List.countP_append, List.take_append_drop]
    have h4 : (A.drop j).countP (fun x => decide (x ≤ B[j])) = 0 := by
      rw [List.countP_eq_zero]
      intro x hx
      obtain ⟨i, hi, rfl⟩ := List.getElem_of_mem hx
      rw [List.length_drop] at hi
      rw [List.getElem_drop]
      have : A[j] ≤ A[j + i] := by
        rcases Nat.eq_zero_or_pos i with h | h
        · subst h; exact le_refl _
        · exact List.pairwise_iff_getElem.mp hA j (j + i) hj (by omega) (by omega)
      simp only [decide_eq_true_eq]
      omega
    have h5 := List.countP_le_length (p := fun x => decide (x ≤ B[j])) (l := A.take j)
    rw [List.length_take] at h5
    omega
  omega

theorem expandSizes_sum (w : Nat → Nat) {bits : List Nat} (hl : bits.length = 33) (h0 : bits.getD 0 0 = 0) (habove : ∀ k, 16 < k → bits.getD k 0 = 0) :
    ((expandSizes ((List.range 16).map fun i => bits.getD (i + 1) 0) 1).map w).sum = wsum w bits := by
  have e : List.range 16 = [0, 1, 2, 3, 4, 5, 6, 7, 8, 9, 10, 11, 12, 13, 14, 15] := by decide
  have hb : wsum w bits = ∑ k ∈ Finset.range 17, bits.getD k 0 * w k := by
    unfold wsum
    symm
    apply Finset.sum_subset (by intro k; simp; omega)
    intro k _ hk
    rw [habove k (by simp at hk; omega), Nat.zero_mul]
  rw [hb, e]
  simp only [Finset.sum_range_succ, Finset.sum_range_zero, h0, List.map_cons, List.map_nil, expandSizes, List.map_append, List.sum_append, List.map_replicate,
    List.sum_replicate, smul_eq_mul, List.sum_nil]
  ring

theorem expandSizes_ge (ns : List Nat) (len : Nat) : ∀ x ∈ expandSizes ns len, len ≤ x := by
  induction ns generalizing len with
  | nil => simp [expandSizes]
  | cons n ns ih =>
    intro x hx
    rw [expandSizes, List.mem_append] at hx
    rcases hx with hx | hx
    · rw [(List.mem_replicate.mp hx).2]
    · have := ih (len + 1) x hx; omega

theorem expandSizes_sorted (ns : List Nat) (len : Nat) : (expandSizes ns len).Pairwise (· ≤ ·) := by
  induction ns generalizing len with
  | nil => simp [expandSizes]
  | cons n ns ih =>
    rw [expandSizes, List.pairwise_append]
    refine ⟨?_, ih _, ?_⟩
    · rw [List.pairwise_replicate]; exact Or.inr (le_refl _)
    · intro a ha b hb
      rw [(List.mem_replicate.mp ha).2]
      have := expandSizes_ge ns (len + 1) b hb
      omega

theorem expandSizes_length (ns : List Nat) (len : Nat) : (expandSizes ns len).length = ns.sum := by
  rw [← map_fst_assignCodes ns len 0, List.length_map, _root_.Spec.assignCodes_length]

theorem sortValues_sorted (cs : List Nat) : ((sortValues cs).map fun j => cs.getD j 0).Pairwise (· ≤ ·) := by
  unfold sortValues
  rw [List.map_flatten, List.map_map, List.pairwise_flatten]
  constructor
  · intro l hl
    simp only [List.mem_map, Function.comp] at hl
    obtain ⟨i, _, rfl⟩ := hl
    rw [List.pairwise_iff_getElem]
    intro i1 i2 l1 l2 _
    have ha := List.getElem_mem l1
    have hb := List.getElem_mem l2
    revert ha hb
    generalize (List.map (fun j => cs.getD j 0) ((List.range 256).filter fun j => cs.getD j 0 == i))[i1] = a
    generalize (List.map (fun j => cs.getD j 0) ((List.range 256).filter fun j => cs.getD j 0 == i))[i2] = b
    intro ha hb
    simp only [List.mem_map, List.mem_filter, beq_iff_eq] at ha hb
    obtain ⟨_, ⟨_, ha⟩, rfl⟩ := ha
    obtain ⟨_, ⟨_, hb⟩, rfl⟩ := hb
    omega
  · rw [List.pairwise_map]
    refine (List.pairwise_lt_range' (s := 1) (n := 32) (step := 1)).imp ?_
    intro a b hab x hx y hy
    simp only [Function.comp, List.mem_map, List.mem_filter, beq_iff_eq] at hx hy
    obtain ⟨_, ⟨_, hx⟩, rfl⟩ := hx
    obtain ⟨_, ⟨_, hy⟩, rfl⟩ := hy
    omega

/-- Bits needed for the code words, with sizes `A` for the values `V`. -/
def zipCost (f : Nat → Nat) (V A : List Nat) : Nat := ((V.zip A).map fun p => f p.1 * p.2).sum

theorem zipCost_le (f c : Nat → Nat) (V A : List Nat) (hl : A.length = V.length) (h : ∀ j (h1 : j < A.length) (h2 : j < V.length), A[j] ≤ c V[j]) :
    zipCost f V A ≤ (V.map fun v => f v * c v).sum := by
  unfold zipCost
  induction V generalizing A with
  | nil => simp
  | cons v V ih =>
    cases A with
    | nil => simp
    | cons a A =>
      rw [List.zip_cons_cons, List.map_cons, List.sum_cons, List.map_cons, List.sum_cons]
      have h0 := h 0 (by simp) (by simp)
      have := ih A (by simpa using hl) (fun j h1 h2 => by
        have := h (j + 1) (by simpa using h1) (by simpa using h2)
        rwa [List.getElem_cons_succ, List.getElem_cons_succ] at this)
      have : f v * a ≤ f v * c v := Nat.mul_le_mul_left _ (by simpa using h0)
      dsimp only
      omega

theorem bind_inv {α β : Type} {r : R α} {f : α → R β} {b : β} (h : (r >>= f) = .ok b) : ∃ a, r = .ok a ∧ f a = .ok b := by
  cases r with
  | error e => cases h
  | ok a => exact ⟨a, rfl, h⟩

theorem countBits_depth {pf : Platform} : ∀ {cs bits r : List Nat}, bits.length = 33 → countBits pf cs bits = .ok r → ∀ c ∈ cs, c ≤ 32 := by
  intro cs
  induction cs with
  | nil => simp
  | cons c cs ih =>
    intro bits r hl h
    unfold countBits at h
    split at h
    · obtain ⟨x, e1, h⟩ := bind_inv h
      obtain ⟨y, -, h⟩ := bind_inv h
      obtain ⟨z, e3, h⟩ := bind_inv h
      have hc : c < bits.length := by
        by_contra hn
        unfold idx at e1
        rw [List.getElem?_eq_none (by omega)] at e1
        cases e1
      have hz : z.length = 33 := by
        unfold setIdx at e3
        rw [if_pos hc] at e3
        cases e3
        simpa using hl
      intro x hx
      rcases List.mem_cons.mp hx with rfl | hx
      · omega
      · exact ih hz h x hx
    · intro x hx
      rcases List.mem_cons.mp hx with rfl | hx
      · omega
      · exact ih hl h x hx

/-- The frequencies for which `new_optimized` works: one reserved code point and at least one symbol in use, at most 255 of the 257 in use, and a total below
the 35th Fibonacci number, or a total that fits into the counters and at most 33 in use or no best code of more than 32 bits. -/
structure GoodFreq (freq : List Nat) : Prop where
  length : freq.length = 257
  reserved : freq.getD 256 0 ≠ 0
  some_used : ∃ v < 256, freq.getD v 0 ≠ 0
  few : rootCount freq ≤ 255
  total : freq.sum < 9227465 ∨ (freq.sum < 4294967296 ∧ (rootCount freq ≤ 33 ∨ (Spec.ShortCodes (rootSet freq) fun v => freq.getD v 0) ∨
    ∃ pf t, HuffmanTable.newOptimized pf freq = .ok t))

theorem newOptimized_ok {freq : List Nat} (h : GoodFreq freq) :
    ∃ t, (∀ pf, pf.Valid → HuffmanTable.newOptimized pf freq = .ok t) ∧ TableOk t ∧ (∀ n ∈ t.length, n < 256) ∧
      (∀ v, v ∈ t.values ↔ v < 256 ∧ freq.getD v 0 ≠ 0) ∧ (rootCount freq ≤ 16 ∨ freq.sum < 2584 → t.length.getD 15 0 = 0) ∧
      (t.length.getD 15 0 = 0 → ∀ l : Nat → Nat, ((rootSet freq).sum fun v => (1 / 2 : ℚ) ^ l v) ≤ 1 →
        zipCost (fun v => freq.getD v 0) t.values (expandSizes t.length 1) + 1 ≤ (rootSet freq).sum fun v => freq.getD v 0 * l v) := by
  obtain ⟨cs, hm, hcs⟩ := mergeLoop_ok h.length (by have := h.total; omega)
  obtain ⟨U, hUn, hU, hUk, hUd⟩ := hcs.kraft
  obtain ⟨s0, hs0, hs0f⟩ := h.some_used
  have hUroot : U.length = rootCount freq := by
    have hp : U.Perm ((List.range 257).filter fun j => decide (freq.getD j 0 ≠ 0)) := by
      rw [List.perm_ext_iff_of_nodup hUn (List.nodup_range.filter _)]
      intro j
      rw [hU, List.mem_filter, List.mem_range, decide_eq_true_iff]
      exact ⟨fun hj => ⟨by have := lt_of_getD_ne hj; have := h.length; omega, hj⟩, fun hj => hj.2⟩
    have : rootCount freq = ((List.range 257).filter fun j => decide (freq.getD j 0 ≠ 0)).length := by
      unfold rootCount
      conv_lhs => rw [list_eq_map_getD freq, h.length]
      rw [List.countP_map, List.countP_eq_length_filter]
      rfl
    rw [this, hp.length_eq]
  have hUlen : U.length ≤ 255 := by have := h.few; omega
  have h32 : ∀ j, cs.getD j 0 ≤ 32 := by
    rcases h.total with ht | ⟨-, ht⟩
    · exact hcs.le32 ht
    · intro j
      by_cases hj : freq.getD j 0 = 0
      · rw [hcs.unused j hj]; omega
      · rcases ht with ht | ht | ⟨pf, t, ht⟩
        · have := hUd j ((hU j).mpr hj)
          omega
        · refine ht (fun v => cs.getD v 0) ⟨?_, hcs.best⟩ j ((mem_rootSet h.length).mpr hj)
          have hset : rootSet freq = U.toFinset := by
            ext v
            rw [mem_rootSet h.length, List.mem_toFinset, hU]
          rw [hset, List.sum_toFinset _ hUn, hUk ⟨s0, hs0f⟩]
        · unfold HuffmanTable.newOptimized at ht
          rw [hm pf] at ht
          obtain ⟨bits, hb, -⟩ := bind_inv (show countBits pf cs (List.replicate 33 0) >>= _ = Except.ok t from ht)
          have hd := countBits_depth (List.length_replicate ..) hb
          by_cases hjl : j < cs.length
          · rw [List.getD_eq_getElem?_getD, List.getElem?_eq_getElem hjl]
            exact hd _ (List.getElem_mem hjl)
          · rw [List.getD_eq_getElem?_getD, List.getElem?_eq_none (by omega)]
            exact Nat.zero_le _
  -- a symbol has a code size iff it is used
  have hpos : ∀ j, cs.getD j 0 ≠ 0 ↔ freq.getD j 0 ≠ 0 := by
    intro j
    constructor
    · intro hj hz; exact hj (hcs.unused j hz)
    · intro hj
      by_cases hj2 : j = 256
      · exact hcs.used j s0 hj hs0f (by omega)
      · exact hcs.used j 256 hj h.reserved hj2
  have hUcs : ∀ j, j ∈ U ↔ cs.getD j 0 ≠ 0 := fun j => by rw [hU, hpos]
  have hperm := filter_pos_perm hcs.length hUn hUcs
  have hlen : (cs.filter (0 < ·)).length = U.length := by rw [hperm.length_eq, List.length_map]
  -- counting
  have hw0 : ∀ w, wsum w (List.replicate 33 0) = 0 := by
    intro w
    apply Finset.sum_eq_zero
    intro k hk
    rw [List.getD_eq_getElem?_getD, List.getElem?_replicate, if_pos (Finset.mem_range.mp hk), Option.getD_some, Nat.zero_mul]
  obtain ⟨bits, hb1, hb2, hb3, hb4⟩ := countBits_ok cs (List.replicate 33 0) (by simp) (fun c hc => by
    obtain ⟨j, hj, hjc⟩ := List.getElem_of_mem hc
    have := h32 j
    rw [List.getD_eq_getElem?_getD, List.getElem?_eq_getElem hj, Option.getD_some, hjc] at this
    exact this) (by rw [hw0, hlen]; omega)
  have hinv : LInv U.length 32 bits := by
    refine ⟨hb2, ?_, ?_, ?_, ?_⟩
    · rw [hb3]; rfl
    · rw [hb4, hw0, List.map_const', List.sum_replicate, hlen]; simp
    · rw [hb4, hw0, Nat.zero_add, (hperm.map wt).sum_eq, List.map_map]
      have := kraft_nat (cs := cs) (U := U) (fun j _ => h32 j)
      rw [hUk ⟨s0, hs0f⟩, mul_one] at this
      have e : (wt ∘ fun j => cs.getD j 0) = fun j => wt (cs.getD j 0) := rfl
      rw [e]
      exact_mod_cast this
    · intro k hk
      rw [List.getD_eq_getElem?_getD, List.getElem?_eq_none (by omega)]
      rfl
  obtain ⟨bits2, hl1, hl2, hl3⟩ := limitLoop_ok hUlen 16 (le_refl _) hinv
  have hnz : ∃ k, k ≤ 16 ∧ bits2.getD k 0 ≠ 0 := by
    by_contra hno
    push Not at hno
    have hk := hl2.kraft
    have : wsum wt bits2 = 0 := by
      apply Finset.sum_eq_zero
      intro k _
      by_cases hk16 : k ≤ 16
      · rw [hno k hk16, Nat.zero_mul]
      · rw [hl2.above k (by omega), Nat.zero_mul]
    omega
  obtain ⟨k, hk1, hk16, hkb, hkm, hd⟩ := dropLast_ok hl2.len hl2.zero (fun k => le_trans (hl2.le k) hUlen) 16 (le_refl _) 33 (by omega) hnz
  obtain ⟨bits3, e3⟩ : ∃ b, b = bits2.set k (bits2.getD k 0 - 1) := ⟨_, rfl⟩
  have hlen3 : bits3.length = 33 := by rw [e3]; simpa using hl2.len
  have hz3 : bits3.getD 0 0 = 0 := by
    rw [e3, getD_set _ _ _ _ _ (by have := hl2.len; omega), if_neg (by omega), hl2.zero]
  have ha3 : ∀ j, 16 < j → bits3.getD j 0 = 0 := by
    intro j hj
    rw [e3, getD_set _ _ _ _ _ (by have := hl2.len; omega), if_neg (by omega), hl2.above j hj]
  obtain ⟨f1, f2⟩ := lengths_facts hlen3 hz3 ha3
  have w3 := fun w => wsum_set w hl2.len (i := k) (bits2.getD k 0 - 1) (by omega)
  have hkk : wsum wt bits3 < 2 ^ 32 := by
    have a := w3 wt
    rw [← e3] at a
    obtain ⟨x, hx⟩ : ∃ x, bits2.getD k 0 = x + 1 := ⟨bits2.getD k 0 - 1, by omega⟩
    rw [hx, Nat.add_sub_cancel, Nat.add_mul] at a
    have : 0 < wt k := by unfold wt; positivity
    have := hl2.kraft
    omega
  have hsum3 : wsum (fun _ => 1) bits3 + 1 = U.length := by
    have a := w3 (fun _ => 1)
    rw [← e3] at a
    have := hl2.sum
    omega
  have hmemv : ∀ v, v ∈ sortValues cs ↔ v < 256 ∧ freq.getD v 0 ≠ 0 := by
    intro v
    rw [mem_sortValues, ← hpos]
    have := h32 v
    constructor
    · intro hh; omega
    · intro hh; omega
  have hp : (256 :: sortValues cs).Perm U := by
      rw [List.perm_ext_iff_of_nodup _ hUn]
      · intro v
        rw [List.mem_cons, hmemv, hU]
        constructor
        · rintro (rfl | hv)
          · exact h.reserved
          · exact hv.2
        · intro hv
          have := lt_of_getD_ne hv
          have := h.length
          by_cases e : v = 256
          · exact Or.inl e
          · exact Or.inr ⟨by omega, hv⟩
      · rw [List.nodup_cons]
        exact ⟨fun hv => by have := (hmemv 256).mp hv; omega, sortValues_nodup cs⟩
  have hvl : (sortValues cs).length + 1 = U.length := by simpa using hp.length_eq
  have hwf : (_root_.Spec.HuffTable.mk ((List.range 16).map fun i => bits3.getD (i + 1) 0) (sortValues cs)).WellFormed := by
    refine ⟨by simp, ?_, sortValues_nodup cs, fun v hv => ((hmemv v).mp hv).1, ?_⟩
    · show (sortValues cs).length = ((List.range 16).map fun i => bits3.getD (i + 1) 0).sum
      rw [f1]; omega
    · show _root_.Spec.kraft ((List.range 16).map fun i => bits3.getD (i + 1) 0) 1 < 2 ^ 16
      omega
  obtain ⟨t, ht1, ht2, ht3, ht4⟩ := HuffmanTable.new_ok hwf
  refine ⟨t, ?_, ht4, ?_, ?_, ?_, ?_⟩
  · intro pf hpf
    have hnew := ht1 pf
    unfold HuffmanTable.new at hnew
    unfold HuffmanTable.newOptimized
    rw [hm pf]
    simp only [ok_bind]
    rw [hb1 pf]
    simp only [ok_bind]
    rw [hl1 pf hpf]
    simp only [ok_bind]
    rw [hd pf hpf, ← e3]
    simp only [ok_bind]
    exact hnew
  · intro n hn
    have := List.le_sum_of_mem hn
    rw [ht2, f1] at this
    omega
  · intro v
    rw [ht3]
    exact hmemv v
  · intro hr
    have hb16 : ∀ m, 15 < m → bits.getD m 0 = 0 := by
      intro m hm
      by_cases hm33 : m < 33
      · have hone : wsum (fun i => if i = m then 1 else 0) bits = bits.getD m 0 := by
          unfold wsum
          rw [Finset.sum_eq_single m]
          · simp
          · intro b _ hb
            beta_reduce
            rw [if_neg hb, Nat.mul_zero]
          · intro hb
            exact absurd (Finset.mem_range.mpr (by omega)) hb
        rw [← hone, hb4, hw0, Nat.zero_add, (hperm.map _).sum_eq, List.map_map]
        apply List.sum_eq_zero
        intro x hx
        obtain ⟨j, hj, rfl⟩ := List.mem_map.mp hx
        simp only [Function.comp_apply]
        rcases hr with hr | hr
        · have := hUd j hj
          rw [if_neg (by omega)]
        · have := hcs.le15 hr j
          rw [if_neg (by omega)]
      · rw [List.getD_eq_getElem?_getD, List.getElem?_eq_none (by omega)]
        rfl
    have hsame : bits2 = bits := by
      have h1 := hl1 ⟨true, 8⟩ (Or.inr rfl)
      rw [limitLoop_id _ hb2 (fun m hm => hb16 m (by omega)) 16 (le_refl _)] at h1
      exact (Except.ok.inj h1).symm
    have hk' : k ≠ 16 := by
      rintro rfl
      rw [hsame] at hkb
      exact hkb (hb16 16 (by omega))
    rw [ht2]
    show bits3.getD 16 0 = 0
    rw [e3, getD_set _ _ _ _ _ (by have := hl2.len; omega), if_neg (by omega), hsame]
    exact hb16 16 (by omega)
  · intro h15 l hk
    rw [ht2] at h15
    have h16 : bits3.getD 16 0 = 0 := h15
    have hb16 : bits2.getD 16 0 = 0 := by
      by_contra hne
      have hk' : k = 16 := by
        by_contra hk'
        exact hne (hkm 16 (by omega) (le_refl _))
      subst hk'
      have hev := hl2.even (by omega) (by omega)
      rw [e3, getD_set _ _ _ _ _ (by have := hl2.len; omega), if_pos rfl] at h16
      omega
    have hsame : bits2 = bits := hl3.resolve_right fun h => h hb16
    have hw : ∀ w, wsum w bits = w (cs.getD 256 0) + ((sortValues cs).map fun j => w (cs.getD j 0)).sum := by
      intro w
      rw [hb4, hw0, Nat.zero_add, (hperm.map w).sum_eq, List.map_map, ← (hp.map _).sum_eq, List.map_cons, List.sum_cons]
      rfl
    have hck : cs.getD 256 0 ≤ k := by
      by_contra hc
      have hone : wsum (fun i => if i = cs.getD 256 0 then 1 else 0) bits = bits.getD (cs.getD 256 0) 0 := by
        unfold wsum
        rw [Finset.sum_eq_single (cs.getD 256 0)]
        · simp
        · intro b _ hb
          beta_reduce
          rw [if_neg hb, Nat.mul_zero]
        · intro hb
          have := h32 256
          exact absurd (Finset.mem_range.mpr (by omega)) hb
      have h1 := hw (fun i => if i = cs.getD 256 0 then 1 else 0)
      rw [hone, if_pos rfl] at h1
      have h2 : bits.getD (cs.getD 256 0) 0 = 0 := by
        rw [← hsame]
        by_cases h17 : cs.getD 256 0 ≤ 16
        · exact hkm _ (by omega) h17
        · exact hl2.above _ (by omega)
      omega
    have hlenA : (expandSizes t.length 1).length = (sortValues cs).length := by
      rw [expandSizes_length, ht2, f1]; omega
    have hle : zipCost (fun v => freq.getD v 0) t.values (expandSizes t.length 1) ≤ ((sortValues cs).map fun v => freq.getD v 0 * cs.getD v 0).sum := by
      rw [ht3]
      apply zipCost_le _ _ _ _ hlenA
      intro j j1 j2
      have key := sorted_count_le (expandSizes_sorted t.length 1) (sortValues_sorted cs) (by
        intro b
        rw [countP_eq_sum, countP_eq_sum, List.map_map, ht2, expandSizes_sum _ hlen3 hz3 ha3]
        have h1 := hw (fun x => if decide (x ≤ b) = true then 1 else 0)
        have h2 := w3 (fun x => if decide (x ≤ b) = true then 1 else 0)
        rw [← e3, hsame] at h2
        rw [hsame] at hkb
        obtain ⟨x, hx⟩ : ∃ x, bits.getD k 0 = x + 1 := ⟨bits.getD k 0 - 1, by omega⟩
        rw [hx, Nat.add_sub_cancel, Nat.add_mul, Nat.one_mul] at h2
        have h3 : (if decide (k ≤ b) = true then 1 else 0) ≤ if decide (cs.getD 256 0 ≤ b) = true then 1 else 0 := by
          simp only [decide_eq_true_eq]
          split
          · rw [if_pos (by omega)]
          · exact Nat.zero_le _
        have h4 : ((fun x => if decide (x ≤ b) = true then 1 else 0) ∘ fun j => cs.getD j 0) = fun j => if decide (cs.getD j 0 ≤ b) = true then 1 else 0 := rfl
        rw [h4]
        omega) (j := j) j1 (by rw [List.length_map]; exact j2)
      rw [List.getElem_map] at key
      exact key
    have hbest := hcs.best l hk
    have hset : rootSet freq = U.toFinset := by
      ext v
      rw [mem_rootSet h.length, List.mem_toFinset, hU]
    have hsum : ((rootSet freq).sum fun v => freq.getD v 0 * cs.getD v 0) = (U.map fun v => freq.getD v 0 * cs.getD v 0).sum := by
      rw [hset, List.sum_toFinset _ hUn]
    rw [hsum, ← (hp.map _).sum_eq, List.map_cons, List.sum_cons] at hbest
    have hpos1 : 1 ≤ freq.getD 256 0 * cs.getD 256 0 :=
      Nat.one_le_iff_ne_zero.mpr (Nat.mul_ne_zero h.reserved ((hpos 256).mpr h.reserved))
    omega

end Jpeg
