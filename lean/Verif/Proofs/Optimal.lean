import Verif.Proofs.OptTables
import Verif.Spec.Cost
/-! Optimised tables are optimal. -/
namespace Jpeg
open _root_.Spec

theorem codes_eq_zip (T : HuffTable) : T.codes.map (fun c => (c.2, c.1.length)) = T.values.zip (expandSizes T.counts 1) := by
  have h : T.codeWords.map List.length = expandSizes T.counts 1 := by
    rw [← map_fst_assignCodes T.counts 1 0, HuffTable.codeWords, List.map_map]
    apply List.map_congr_left
    intro lc _
    exact toBits_length _ _
  rw [← h, HuffTable.codes]
  generalize T.codeWords = C
  generalize T.values = V
  induction C generalizing V with
  | nil => simp
  | cons c C ih =>
    cases V with
    | nil => simp
    | cons v V => simp [ih]

theorem find_length {V A : List Nat} {C : List (Bits × Nat)} (hC : C.map (fun c => (c.2, c.1.length)) = V.zip A) (hn : V.Nodup)
    (hl : A.length = V.length) :
    V.map (fun v => match C.find? fun c => c.2 == v with | some c => c.1.length | none => 0) = A := by
  induction C generalizing V A with
  | nil =>
    cases V with
    | nil => simp at hl; simp [hl]
    | cons v V => cases A <;> simp at hl hC
  | cons c C ih =>
    cases V with
    | nil => simp at hC
    | cons v V =>
      cases A with
      | nil => simp at hl
      | cons a A =>
        simp only [List.map_cons, List.zip_cons_cons, List.cons.injEq, Prod.mk.injEq] at hC
        obtain ⟨⟨h1, h2⟩, h3⟩ := hC
        rw [List.nodup_cons] at hn
        simp only [List.map_cons, List.find?_cons, h1, beq_self_eq_true, h2, List.cons.injEq, true_and]
        rw [← ih h3 hn.2 (by simpa using hl)]
        apply List.map_congr_left
        intro u hu
        have : (v == u) = false := by
          rw [beq_eq_false_iff_ne]
          rintro rfl
          exact hn.1 hu
        simp only [this]

theorem map_lengthOf {T : HuffTable} (h : T.WellFormed) : T.values.map T.lengthOf = expandSizes T.counts 1 := by
  refine find_length (codes_eq_zip T) h.values_nodup ?_
  rw [expandSizes_length, h.values_len]

theorem zipCost_map (f g : Nat → Nat) (V : List Nat) : zipCost f V (V.map g) = (V.map fun v => f v * g v).sum := by
  unfold zipCost
  induction V with
  | nil => rfl
  | cons v V ih => simp only [List.map_cons, List.zip_cons_cons, List.sum_cons, ih]

theorem expandSizes_le (ns : List Nat) (len : Nat) : ∀ x ∈ expandSizes ns len, x < len + ns.length := by
  induction ns generalizing len with
  | nil => simp [expandSizes]
  | cons n ns ih =>
    intro x hx
    rw [expandSizes, List.mem_append] at hx
    rcases hx with hx | hx
    · rw [List.eq_of_mem_replicate hx, List.length_cons]; omega
    · have := ih (len + 1) x hx
      rw [List.length_cons]; omega

theorem kraft_expand (ns : List Nat) (len : Nat) (h : len + ns.length ≤ 17) :
    ((expandSizes ns len).map fun l => (1 / 2 : ℚ) ^ l).sum = (kraft ns len : ℚ) / 2 ^ 16 := by
  induction ns generalizing len with
  | nil => simp [expandSizes, kraft]
  | cons n ns ih =>
    rw [List.length_cons] at h
    rw [expandSizes, List.map_append, List.sum_append, ih (len + 1) (by omega), kraft, List.map_replicate, List.sum_replicate, nsmul_eq_mul]
    push_cast
    have e : (2 : ℚ) ^ 16 = 2 ^ (16 - len) * 2 ^ len := by rw [← pow_add]; congr 1; omega
    have e2 : (1 / 2 : ℚ) ^ len = 2 ^ (16 - len) / 2 ^ 16 := by
      rw [e, one_div, inv_pow]
      field_simp
    rw [e2]
    ring

/-- The code lengths of a well formed table together with a further code word of 16 bits satisfy the Kraft inequality. -/
theorem kraft_lengthOf {T : HuffTable} (h : T.WellFormed) : (T.values.map fun v => (1 / 2 : ℚ) ^ T.lengthOf v).sum + (1 / 2) ^ 16 ≤ 1 := by
  have h1 : T.values.map (fun v => (1 / 2 : ℚ) ^ T.lengthOf v) = (expandSizes T.counts 1).map fun l => (1 / 2 : ℚ) ^ l := by
    rw [← map_lengthOf h, List.map_map]
    rfl
  rw [h1, kraft_expand _ _ (by rw [h.counts_len])]
  have h2 : (kraft T.counts 1 : ℚ) + 1 ≤ 2 ^ 16 := by
    have := h.kraft
    exact_mod_cast this
  rw [show ((1 : ℚ) / 2) ^ 16 = 1 / 2 ^ 16 by norm_num, ← add_div, div_le_one (by positivity)]
  exact h2

theorem sum_subset_nodup {S : Finset Nat} {V : List Nat} (hn : V.Nodup) (hS : ∀ v ∈ S, v ∈ V) (f : Nat → ℚ) (hf : ∀ v, 0 ≤ f v) :
    S.sum f ≤ (V.map f).sum := by
  rw [← List.sum_toFinset _ hn]
  refine Finset.sum_le_sum_of_subset_of_nonneg ?_ fun v _ _ => hf v
  intro v hv
  rw [List.mem_toFinset]
  exact hS v hv

/-- Statistics `freq` (with the reserved code point): an optimised table without codes of length 16 is at most 15 bits worse than any other
table. -/
theorem optimal_of {freq : List Nat} (h : GoodFreq freq) {t : HuffmanTable} {pf : Platform} (hpf : pf.Valid)
    (ht : HuffmanTable.newOptimized pf freq = .ok t) (h256 : freq.getD 256 0 = 1) (hcount : t.length.getD 15 0 = 0)
    {T : HuffTable} (hT : T.WellFormed) (hval : ∀ v, v < 256 → freq.getD v 0 ≠ 0 → v ∈ T.values) :
    (∑ v ∈ Finset.range 256, freq.getD v 0 * t.spec.lengthOf v) ≤ (∑ v ∈ Finset.range 256, freq.getD v 0 * T.lengthOf v) + 15 := by
  obtain ⟨t', h1, h2, -, h4, -, h5⟩ := newOptimized_ok h
  have htt : t' = t := by
    have := h1 pf hpf
    rw [ht] at this
    exact (Except.ok.inj this).symm
  subst htt
  have hroot : rootSet freq = insert 256 ((Finset.range 256).filter fun v => freq.getD v 0 ≠ 0) := by
    ext v
    rw [mem_rootSet h.length, Finset.mem_insert, Finset.mem_filter, Finset.mem_range]
    constructor
    · intro hv
      have := lt_of_getD_ne hv
      rw [h.length] at this
      by_cases hv2 : v = 256
      · exact Or.inl hv2
      · exact Or.inr ⟨by omega, hv⟩
    · rintro (rfl | hv)
      · rw [h256]; decide
      · exact hv.2
  have hnot : (256 : Nat) ∉ (Finset.range 256).filter fun v => freq.getD v 0 ≠ 0 := by simp
  have hfil : ∀ g : Nat → Nat, (((Finset.range 256).filter fun v => freq.getD v 0 ≠ 0).sum fun v => freq.getD v 0 * g v) =
      ∑ v ∈ Finset.range 256, freq.getD v 0 * g v := by
    intro g
    rw [Finset.sum_filter]
    refine Finset.sum_congr rfl fun v _ => ?_
    by_cases hv : freq.getD v 0 ≠ 0
    · rw [if_pos hv]
    · rw [if_neg hv, not_not.mp hv, Nat.zero_mul]
  have key := h5 hcount (fun v => if v = 256 then 16 else T.lengthOf v) ?_
  · have hwf := h2.wf
    rw [hroot, Finset.sum_insert hnot, h256] at key
    have e1 : (((Finset.range 256).filter fun v => freq.getD v 0 ≠ 0).sum fun v => freq.getD v 0 * (if v = 256 then 16 else T.lengthOf v)) =
        ∑ v ∈ Finset.range 256, freq.getD v 0 * T.lengthOf v := by
      rw [← hfil]
      refine Finset.sum_congr rfl fun v hv => ?_
      rw [Finset.mem_filter, Finset.mem_range] at hv
      rw [if_neg (by omega)]
    rw [e1] at key
    have e2 : zipCost (fun v => freq.getD v 0) t'.values (expandSizes t'.length 1) = ∑ v ∈ Finset.range 256, freq.getD v 0 * t'.spec.lengthOf v := by
      have hm := map_lengthOf hwf
      rw [show expandSizes t'.length 1 = t'.values.map t'.spec.lengthOf from hm.symm, zipCost_map, ← hfil,
        ← List.sum_toFinset _ (show t'.values.Nodup from hwf.values_nodup)]
      refine Finset.sum_congr ?_ fun _ _ => rfl
      ext v
      rw [List.mem_toFinset, h4, Finset.mem_filter, Finset.mem_range]
    rw [e2] at key
    simp only [if_true] at key
    omega
  · rw [hroot, Finset.sum_insert hnot]
    have e1 : (((Finset.range 256).filter fun v => freq.getD v 0 ≠ 0).sum fun v => (1 / 2 : ℚ) ^ (if v = 256 then 16 else T.lengthOf v)) ≤
        (T.values.map fun v => (1 / 2 : ℚ) ^ T.lengthOf v).sum := by
      refine le_trans (le_of_eq ?_) (sum_subset_nodup hT.values_nodup (S := (Finset.range 256).filter fun v => freq.getD v 0 ≠ 0) ?_
        (fun v => (1 / 2 : ℚ) ^ T.lengthOf v) fun v => by positivity)
      · refine Finset.sum_congr rfl fun v hv => ?_
        rw [Finset.mem_filter, Finset.mem_range] at hv
        rw [if_neg (by omega)]
      · intro v hv
        rw [Finset.mem_filter, Finset.mem_range] at hv
        exact hval v hv.1 hv.2
    have := kraft_lengthOf hT
    simp only [if_true]
    linarith

theorem cost_count (T : HuffTable) {syms : List Nat} (h : ∀ s ∈ syms, s < 256) :
    T.cost syms = ∑ v ∈ Finset.range 256, syms.count v * T.lengthOf v := by
  unfold HuffTable.cost
  induction syms with
  | nil => simp
  | cons s l ih =>
    rw [List.map_cons, List.sum_cons, ih fun s hs => h s (List.mem_cons_of_mem _ hs)]
    have : ∀ v ∈ Finset.range 256, (s :: l).count v * T.lengthOf v = l.count v * T.lengthOf v + if v = s then T.lengthOf s else 0 := by
      intro v _
      rw [List.count_cons]
      by_cases hv : s = v
      · subst hv; simp; ring
      · simp [hv, Ne.symm hv]
    rw [Finset.sum_congr rfl this, Finset.sum_add_distrib, Finset.sum_ite_eq', if_pos (Finset.mem_range.mpr (h s (List.mem_cons_self ..))), Nat.add_comm]

/-- The same for a sequence of symbols. -/
theorem OptTable.optimal {alphabet syms : List Nat} {t : HuffmanTable} (h : OptTable alphabet syms t) (hcount : t.length.getD 15 0 = 0) {T : HuffTable} (hT : T.WellFormed)
    (hval : ∀ v ∈ syms, v ∈ T.values) : t.spec.cost syms ≤ T.cost syms + 15 := by
  have hg : ∀ v, v < 256 → (bumpAll initFreq syms).getD v 0 = syms.count v := by
    intro v hv
    rw [bumpAll_getD (fun s hs => by have := h.lt s hs; rw [initFreq_length]; omega), initFreq_getD, if_neg (by omega), Nat.zero_add]
  have h256 : (bumpAll initFreq syms).getD 256 0 = 1 := by
    have hcnt : syms.count 256 = 0 := List.count_eq_zero.mpr fun hm => by have := h.lt _ hm; omega
    have hi : initFreq.getD 256 0 = 1 := by rw [initFreq_getD, if_pos rfl]
    have hb := bumpAll_getD (f := initFreq) (l := syms) (fun s hs => by have := h.lt s hs; rw [initFreq_length]; omega) 256
    exact hb.trans (congrArg₂ (· + ·) hi hcnt)
  have := optimal_of h.good (pf := ⟨true, 8⟩) (Or.inr rfl) (h.made ⟨true, 8⟩ (Or.inr rfl)) h256 hcount hT (by
    intro v hv hf
    rw [hg v hv] at hf
    exact hval v (List.count_pos_iff.mp (Nat.pos_of_ne_zero hf)))
  rw [cost_count _ h.lt, cost_count _ h.lt]
  have hsum : ∀ g : Nat → Nat, (∑ v ∈ Finset.range 256, (bumpAll initFreq syms).getD v 0 * g v) = ∑ v ∈ Finset.range 256, syms.count v * g v := by
    intro g
    refine Finset.sum_congr rfl fun v hv => ?_
    rw [hg v (Finset.mem_range.mp hv)]
  rwa [hsum, hsum] at this

end Jpeg
