import Verif.Proofs.Optimal
import Verif.Props.Standard
import Verif.Props.Tables
import Verif.Props.Accuracy
/-! C46: optimised Huffman tables are optimal. -/
namespace Jpeg
open _root_.Spec

/-- C46, all symbol statistics: if the optimised table has no code word of 16 bits (so that the limit of the length did not matter), then
coding each symbol `v` as often as `freq` says takes at most 15 bits more than with any other table. (The 15 bits are the price for the code
word of ones only, which must not be used: it takes part in the construction with frequency 1.) -/
theorem C46_table {freq : List Nat} (h : Spec.Countable freq) {pf : Platform} (hpf : pf.Valid) {t : HuffmanTable}
    (ht : HuffmanTable.newOptimized pf (freq ++ [1]) = .ok t) (hshort : t.length.getD 15 0 = 0) {T : HuffTable} (hT : T.WellFormed)
    (hval : ∀ v, freq.getD v 0 ≠ 0 → v ∈ T.values) :
    (∑ v ∈ Finset.range 256, freq.getD v 0 * (HuffTable.mk t.length t.values).lengthOf v) ≤
      (∑ v ∈ Finset.range 256, freq.getD v 0 * T.lengthOf v) + 15 := by
  have hfr : ∀ v, v < 256 → (freq ++ [1]).getD v 0 = freq.getD v 0 := by
    intro v hv
    rw [List.getD_eq_getElem?_getD, List.getElem?_append_left (by rw [h.length]; exact hv), List.getD_eq_getElem?_getD]
  have h256 : (freq ++ [1]).getD 256 0 = 1 := by
    rw [List.getD_eq_getElem?_getD, List.getElem?_append_right (by rw [h.length]), h.length]
    rfl
  have key := optimal_of h.good hpf ht h256 hshort hT fun v hv hf => hval v (by rwa [hfr v hv] at hf)
  have hsum : ∀ g : Nat → Nat, (∑ v ∈ Finset.range 256, (freq ++ [1]).getD v 0 * g v) = ∑ v ∈ Finset.range 256, freq.getD v 0 * g v := by
    intro g
    refine Finset.sum_congr rfl fun v hv => ?_
    rw [hfr v (Finset.mem_range.mp hv)]
  rwa [hsum, hsum] at key

theorem OptTable.short {alphabet syms : List Nat} {t : HuffmanTable} (h : OptTable alphabet syms t) (hal : alphabet.length ≤ 15) :
    t.length.getD 15 0 = 0 := by
  obtain ⟨t', h1, -, -, -, h5, -⟩ := newOptimized_ok h.good
  have htt : t' = t := by
    have := h1 ⟨true, 8⟩ (Or.inr rfl)
    rw [h.made ⟨true, 8⟩ (Or.inr rfl)] at this
    exact (Except.ok.inj this).symm
  subst htt
  apply h5
  left
  refine le_trans (rootCount_le (S := 256 :: alphabet) ?_) (by rw [List.length_cons]; omega)
  intro v hv
  rw [bumpAll_getD (fun s hs => by have := h.lt s hs; rw [initFreq_length]; omega), initFreq_getD] at hv
  by_cases h256 : v = 256
  · simp [h256]
  · rw [if_neg h256, Nat.zero_add] at hv
    exact List.mem_cons_of_mem _ (h.sub v (List.count_pos_iff.mp (Nat.pos_of_ne_zero hv)))

/-- A table for few symbols has no codes of 16 bits. -/
theorem OptTable.short_of_few {alphabet syms : List Nat} {t : HuffmanTable} (h : OptTable alphabet syms t) (hf : syms.length ≤ 2582) : t.length.getD 15 0 = 0 := by
  obtain ⟨t', h1, -, -, -, h5, -⟩ := newOptimized_ok h.good
  have htt : t' = t := by
    have := h1 ⟨true, 8⟩ (Or.inr rfl)
    rw [h.made ⟨true, 8⟩ (Or.inr rfl)] at this
    exact (Except.ok.inj this).symm
  subst htt
  apply h5
  right
  rw [bumpAll_sum fun s hs => by have := h.lt s hs; rw [initFreq_length]; omega, initFreq_sum]
  omega

section
variable {pf : Platform} (hpf : pf.Valid) {q : UInt8} {calls : List Spec.Call} {e : Encoder} (hc : Configured pf q calls e) {simd : Bool}
  {p : Prog (R Unit)} {ct : JpegColorType} {w h : UInt16} {P : Nat → Nat → Nat → UInt8} (hp : Spec.EncodeCall pf simd e p ct w h P)
  (hs : Spec.Supported pf simd e ct w h P) (h8 : Spec.EightBit e.getQuantizationTables) {strict : Bool} (hst : ScansFine strict e)
include hpf hc hp hs h8 hst

/-- C46: the tables in a file with optimised tables. If there are no restarts, then for the symbols of the scans that use a DC table, no table takes over 15 bits
less than the one in the file. The same is true of the AC tables, unless there are codes of 16 bits, which takes more than 2582 symbols. -/
theorem C46_optimal_tables (ho : e.getOptimizedHuffmanTables = true) : Spec.Encodes p strict fun _ d => ∃ f, d.frame = some f ∧
    (NoRestarts d → ∀ sl T, d.dc sl = some T → ∀ T' : HuffTable, T'.WellFormed → (∀ v ∈ dcSymbolsOf d f sl, v ∈ T'.values) →
      T.cost (dcSymbolsOf d f sl) ≤ T'.cost (dcSymbolsOf d f sl) + 15) ∧
    ∀ sl T, d.ac sl = some T → (T.counts.getD 15 0 = 0 ∨ (acSymbolsOf d f sl).length ≤ 2582) → ∀ T' : HuffTable, T'.WellFormed → (∀ v ∈ acSymbolsOf d f sl, v ∈ T'.values) →
      T.cost (acSymbolsOf d f sl) ≤ T'.cost (acSymbolsOf d f sl) + 15 := by
  refine opt_tables hpf hc hp hs h8 hst ho fun _ d f hf hone hdc hac _ heq => ⟨f, hf, fun hn sl T hT T' hT' hv => ?_, fun sl T hT h16 T' hT' hv => ?_⟩
  · obtain ⟨t, rfl, ht⟩ := hdc sl T hT
    rw [heq hn] at *
    exact ht.optimal (ht.short (by decide)) hT' hv
  · obtain ⟨t, syms, rfl, hperm, ht⟩ := hac sl T hT
    have := ht.optimal (h16.elim id fun h => ht.short_of_few (hperm.length_eq.trans_le h)) hT' fun v hm => hv v (hperm.mem_iff.mp hm)
    unfold HuffTable.cost at this ⊢
    rwa [(hperm.map _).sum_eq, (hperm.map _).sum_eq] at this

/-- C46: in particular the tables in the file are at most 15 bits worse than the standard tables, which are used without optimisation. -/
theorem C46_not_worse_than_standard (ho : e.getOptimizedHuffmanTables = true) : Spec.Encodes p strict fun _ d => ∃ f, d.frame = some f ∧
    (NoRestarts d → ∀ sl T, d.dc sl = some T → ∀ T' ∈ [tableK3, tableK4], T.cost (dcSymbolsOf d f sl) ≤ T'.cost (dcSymbolsOf d f sl) + 15) ∧
    ∀ sl T, d.ac sl = some T → (T.counts.getD 15 0 = 0 ∨ (acSymbolsOf d f sl).length ≤ 2582) → ∀ T' ∈ [tableK5, tableK6], T.cost (acSymbolsOf d f sl) ≤ T'.cost (acSymbolsOf d f sl) + 15 := by
  have hk : (∀ T' ∈ [tableK3, tableK4], T'.WellFormed ∧ ∀ v ∈ Jpeg.dcSymbols, v ∈ T'.values) ∧
      ∀ T' ∈ [tableK5, tableK6], T'.WellFormed ∧ ∀ v ∈ Jpeg.acSymbols, v ∈ T'.values := by decide +kernel
  refine opt_tables hpf hc hp hs h8 hst ho fun _ d f hf hone hdc hac _ heq => ⟨f, hf, fun hn sl T hT T' hT' => ?_, fun sl T hT h16 T' hT' => ?_⟩
  · obtain ⟨t, rfl, ht⟩ := hdc sl T hT
    rw [heq hn] at *
    exact ht.optimal (ht.short (by decide)) (hk.1 T' hT').1 fun v hv => (hk.1 T' hT').2 v (ht.sub v hv)
  · obtain ⟨t, syms, rfl, hperm, ht⟩ := hac sl T hT
    have := ht.optimal (h16.elim id fun h => ht.short_of_few (hperm.length_eq.trans_le h)) (hk.2 T' hT').1 fun v hm => (hk.2 T' hT').2 v (ht.sub v hm)
    unfold HuffTable.cost at this ⊢
    rwa [(hperm.map _).sum_eq, (hperm.map _).sum_eq] at this

/-- C46: AC codes of 16 bits, the only ones whose length may have been limited, take more than 2582 symbols. -/
theorem C46_few_symbols (ho : e.getOptimizedHuffmanTables = true) : Spec.Encodes p strict fun _ d => ∃ f, d.frame = some f ∧
    ∀ sl T, d.ac sl = some T → (acSymbolsOf d f sl).length ≤ 2582 → T.counts.getD 15 0 = 0 := by
  refine opt_tables hpf hc hp hs h8 hst ho fun _ d f hf hone hdc hac _ heq => ⟨f, hf, fun sl T hT hfew => ?_⟩
  obtain ⟨t, syms, rfl, hperm, ht⟩ := hac sl T hT
  exact ht.short_of_few (hperm.length_eq.trans_le hfew)

/-- C46: in particular images with at most 40 blocks per table have no such codes. -/
theorem C46_small_images (ho : e.getOptimizedHuffmanTables = true) (hb : ∀ t, Spec.codedBlocks (Spec.frameOf e ct w h) t ≤ 40) : Spec.Encodes p strict fun _ d =>
    ∀ sl T, d.ac sl = some T → T.counts.getD 15 0 = 0 := by
  refine ((C46_few_symbols hpf hc hp hs h8 hst ho).and (encodes_of hpf hc hp hs h8 hst (Q := fun _ d => ∀ f, d.frame = some f → ∀ sl, (acSymbolsOf d f sl).length ≤ 2582)
    fun image t hct hw hh hwk => ?_)).mono fun _ d ⟨⟨f, hf, h1⟩, h2⟩ sl T hT => h1 sl T hT (h2 f hf sl)
  subst hct hw hh
  intro f hf sl
  cases hf
  rw [← (acSymbols_decoded (opOk_for simd) hc.wf P hs.width hs.height ho t sl).length_eq, ← acCounted_eq (opOk_for simd) hc.wf P hs.width hs.height]
  have h1 := acCounted_length hc.wf.scans (mkFrame e.mode.isProg image.width image.height (initComponents e.samplingFactor image.colorType)) (e.coefs (dctFn simd) image P) sl
  have h2 := hb sl
  rw [frameOf_eq] at h2
  omega

end

/-! ### Concrete cases -/

-- statistics, the table made for them and another table
example : ∃ t, Spec.Countable ([10, 1, 0, 5] ++ List.replicate 252 0) ∧
    HuffmanTable.newOptimized ⟨true, 8⟩ ([10, 1, 0, 5] ++ List.replicate 252 0 ++ [1]) = .ok t ∧ t.length.getD 15 0 = 0 ∧
    HuffTable.WellFormed ⟨[0, 3] ++ List.replicate 14 0, [0, 1, 3]⟩ ∧
    (HuffTable.mk t.length t.values).cost (List.replicate 10 0 ++ [1] ++ List.replicate 5 3) = 23 ∧
    (HuffTable.mk ([0, 3] ++ List.replicate 14 0) [0, 1, 3]).cost (List.replicate 10 0 ++ [1] ++ List.replicate 5 3) = 32 := by
  have hr : ((HuffmanTable.newOptimized ⟨true, 8⟩ ([10, 1, 0, 5] ++ List.replicate 252 0 ++ [1])).toOption.map fun t =>
      (t.length.getD 15 0, (HuffTable.mk t.length t.values).cost (List.replicate 10 0 ++ [1] ++ List.replicate 5 3))) = some (0, 23) := by decide +kernel
  cases hn : HuffmanTable.newOptimized ⟨true, 8⟩ ([10, 1, 0, 5] ++ List.replicate 252 0 ++ [1]) with
  | error f => rw [hn] at hr; simp [Except.toOption] at hr
  | ok t =>
    rw [hn] at hr
    simp only [Except.toOption, Option.map_some, Option.some.injEq, Prod.mk.injEq] at hr
    exact ⟨t, ⟨by decide +kernel, ⟨1, by decide +kernel, by decide⟩, by decide +kernel, Or.inl (by decide +kernel)⟩, rfl, hr.1, by decide +kernel, hr.2, by decide +kernel⟩

end Jpeg
