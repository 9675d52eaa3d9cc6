import Verif.Spec.Entropy
import Verif.Props.Optimal
import Mathlib.Analysis.SpecialFunctions.Log.Deriv
import Mathlib.Analysis.Complex.ExponentialBounds
/-! C100: optimised Huffman tables come close to the entropy. -/
namespace Jpeg
open _root_.Spec

theorem information_sum (syms : List Nat) : information syms = ∑ v ∈ syms.toFinset, (syms.count v : ℝ) * Real.logb 2 (syms.length / syms.count v) := by
  rw [information, Finset.sum_list_map_count]
  simp only [nsmul_eq_mul]

theorem cost_sum (T : HuffTable) (syms : List Nat) : T.cost syms = ∑ v ∈ syms.toFinset, syms.count v * T.lengthOf v := by
  rw [HuffTable.cost, Finset.sum_list_map_count]
  simp only [smul_eq_mul]

theorem count_pos {syms : List Nat} {v : Nat} (hv : v ∈ syms.toFinset) : (0 : ℝ) < syms.count v := by
  exact_mod_cast List.count_pos_iff.mpr (List.mem_toFinset.mp hv)

theorem sum_count (syms : List Nat) : ∑ v ∈ syms.toFinset, (syms.count v : ℝ) = syms.length := by
  exact_mod_cast List.sum_toFinset_count_eq_length syms

/-- No code takes less than the information (Gibbs' inequality). -/
theorem gibbs (syms : List Nat) (l : Nat → Nat) (hk : (∑ v ∈ syms.toFinset, (1 / 2 : ℝ) ^ l v) ≤ 1) :
    information syms ≤ ∑ v ∈ syms.toFinset, (syms.count v : ℝ) * l v := by
  have h2 : 0 < Real.log 2 := Real.log_pos (by norm_num)
  rw [information_sum, ← sub_nonpos, ← Finset.sum_sub_distrib]
  have key : ∀ v ∈ syms.toFinset, ((syms.count v : ℝ) * Real.logb 2 (syms.length / syms.count v) - (syms.count v : ℝ) * l v) * Real.log 2 ≤
      syms.length * (1 / 2 : ℝ) ^ l v - syms.count v := by
    intro v hv
    have hc := count_pos hv
    have hn : (0 : ℝ) < syms.length := by
      have := List.length_pos_of_mem (List.mem_toFinset.mp hv)
      exact_mod_cast this
    have hx : 0 < syms.length / syms.count v * (1 / 2 : ℝ) ^ l v := by positivity
    have h := mul_le_mul_of_nonneg_left (Real.log_le_sub_one_of_pos hx) hc.le
    rw [Real.log_mul (by positivity) (by positivity), Real.log_pow, one_div, Real.log_inv] at h
    rw [Real.logb]
    have e : (syms.count v : ℝ) * (syms.length / syms.count v * (2⁻¹ : ℝ) ^ l v - 1) = syms.length * (1 / 2 : ℝ) ^ l v - syms.count v := by
      rw [one_div]; field_simp
    rw [e] at h
    refine le_trans (le_of_eq ?_) h
    field_simp
    ring
  have hs := Finset.sum_le_sum key
  have e1 : (∑ v ∈ syms.toFinset, ((syms.length : ℝ) * (1 / 2 : ℝ) ^ l v - syms.count v)) = syms.length * (∑ v ∈ syms.toFinset, (1 / 2 : ℝ) ^ l v) - syms.length := by
    rw [Finset.sum_sub_distrib, ← Finset.mul_sum, sum_count]
  rw [← Finset.sum_mul, e1] at hs
  have h0 : (0 : ℝ) ≤ syms.length := Nat.cast_nonneg _
  have h1 : (syms.length : ℝ) * ∑ v ∈ syms.toFinset, (1 / 2 : ℝ) ^ l v ≤ syms.length := by
    have := mul_le_mul_of_nonneg_left hk h0
    linarith
  by_contra hc
  have := mul_pos (lt_of_not_ge hc) h2
  linarith

/-- C100, all tables and symbols: no table codes symbols with fewer bits than their information. -/
theorem C100_least {T : HuffTable} (hT : T.WellFormed) {syms : List Nat} (hv : ∀ v ∈ syms, v ∈ T.values) : information syms ≤ T.cost syms := by
  have hk : (∑ v ∈ syms.toFinset, (1 / 2 : ℚ) ^ T.lengthOf v) ≤ 1 := by
    have h1 := sum_subset_nodup hT.values_nodup (S := syms.toFinset) (fun v h => hv v (List.mem_toFinset.mp h)) (fun v => (1 / 2 : ℚ) ^ T.lengthOf v) fun v => by positivity
    have h2 := kraft_lengthOf hT
    have h3 : (0 : ℚ) < (1 / 2) ^ 16 := by positivity
    linarith
  have hk : (∑ v ∈ syms.toFinset, (1 / 2 : ℝ) ^ T.lengthOf v) ≤ 1 := by
    have : ((∑ v ∈ syms.toFinset, (1 / 2 : ℚ) ^ T.lengthOf v : ℚ) : ℝ) ≤ 1 := by exact_mod_cast hk
    push_cast at this
    exact this
  refine (gibbs syms _ hk).trans (le_of_eq ?_)
  rw [cost_sum]
  push_cast
  rfl

/-- The lengths of Shannon's code. -/
noncomputable def shannon (n f : Nat) : Nat := ⌈Real.logb 2 ((n + 1) / f)⌉₊

theorem shannon_pow {n f : Nat} (hf : 0 < f) : (1 / 2 : ℝ) ^ shannon n f ≤ f / (n + 1) := by
  have h0 : (0 : ℝ) < f := by exact_mod_cast hf
  have hy : (0 : ℝ) < (n + 1) / f := by positivity
  have h1 : ((n : ℝ) + 1) / f ≤ (2 : ℝ) ^ shannon n f := by
    have h := Real.rpow_le_rpow_of_exponent_le (show (1 : ℝ) ≤ 2 by norm_num) (Nat.le_ceil (Real.logb 2 ((n + 1) / f)))
    rwa [Real.rpow_logb (by norm_num) (by norm_num) hy, Real.rpow_natCast] at h
  rw [one_div, inv_pow, ← inv_div]
  exact inv_anti₀ hy h1

theorem shannon_le {n f : Nat} (hf : 0 < f) (hfn : f ≤ n + 1) : (shannon n f : ℝ) ≤ Real.logb 2 ((n + 1) / f) + 1 := by
  have h0 : (0 : ℝ) < f := by exact_mod_cast hf
  have h1 : (f : ℝ) ≤ n + 1 := by exact_mod_cast hfn
  exact (Nat.ceil_lt_add_one (Real.logb_nonneg (by norm_num) ((one_le_div h0).mpr h1))).le

theorem log_succ {n : Nat} (hn : 0 < n) : (n : ℝ) * Real.logb 2 ((n + 1) / n) ≤ 1.45 := by
  have h0 : (0 : ℝ) < n := by exact_mod_cast hn
  have h2 := Real.log_two_gt_d9
  have h1 := mul_le_mul_of_nonneg_left (Real.log_le_sub_one_of_pos (show (0 : ℝ) < (n + 1) / n by positivity)) h0.le
  rw [Real.logb, ← mul_div_assoc, div_le_iff₀ (by linarith)]
  have e : (n : ℝ) * ((n + 1) / n - 1) = 1 := by field_simp; ring
  rw [e] at h1
  linarith

theorem OptTable.near_entropy {alphabet syms : List Nat} {t : HuffmanTable} (h : OptTable alphabet syms t) (hcount : t.length.getD 15 0 = 0) :
    (t.spec.cost syms : ℝ) ≤ information syms + syms.length + Real.logb 2 (syms.length + 1) + 1.45 := by
  have hg : ∀ v, (bumpAll initFreq syms).getD v 0 = (if v = 256 then 1 else 0) + syms.count v := by
    intro v
    have hb := bumpAll_getD (f := initFreq) (l := syms) (fun s hs => by have := h.lt s hs; rw [initFreq_length]; omega) v
    rw [hb, initFreq_getD]
  have hcnt : syms.count 256 = 0 := List.count_eq_zero.mpr fun hm => by have := h.lt _ hm; omega
  have hnot : (256 : Nat) ∉ syms.toFinset := fun hm => by have := h.lt _ (List.mem_toFinset.mp hm); omega
  have hroot : rootSet (bumpAll initFreq syms) = insert 256 syms.toFinset := by
    ext v
    rw [mem_rootSet h.good.length, hg, Finset.mem_insert, List.mem_toFinset, ← List.count_pos_iff]
    by_cases hv : v = 256
    · simp [hv]
    · simp only [hv, if_false, false_or]; omega
  obtain ⟨t', h1, h2, -, h4, -, h5⟩ := newOptimized_ok h.good
  have htt : t' = t := by
    have := h1 ⟨true, 8⟩ (Or.inr rfl)
    rw [h.made ⟨true, 8⟩ (Or.inr rfl)] at this
    exact (Except.ok.inj this).symm
  subst htt
  have key := h5 hcount (fun v => if v = 256 then shannon syms.length 1 else shannon syms.length (syms.count v)) ?_
  · have hwf := h2.wf
    have e2 : zipCost (fun v => (bumpAll initFreq syms).getD v 0) t'.values (expandSizes t'.length 1) = t'.spec.cost syms := by
      have hm := map_lengthOf hwf
      rw [show expandSizes t'.length 1 = t'.values.map t'.spec.lengthOf from hm.symm, zipCost_map, cost_sum,
        ← List.sum_toFinset _ (show t'.values.Nodup from hwf.values_nodup)]
      refine Finset.sum_congr ?_ fun v hv => ?_
      · ext v
        rw [List.mem_toFinset, List.mem_toFinset, h.mem]
      · rw [hg, if_neg, Nat.zero_add]
        rintro rfl
        exact hnot hv
    rw [e2, hroot, Finset.sum_insert hnot, hg, if_pos rfl, hcnt, Nat.add_zero, Nat.one_mul] at key
    simp only [if_true] at key
    have e3 : (∑ v ∈ syms.toFinset, (bumpAll initFreq syms).getD v 0 * (if v = 256 then shannon syms.length 1 else shannon syms.length (syms.count v))) =
        ∑ v ∈ syms.toFinset, syms.count v * shannon syms.length (syms.count v) := by
      refine Finset.sum_congr rfl fun v hv => ?_
      have : v ≠ 256 := by rintro rfl; exact hnot hv
      rw [hg, if_neg this, if_neg this, Nat.zero_add]
    rw [e3] at key
    have key : (t'.spec.cost syms : ℝ) + 1 ≤ shannon syms.length 1 + ∑ v ∈ syms.toFinset, (syms.count v : ℝ) * shannon syms.length (syms.count v) := by
      exact_mod_cast key
    have hs1 := shannon_le (n := syms.length) (f := 1) Nat.one_pos (by omega)
    rw [Nat.cast_one, div_one] at hs1
    have hsum : (∑ v ∈ syms.toFinset, (syms.count v : ℝ) * shannon syms.length (syms.count v)) ≤ information syms + syms.length + 1.45 := by
      have hstep : ∀ v ∈ syms.toFinset, (syms.count v : ℝ) * shannon syms.length (syms.count v) ≤
          syms.count v * Real.logb 2 (syms.length / syms.count v) + syms.count v * Real.logb 2 ((syms.length + 1) / syms.length) + syms.count v := by
        intro v hv
        have hc := count_pos hv
        have hl := List.length_pos_of_mem (List.mem_toFinset.mp hv)
        have hn : (0 : ℝ) < syms.length := by exact_mod_cast hl
        have hle : syms.count v ≤ syms.length := List.count_le_length
        have h1 := mul_le_mul_of_nonneg_left (shannon_le (n := syms.length) (f := syms.count v) (by exact_mod_cast hc) (by omega)) hc.le
        have e : ((syms.length : ℝ) + 1) / syms.count v = syms.length / syms.count v * ((syms.length + 1) / syms.length) := by field_simp
        rw [e, Real.logb_mul (by positivity) (by positivity)] at h1
        linarith
      refine (Finset.sum_le_sum hstep).trans ?_
      rw [Finset.sum_add_distrib, Finset.sum_add_distrib, ← Finset.sum_mul, sum_count, ← information_sum]
      rcases Nat.eq_zero_or_pos syms.length with h0 | h0
      · rw [h0]; simp; norm_num
      · have := log_succ h0
        linarith
    linarith
  · rw [hroot, Finset.sum_insert hnot, if_pos rfl]
    have h1 := shannon_pow (n := syms.length) (f := 1) Nat.one_pos
    have h2 : (∑ v ∈ syms.toFinset, (1 / 2 : ℝ) ^ (if v = 256 then shannon syms.length 1 else shannon syms.length (syms.count v))) ≤
        ∑ v ∈ syms.toFinset, (syms.count v : ℝ) / (syms.length + 1) := by
      refine Finset.sum_le_sum fun v hv => ?_
      rw [if_neg (by rintro rfl; exact hnot hv)]
      exact shannon_pow (by exact_mod_cast count_pos hv)
    rw [← Finset.sum_div, sum_count] at h2
    have h3 : (1 / 2 : ℝ) ^ shannon syms.length 1 + ∑ v ∈ syms.toFinset, (1 / 2 : ℝ) ^ (if v = 256 then shannon syms.length 1 else shannon syms.length (syms.count v)) ≤ 1 := by
      refine (add_le_add h1 h2).trans (le_of_eq ?_)
      rw [Nat.cast_one, ← add_div, div_eq_one_iff_eq (by positivity), add_comm]
    have h4 : (((1 / 2 : ℚ) ^ shannon syms.length 1 + ∑ v ∈ syms.toFinset, (1 / 2 : ℚ) ^ (if v = 256 then shannon syms.length 1 else shannon syms.length (syms.count v)) : ℚ) : ℝ) ≤ 1 := by
      push_cast
      exact h3
    exact_mod_cast h4

section
variable {pf : Platform} (hpf : pf.Valid) {q : UInt8} {calls : List Spec.Call} {e : Encoder} (hc : Configured pf q calls e) {simd : Bool}
  {p : Prog (R Unit)} {ct : JpegColorType} {w h : UInt16} {P : Nat → Nat → Nat → UInt8} (hp : Spec.EncodeCall pf simd e p ct w h P)
  (hs : Spec.Supported pf simd e ct w h P) (h8 : Spec.EightBit e.getQuantizationTables) {strict : Bool} (hst : ScansFine strict e)
include hpf hc hp hs h8 hst

/-- C100: the tables in a file with optimised tables take at least the information of the symbols they code, and at most a bit more per symbol
(and some more for the reserved code word). The latter is true under the conditions of C46. -/
theorem C100_optimised (ho : e.getOptimizedHuffmanTables = true) : Spec.Encodes p strict fun _ d => ∃ f, d.frame = some f ∧
    (∀ sl T, d.dc sl = some T → information (dcSymbolsOf d f sl) ≤ T.cost (dcSymbolsOf d f sl) ∧
      (NoRestarts d → (T.cost (dcSymbolsOf d f sl) : ℝ) ≤
        information (dcSymbolsOf d f sl) + (dcSymbolsOf d f sl).length + Real.logb 2 ((dcSymbolsOf d f sl).length + 1) + 1.45)) ∧
    ∀ sl T, d.ac sl = some T → information (acSymbolsOf d f sl) ≤ T.cost (acSymbolsOf d f sl) ∧
      ((T.counts.getD 15 0 = 0 ∨ (acSymbolsOf d f sl).length ≤ 2582) → (T.cost (acSymbolsOf d f sl) : ℝ) ≤
        information (acSymbolsOf d f sl) + (acSymbolsOf d f sl).length + Real.logb 2 ((acSymbolsOf d f sl).length + 1) + 1.45) := by
  refine opt_tables hpf hc hp hs h8 hst ho fun _ d f hf hone hdc hac hmem heq => ⟨f, hf, fun sl T hT => ⟨?_, fun hn => ?_⟩, fun sl T hT => ⟨?_, fun h16 => ?_⟩⟩
  · obtain ⟨t, rfl, ht⟩ := hdc sl T hT
    exact C100_least ht.file.ok.wf fun v hv => (ht.mem v).mpr (hmem sl v hv)
  · obtain ⟨t, rfl, ht⟩ := hdc sl T hT
    rw [heq hn] at *
    exact ht.near_entropy (ht.short (by decide))
  · obtain ⟨t, syms, rfl, hperm, ht⟩ := hac sl T hT
    exact C100_least ht.file.ok.wf fun v hv => (ht.mem v).mpr (hperm.mem_iff.mpr hv)
  · obtain ⟨t, syms, rfl, hperm, ht⟩ := hac sl T hT
    have := ht.near_entropy (h16.elim id fun h => ht.short_of_few (hperm.length_eq.trans_le h))
    have e1 : t.spec.cost syms = t.spec.cost (acSymbolsOf d f sl) := by
      unfold HuffTable.cost
      exact (hperm.map _).sum_eq
    have e2 : information syms = information (acSymbolsOf d f sl) := by
      have e3 : ∀ v, syms.count v = (acSymbolsOf d f sl).count v := fun v => hperm.count_eq v
      unfold information
      simp only [e3, hperm.length_eq]
      exact (hperm.map _).sum_eq
    rwa [e1, e2, hperm.length_eq] at this
end

-- two tables that fulfil the hypotheses of C100_least; the first one reaches the information of its symbols
example : HuffTable.WellFormed ⟨[1, 1, 1] ++ List.replicate 13 0, [0, 1, 2]⟩ ∧ HuffTable.cost ⟨[1, 1, 1] ++ List.replicate 13 0, [0, 1, 2]⟩ [0, 0, 1, 0] = 5 := by decide +kernel
example : HuffTable.cost ⟨[1, 1, 0] ++ List.replicate 13 0, [0, 1]⟩ [0, 0, 0, 0] = 4 ∧ information [0, 0, 0, 0] = 0 := by
  refine ⟨by decide +kernel, by simp [information]⟩
-- an optimised encode that fulfils the hypotheses of C100_optimised: the largest RGB image of a single colour
example (P : Nat → Nat → Nat → UInt8) (hu : Spec.Uniform .ycbcr 65535 65535 P) (simd : Bool) :
    ∃ e, Configured ⟨true, 8⟩ 80 [.setOptimizedHuffmanTables true] e ∧ Spec.Supported ⟨true, 8⟩ simd e .ycbcr 65535 65535 P ∧
      Spec.EightBit e.getQuantizationTables ∧ ScansFine true e ∧ e.getOptimizedHuffmanTables = true ∧ e.getRestartInterval = none := by
  obtain ⟨e, h1, h2⟩ := reachable_exists ⟨true, 8⟩ 80 [.setOptimizedHuffmanTables true] (by decide)
  have hf : Spec.frameOf e .ycbcr 65535 65535 = ⟨false, 65535, 65535, Spec.expectedComps 2 2 .ycbcr⟩ := by
    rw [Spec.frameOf, h2.scans, h2.sampling]; rfl
  have hn : Spec.acScanCount e = 1 := by rw [Spec.acScanCount, h2.scans]; rfl
  have hq : e.getQuantizationTables = (.default, .default) := by
    rw [h2.quant]; rfl
  refine ⟨e, h1, ⟨by decide, by decide, Or.inl rfl, Or.inr (hu.canOptimize h1.wf (by decide) (by decide) ?_)⟩, ?_, ?_, by rw [h2.optimized]; rfl, by rw [h2.restart]; rfl⟩
  · rw [hf, hn]
    intro t
    match t with
    | 0 => decide
    | 1 => decide
    | t + 2 => show 1 * Spec.codedBlocks ⟨false, 65535, 65535, Spec.expectedComps 2 2 .ycbcr⟩ (t + 2) < 4294967295; simp [Spec.codedBlocks, Spec.expectedComps]
  · intro t ht; rw [hq] at ht; rcases ht with h | h <;> cases h
  · intro _ n hn
    rw [h2.scans] at hn; cases hn

end Jpeg
