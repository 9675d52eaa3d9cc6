import Verif.Proofs.Congr
import Verif.Proofs.Symbols
import Verif.Proofs.Flat
import Verif.Props.File
import Verif.Props.Witness10
/-! C08 - C11: Huffman tables made for the image. -/
namespace Jpeg
open _root_.Spec

/-! ### C08, C11: all symbol statistics -/

/-- Statistics of the 256 symbols for which tables are claimed to be found: at least one symbol is in use, at least two are not, and
either the total is less than `fib 35 - 1`, or it fits into the counters (`u32`) and there are at most 32 symbols or no best code for the symbols and a
reserved code point has more than 32 bits. -/
structure Spec.Countable (freq : List Nat) : Prop where
  length : freq.length = 256
  used : ∃ n ∈ freq, n ≠ 0
  unused : 2 ≤ freq.count 0
  total : freq.sum < 9227464 ∨ (freq.sum < 4294967295 ∧ (freq.countP (· ≠ 0) ≤ 32 ∨
    Spec.ShortCodes ((Finset.range 257).filter fun s => (freq ++ [1]).getD s 0 ≠ 0) fun s => (freq ++ [1]).getD s 0))

theorem Spec.Countable.good {freq : List Nat} (h : Spec.Countable freq) : GoodFreq (freq ++ [1]) where
  length := by rw [List.length_append, h.length]; rfl
  reserved := by
    rw [List.getD_eq_getElem?_getD, List.getElem?_append_right (by rw [h.length]), h.length]
    decide
  some_used := by
    obtain ⟨n, hn, h0⟩ := h.used
    obtain ⟨i, hi, rfl⟩ := List.getElem_of_mem hn
    refine ⟨i, by rw [← h.length]; exact hi, ?_⟩
    rw [List.getD_eq_getElem?_getD, List.getElem?_append_left hi, List.getElem?_eq_getElem hi]
    exact h0
  few := by
    unfold rootCount
    rw [List.countP_append]
    have h1 := List.length_eq_countP_add_countP (fun f : Nat => decide (f ≠ 0)) (l := freq)
    have h2 : freq.countP (fun a => decide ¬ (decide (a ≠ 0)) = true) = freq.count 0 := by
      rw [List.count_eq_countP]
      refine List.countP_congr fun a _ => ?_
      simp
    rw [h2, h.length] at h1
    have := h.unused
    have h3 : [1].countP (fun f : Nat => decide (f ≠ 0)) = 1 := by decide
    omega
  total := by
    have := h.total
    rw [List.sum_append, List.sum_singleton]
    unfold rootCount
    rw [List.countP_append, show [1].countP (fun f : Nat => decide (f ≠ 0)) = 1 by decide]
    rcases this with h | ⟨h, h'⟩
    · left; omega
    · exact Or.inr ⟨by omega, h'.imp (fun h => by omega) Or.inl⟩

/-- C11: building a table never panics, overflows or loops, whatever the statistics are (within the bounds); the result is the same on all
platforms. C08: the table is a valid prefix code of the symbols that occur: lengths 1..16, no code word begins another or is all ones; and
`get_for_value` returns the length and the code that Annex C assigns to the value. -/
theorem C08_C11_optimized_table {freq : List Nat} (h : Spec.Countable freq) :
    ∃ (t : HuffmanTable) (T : HuffTable), T = ⟨t.length, t.values⟩ ∧
      (∀ pf : Platform, pf.Valid → HuffmanTable.newOptimized pf (freq ++ [1]) = .ok t) ∧
      T.counts.length = 16 ∧ T.values.length = T.counts.sum ∧ T.values.Nodup ∧ T.codeWords.length = T.values.length ∧
      (∀ c ∈ T.codeWords, 1 ≤ c.length ∧ c.length ≤ 16 ∧ false ∈ c) ∧
      (T.codeWords.Pairwise fun a b => ¬ a <+: b ∧ ¬ b <+: a) ∧
      (∀ v, v ∈ T.values ↔ v < 256 ∧ freq.getD v 0 ≠ 0) ∧
      ∀ (pf : Platform) (v : Nat), freq.getD v 0 ≠ 0 →
        ∃ size code, t.getForValue pf v = .ok (size, code) ∧ (toBits size code, v) ∈ T.codes := by
  obtain ⟨t, h1, h2, h3, h4, -⟩ := newOptimized_ok h.good
  have hwf := h2.wf
  have hfr : ∀ v, v < 256 → (freq ++ [1]).getD v 0 = freq.getD v 0 := by
    intro v hv
    rw [List.getD_eq_getElem?_getD, List.getElem?_append_left (by rw [h.length]; exact hv), List.getD_eq_getElem?_getD]
  have hv' : ∀ v, v ∈ t.values ↔ v < 256 ∧ freq.getD v 0 ≠ 0 := by
    intro v
    rw [h4]
    exact ⟨fun ⟨a, b⟩ => ⟨a, hfr v a ▸ b⟩, fun ⟨a, b⟩ => ⟨a, (hfr v a).symm ▸ b⟩⟩
  refine ⟨t, _, rfl, h1, hwf.counts_len, hwf.values_len, hwf.values_nodup, hwf.codeWords_length, ?_, hwf.prefixFree, hv', ?_⟩
  · intro c hcm
    simp only [HuffTable.codeWords, List.mem_map] at hcm
    obtain ⟨lc, hlc, rfl⟩ := hcm
    obtain ⟨h1, h2, h3⟩ := hwf.code_bounds lc hlc
    rw [toBits_length]
    exact ⟨h1, h2, false_mem_toBits h3⟩
  · intro pf v hf
    have hlt : v < 256 := by have := lt_of_getD_ne hf; rw [h.length] at this; exact this
    have hm := (hv' v).mpr ⟨hlt, hf⟩
    obtain ⟨j, hj, hjv⟩ := List.getElem_of_mem hm
    have hjv' : t.values[j]? = some v := by rw [List.getElem?_eq_getElem hj, hjv]
    have hlk := h2.code j v hjv'
    have hlen := hwf.codeWords_length
    rw [HuffTable.codeWords, List.length_map] at hlen
    dsimp only at hlen
    have hjl : j < (assignCodes t.length 1 0).length := by rw [hlen]; exact hj
    rw [List.getElem?_eq_getElem hjl] at hlk
    have hmem := List.getElem_mem hjl
    obtain ⟨b1, -, -⟩ := hwf.code_bounds _ hmem
    refine ⟨((assignCodes t.length 1 0)[j]'hjl).1, ((assignCodes t.length 1 0)[j]'hjl).2, ?_, ?_⟩
    · unfold HuffmanTable.getForValue
      have hi : idx t.lookup v = .ok ((assignCodes t.length 1 0)[j]'hjl) := by
        unfold idx
        rw [hlk]
      rw [hi, ok_bind, show decide (((assignCodes t.length 1 0)[j]'hjl).1 > 0) = true from decide_eq_true b1]
      simp [debugAssert, ok_bind]
    · unfold HuffTable.codes HuffTable.codeWords
      refine List.mem_iff_getElem?.mpr ⟨j, ?_⟩
      rw [List.getElem?_zip_eq_some]
      refine ⟨?_, hjv'⟩
      rw [List.getElem?_map, List.getElem?_eq_getElem hjl]
      rfl

/-- `n` numbers of the Fibonacci sequence that starts with `a`, `b`, the last one first. -/
def Spec.fibs : (n a b : Nat) → List Nat
  | 0, _, _ => []
  | n + 1, a, b => Spec.fibs n b (a + b) ++ [a]

/-- C11, the bound on the total is needed: with 33 symbols and a total of exactly 9227464 there is a code size of 33, and an index panic on
every platform. -/
theorem C11_false : (Spec.fibs 33 1 1 ++ List.replicate 223 0).sum = 9227464 ∧ ∀ pf : Platform, pf.Valid →
    HuffmanTable.newOptimized pf (Spec.fibs 33 1 1 ++ List.replicate 223 0 ++ [1]) = .error (.panic .index) := by
  refine ⟨by decide +kernel, ?_⟩
  rintro ⟨b, n⟩ (h | h) <;> simp only at h <;> subst h <;> cases b <;> decide +kernel

-- statistics within the bounds, with codes that are too long before `limitLoop`
example : Spec.Countable (Spec.fibs 25 1 1 ++ List.replicate 231 0) :=
  ⟨by decide +kernel, ⟨1, by decide +kernel, by decide⟩, by decide +kernel, Or.inl (by decide +kernel)⟩

-- few symbols, but many of them
example : Spec.Countable ([1000000000, 2000000000, 3] ++ List.replicate 253 0) :=
  ⟨by decide +kernel, ⟨3, by decide +kernel, by decide⟩, by decide +kernel, Or.inr ⟨by decide +kernel, Or.inl (by decide +kernel)⟩⟩

/-! ### C09 -/

section
variable {pf : Platform} (hpf : pf.Valid) {q : UInt8} {calls : List Spec.Call} {e : Encoder} (hc : Configured pf q calls e) {simd : Bool}
  {p : Prog (R Unit)} {ct : JpegColorType} {w h : UInt16} {P : Nat → Nat → Nat → UInt8} (hp : Spec.EncodeCall pf simd e p ct w h P)
  (hs : Spec.Supported pf simd e ct w h P) (h8 : Spec.EightBit e.getQuantizationTables) {strict : Bool} (hst : ScansFine strict e)
include hpf hc hp hs h8 hst

/-- What is known about the tables of a file with optimised tables. -/
theorem opt_tables (ho : e.getOptimizedHuffmanTables = true) {Q : Bytes → Dec → Prop}
    (hQ : ∀ bytes d f, d.frame = some f → (∀ s ∈ d.scans, s.scan.comps.length = 1) → (∀ sl T, d.dc sl = some T → ∃ t, T = t.spec ∧ OptTable Jpeg.dcSymbols (dcSymbolsUninterrupted d f sl) t) →
      (∀ sl T, d.ac sl = some T → ∃ t syms, T = t.spec ∧ syms.Perm (acSymbolsOf d f sl) ∧ OptTable Jpeg.acSymbols syms t) →
      (∀ sl, ∀ v ∈ dcSymbolsOf d f sl, v ∈ dcSymbolsUninterrupted d f sl) → (NoRestarts d → ∀ sl, dcSymbolsOf d f sl = dcSymbolsUninterrupted d f sl) → Q bytes d) : Spec.Encodes p strict Q := by
  have hos : e.optimizeHuffmanTable = true := ho
  have hcan : Spec.CanOptimize pf simd e ct w h P := by
    rcases hs.tables with h | h
    · rw [ho] at h; cases h
    · exact h
  refine encodes_of hpf hc hp hs h8 hst fun image t hct hw hh hwk => ?_
  subst hct hw hh
  obtain ⟨t', h1, -, h3⟩ := codable_optimized (opOk_for simd) hc.wf P hs.width hs.height hos (hcan.restartSymbols hc.wf) (hcan.size.counts hc.wf hs.width hs.height)
  have htt : t' = t := by
    have e1 := h1 pf hpf
    rw [hwk.opt pf hpf] at e1
    have e2 := Except.ok.inj e1
    have e3 := congrArg Encoder.huffmanTables e2
    exact e3.symm
  subst htt
  have key : ∀ c ∈ initComponents e.samplingFactor image.colorType,
      OptTable Jpeg.dcSymbols (dcSymbolsUninterrupted (e.decoded (dctFn simd) image P t') (mkFrame e.mode.isProg image.width image.height (initComponents e.samplingFactor image.colorType))
        c.dcHuffmanTable) (tabOf t' c.dcHuffmanTable).dc ∧ ∃ syms, syms.Perm (acSymbolsOf (e.decoded (dctFn simd) image P t') (mkFrame e.mode.isProg image.width image.height
          (initComponents e.samplingFactor image.colorType)) c.acHuffmanTable) ∧ OptTable Jpeg.acSymbols syms (tabOf t' c.acHuffmanTable).ac := by
    intro c hcm
    obtain ⟨k1, k2⟩ := h3 c hcm
    rw [dcSymbols_decoded (opOk_for simd) hc.wf P hs.width hs.height hos t'] at k1
    exact ⟨k1, _, acSymbols_decoded (opOk_for simd) hc.wf P hs.width hs.height hos t' _, k2⟩
  have htab := init_tables e.samplingFactor image.colorType
  have zero : ∃ c ∈ initComponents e.samplingFactor image.colorType, c.dcHuffmanTable = 0 ∧ c.acHuffmanTable = 0 := by
    obtain ⟨c, hc, hq⟩ := init_has e.samplingFactor image.colorType 0 (Or.inl rfl)
    exact ⟨c, hc, by rw [(htab c hc).1, hq], by rw [(htab c hc).2, hq]⟩
  have one : (initComponents e.samplingFactor image.colorType).length ≥ 3 → ∃ c ∈ initComponents e.samplingFactor image.colorType, c.dcHuffmanTable = 1 ∧ c.acHuffmanTable = 1 := by
    intro h
    obtain ⟨c, hc, hq⟩ := init_has e.samplingFactor image.colorType 1 (Or.inr ⟨rfl, by omega⟩)
    exact ⟨c, hc, by rw [(htab c hc).1, hq], by rw [(htab c hc).2, hq]⟩
  refine hQ _ _ _ rfl ?_ ?_ ?_ (dcSymbols_restarts hc.wf P hs.width hs.height hos t' hcan) (fun h => dcSymbols_noRestarts P hos t' h)
  · intro s hs
    obtain ⟨c, -, h1, -⟩ := scans_single P hos t' hs
    rw [h1]
    rfl
  · intro sl T hT
    simp only [Encoder.decoded, fileDec, frameDec, Dec.init] at hT
    by_cases hlen : (initComponents e.samplingFactor image.colorType).length ≥ 3
    · simp only [if_pos hlen, upd] at hT
      split at hT
      · rename_i hsl
        cases hT
        subst hsl
        obtain ⟨c, hcm, e1, e2⟩ := one hlen
        have := (key c hcm).1
        rw [e1] at this
        exact ⟨_, rfl, this⟩
      · split at hT
        · rename_i hsl
          cases hT
          subst hsl
          obtain ⟨c, hcm, e1, e2⟩ := zero
          have := (key c hcm).1
          rw [e1] at this
          exact ⟨_, rfl, this⟩
        · cases hT
    · simp only [if_neg hlen, upd] at hT
      split at hT
      · rename_i hsl
        cases hT
        subst hsl
        obtain ⟨c, hcm, e1, e2⟩ := zero
        have := (key c hcm).1
        rw [e1] at this
        exact ⟨_, rfl, this⟩
      · cases hT
  · intro sl T hT
    simp only [Encoder.decoded, fileDec, frameDec, Dec.init] at hT
    by_cases hlen : (initComponents e.samplingFactor image.colorType).length ≥ 3
    · simp only [if_pos hlen, upd] at hT
      split at hT
      · rename_i hsl
        cases hT
        subst hsl
        obtain ⟨c, hcm, e1, e2⟩ := one hlen
        have := (key c hcm).2
        rw [e2] at this
        exact ⟨_, this.choose, rfl, this.choose_spec.1, this.choose_spec.2⟩
      · split at hT
        · rename_i hsl
          cases hT
          subst hsl
          obtain ⟨c, hcm, e1, e2⟩ := zero
          have := (key c hcm).2
          rw [e2] at this
          exact ⟨_, this.choose, rfl, this.choose_spec.1, this.choose_spec.2⟩
        · cases hT
    · simp only [if_neg hlen, upd] at hT
      split at hT
      · rename_i hsl
        cases hT
        subst hsl
        obtain ⟨c, hcm, e1, e2⟩ := zero
        have := (key c hcm).2
        rw [e2] at this
        exact ⟨_, this.choose, rfl, this.choose_spec.1, this.choose_spec.2⟩
      · cases hT

/-- C09: with optimised tables, the values of each table in the file are exactly the symbols that occur in the scans that use it: no symbol is
without a code, and none has a code without need. (With restarts, DC tables may have codes that are not needed.) -/
theorem C09_exactly_the_symbols (ho : e.getOptimizedHuffmanTables = true) : Spec.Encodes p strict fun _ d => ∃ f, d.frame = some f ∧
    (∀ s ∈ d.scans, s.scan.comps.length = 1) ∧
    (∀ sl T, d.dc sl = some T → (∀ v ∈ dcSymbolsOf d f sl, v ∈ T.values) ∧ (NoRestarts d → ∀ v ∈ T.values, v ∈ dcSymbolsOf d f sl)) ∧
    ∀ sl T, d.ac sl = some T → ∀ v, v ∈ T.values ↔ v ∈ acSymbolsOf d f sl := by
  refine opt_tables hpf hc hp hs h8 hst ho fun _ d f hf hone hdc hac hsub heq => ⟨f, hf, hone, fun sl T hT => ?_, fun sl T hT v => ?_⟩
  · obtain ⟨t, rfl, ht⟩ := hdc sl T hT
    exact ⟨fun v hv => (ht.mem v).mpr (hsub sl v hv), fun hn v hv => by rw [heq hn]; exact (ht.mem v).mp hv⟩
  · obtain ⟨t, syms, rfl, hperm, ht⟩ := hac sl T hT
    exact (ht.mem v).trans hperm.mem_iff

end

/-! ### C10 -/

/-- C10: quality 100, optimised tables, restart interval 2, a grey image of three blocks. The DC differences are 8, 8 and, after the restart, 24.
The statistics have 8, 8, 8 instead and there is no code for 24: debug builds panic, release builds report success but the file cannot be decoded. -/
theorem C10_restart_defect :
    (∃ e, Configured ⟨true, 8⟩ 100 [.setOptimizedHuffmanTables true, .setRestartInterval 2] e ∧
      ((e.encode ⟨true, 8⟩ false Spec.stairs 24 8 .luma).run vecSink []).2 = .error (.panic .debugAssert)) ∧
    ∃ e, Configured ⟨false, 8⟩ 100 [.setOptimizedHuffmanTables true, .setRestartInterval 2] e ∧
      ((e.encode ⟨false, 8⟩ false Spec.stairs 24 8 .luma).run vecSink []).2 = .ok () ∧
      decode false ((e.encode ⟨false, 8⟩ false Spec.stairs 24 8 .luma).run vecSink []).1 = none := by
  have h1 : ∀ pf, ∃ e0, Encoder.new pf 100 = .ok e0 ∧ Configured pf 100 [.setOptimizedHuffmanTables true, .setRestartInterval 2]
      ((e0.setOptimizedHuffmanTables true).setRestartInterval 2) := by
    intro pf
    obtain ⟨t0, t1, -, -, h⟩ := encoder_new_ok 100
    exact ⟨_, h pf, _, h pf, rfl⟩
  constructor
  · obtain ⟨e0, h0, hc⟩ := h1 ⟨true, 8⟩
    have h2 := map_ok_apply stairs_debug h0
    beta_reduce at h2
    unfold Spec.stairsRun at h2
    exact ⟨_, hc, h2⟩
  · obtain ⟨e0, h0, hc⟩ := h1 ⟨false, 8⟩
    have h2 := map_ok_apply stairs_release h0
    beta_reduce at h2
    have h3 := report_split h2
    unfold Spec.stairsRun at h3
    exact ⟨_, hc, h3⟩

/-- Images of a single colour can be encoded with optimised tables and restarts, unless there are more than 2^32 ends of bands. -/
theorem Spec.Uniform.canOptimize {pf : Platform} {simd : Bool} {e : Encoder} (hwf : e.Wf) {ct : JpegColorType} {w h : UInt16} {P : Nat → Nat → Nat → UInt8}
    (hu : Spec.Uniform ct w h P) (hw : w ≠ 0) (hh : h ≠ 0) (hsize : ∀ t, Spec.acScanCount e * Spec.codedBlocks (Spec.frameOf e ct w h) t < 4294967295) :
    Spec.CanOptimize pf simd e ct w h P := by
  have hw0 : w.toNat ≠ 0 := fun h => hw (by rw [← UInt16.toNat_inj]; simpa using h)
  have hh0 : h.toNat ≠ 0 := fun h' => hh (by rw [← UInt16.toNat_inj]; simpa using h')
  refine ⟨fun n _ d hf hi c fc hc j p hp => ?_, fun d hf hi t => ?_⟩
  rotate_left
  · obtain ⟨h1, h2⟩ := acCounted_zero (coefs := d.coefs) hwf.scans (Spec.frameOf e ct w h) (fun c fc hc y x k hy hx k1 k2 => by
      obtain ⟨f, q0, q1, g1, g2, g3⟩ := hi
      unfold Spec.HasFrame at hf
      rw [g1] at hf
      have hff : f = Spec.frameOf e ct w h := Option.some.inj hf
      subst hff
      have hlt := (List.getElem?_eq_some_iff.mp hc).1
      rw [show (Spec.frameOf e ct w h).comps.length = Spec.componentCount ct from expectedComps_count _ _ _] at hlt
      have hco := g3 c fc hc y x k hy hx k2
      have hflat : Spec.blockSamples (Spec.frameOf e ct w h).width (Spec.frameOf e ct w h).height P c ((Spec.frameOf e ct w h).vmax / fc.v)
          ((Spec.frameOf e ct w h).hmax / fc.h) y x = List.replicate 64 (((P c 0 0).toNat : Int) - 128) := by
        rw [show (Spec.frameOf e ct w h).width = w.toNat from rfl, show (Spec.frameOf e ct w h).height = h.toNat from rfl]
        unfold Spec.blockSamples Spec.sampleAt
        rw [List.eq_replicate_iff]
        refine ⟨by simp, fun v hv => ?_⟩
        obtain ⟨i, -, rfl⟩ := List.mem_map.mp hv
        rw [hu c hlt _ _ (by omega) (by omega)]
      have hq0 : q0 = mkQ (steps e.getQuantizationTables.1 e.quality.toNat true) := by
        have := g2.1.symm.trans (newWithQuality_eq _ _ _); cases this; rfl
      have hq1 : q1 = mkQ (steps e.getQuantizationTables.2 e.quality.toNat false) := by
        have := g2.2.symm.trans (newWithQuality_eq _ _ _); cases this; rfl
      have hvr : -128 ≤ (((P c 0 0).toNat : Int) - 128) ∧ (((P c 0 0).toNat : Int) - 128) ≤ 127 := by have := (P c 0 0).toNat_lt; omega
      rw [hflat, hq0, hq1] at hco
      split at hco
      · exact IsCoef_flat k1 k2 hvr hco
      · exact IsCoef_flat k1 k2 hvr hco) t
    exact .of_few (S := [0]) (fun s hs => by simp [h1 s hs]) (by decide) (lt_of_le_of_lt h2 (hsize t))
  obtain ⟨f, q0, q1, h1, h2, h3⟩ := hi
  unfold Spec.HasFrame at hf
  rw [h1] at hf
  have hff : f = Spec.frameOf e ct w h := Option.some.inj hf
  subst hff
  have hlt := (List.getElem?_eq_some_iff.mp hc).1
  rw [show (Spec.frameOf e ct w h).comps.length = Spec.componentCount ct from expectedComps_count _ _ _] at hlt
  have hblk : ∀ sy sx y x, Spec.blockSamples w.toNat h.toNat P c sy sx y x = Spec.blockSamples w.toNat h.toNat P c sy sx 0 0 := by
    intro sy sx y x
    unfold Spec.blockSamples Spec.sampleAt
    apply List.map_congr_left
    intro i _
    rw [hu c hlt _ _ (by omega) (by omega), hu c hlt (min ((8 * 0 + i / 8) * sy) _) _ (by omega) (by omega)]
  have hm := mem_raster.mp (List.mem_of_getElem? hp)
  have hm0 : 0 < (Spec.frameOf e ct w h).blocksHigh fc ∧ 0 < (Spec.frameOf e ct w h).blocksWide fc := by omega
  have k1 := h3 c fc hc p.1 p.2 0 hm.1 hm.2 (by omega)
  have k2 := h3 c fc hc 0 0 0 hm0.1 hm0.2 (by omega)
  rw [show (Spec.frameOf e ct w h).width = w.toNat from rfl, show (Spec.frameOf e ct w h).height = h.toNat from rfl, hblk] at k1
  rw [IsCoef_unique k1 k2]
  refine List.mem_flatMap.mpr ⟨(fc, c), List.mem_zipIdx_iff_getElem?.mpr hc, ?_⟩
  rw [if_pos rfl]
  obtain ⟨a, ha⟩ := Nat.exists_eq_add_of_lt hm0.1
  obtain ⟨b, hb⟩ := Nat.exists_eq_add_of_lt hm0.2
  have hr : ∃ l, raster ((Spec.frameOf e ct w h).blocksHigh fc) ((Spec.frameOf e ct w h).blocksWide fc) = (0, 0) :: l := by
    rw [ha, hb, Nat.zero_add, Nat.zero_add]
    unfold raster
    rw [List.range_succ_eq_map, List.range_succ_eq_map]
    exact ⟨_, rfl⟩
  obtain ⟨l, hl⟩ := hr
  rw [hl, List.map_cons, _root_.Spec.dcSymbols, Int.sub_zero]
  exact List.mem_cons_self

/-- C10: where it works. With optimised tables and restarts, if for every restart interval the category of its first DC value is also the category of
a difference of successive DC values (which is what is counted), then the file is written and a decoder recovers the image. -/
theorem C10_restarts_work {pf : Platform} (hpf : pf.Valid) {q : UInt8} {calls : List Spec.Call} {e : Encoder} (hc : Configured pf q calls e) {simd : Bool}
    {p : Prog (R Unit)} {ct : JpegColorType} {w h : UInt16} {P : Nat → Nat → Nat → UInt8} (hp : Spec.EncodeCall pf simd e p ct w h P) (hw : w ≠ 0) (hh : h ≠ 0)
    (hm : pf.wordBytes = 8 ∨ Spec.paddedSamples (Spec.frameOf e ct w h) * 2 < 2 ^ 31) (h8 : Spec.EightBit e.getQuantizationTables)
    {strict : Bool} (hst : ScansFine strict e) {n : UInt16} (hn : e.getRestartInterval = some n) (ho : e.getOptimizedHuffmanTables = true)
    (hr : ∀ d, Spec.HasFrame e.getProgressiveScans.isSome e.getSamplingFactor.factors ct w h d → Spec.HasImage pf simd e.getQuantizationTables q P d →
      ∀ c fc, (Spec.frameOf e ct w h).comps[c]? = some fc → ∀ j p,
        (raster ((Spec.frameOf e ct w h).blocksHigh fc) ((Spec.frameOf e ct w h).blocksWide fc))[j * n.toNat]? = some p →
          category (d.coefs c p.1 p.2 0) ∈ Spec.dcCounted (Spec.frameOf e ct w h) d.coefs fc.tq)
    (hsize : Spec.SymbolsFit pf simd e ct w h P) :
    Spec.Encodes p strict fun _ d => Spec.HasFrame e.getProgressiveScans.isSome e.getSamplingFactor.factors ct w h d ∧
      Spec.HasImage pf simd e.getQuantizationTables q P d := by
  have hs : Spec.Supported pf simd e ct w h P := by
    refine ⟨hw, hh, hm.imp id Or.inl, Or.inr ⟨fun m hm d hf hi => ?_, hsize⟩⟩
    rw [hn] at hm
    cases hm
    rw [hc.settings.1.quality] at hi
    exact hr d hf hi
  cases hp with
  | data data w h ct hlen hsl =>
    obtain ⟨bytes, d, h1, h2, h3, h4⟩ := C03_encode_round_trip hpf hc simd hlen hsl hs h8 hst
    exact ⟨bytes, d, h1, h2, h3, h4⟩
  | image image P hd =>
    obtain ⟨bytes, d, h1, h2, h3, h4, -⟩ := round_trip hpf hc simd hd hs h8 hst
    exact ⟨bytes, d, h1, h2, h3, h4⟩

-- the hypotheses of C10_restarts_work are met by images of a single colour, here the largest RGB image with a restart after every block
example (P : Nat → Nat → Nat → UInt8) (hu : Spec.Uniform .ycbcr 65535 65535 P) (simd : Bool) :
    ∃ e, Configured ⟨true, 8⟩ 80 [.setOptimizedHuffmanTables true, .setRestartInterval 1] e ∧ Spec.Supported ⟨true, 8⟩ simd e .ycbcr 65535 65535 P ∧
      e.getRestartInterval = some 1 ∧ e.getOptimizedHuffmanTables = true := by
  obtain ⟨e, h1, h2⟩ := reachable_exists ⟨true, 8⟩ 80 [.setOptimizedHuffmanTables true, .setRestartInterval 1] (by decide)
  have hf : Spec.frameOf e .ycbcr 65535 65535 = ⟨false, 65535, 65535, Spec.expectedComps 2 2 .ycbcr⟩ := by
    rw [Spec.frameOf, h2.scans, h2.sampling]; rfl
  have hn : Spec.acScanCount e = 1 := by rw [Spec.acScanCount, h2.scans]; rfl
  refine ⟨e, h1, ⟨by decide, by decide, Or.inl rfl, Or.inr (hu.canOptimize h1.wf (by decide) (by decide) ?_)⟩, by rw [h2.restart]; rfl, by rw [h2.optimized]; rfl⟩
  rw [hf, hn]
  intro t
  match t with
  | 0 => decide
  | 1 => decide
  | t + 2 => show 1 * Spec.codedBlocks ⟨false, 65535, 65535, Spec.expectedComps 2 2 .ycbcr⟩ (t + 2) < 4294967295; simp [Spec.codedBlocks, Spec.expectedComps]

end Jpeg
