import Verif.Props.EntropySize
import Verif.Proofs.AnyEntropy
/-! C100: no file is smaller than the information in it. -/
namespace Jpeg
open _root_.Spec

theorem sum_ceilDiv_bits {α : Type} (l : List α) (g : α → Nat) : (l.map g).sum ≤ 8 * (l.map fun a => _root_.Spec.ceilDiv (g a) 8).sum := by
  induction l with
  | nil => simp
  | cons a l ih =>
    simp only [List.map_cons, List.sum_cons]
    have : g a ≤ 8 * _root_.Spec.ceilDiv (g a) 8 := by unfold _root_.Spec.ceilDiv; omega
    omega

theorem sum_le_sum_map {α : Type} {l : List α} {g g' : α → Nat} (h : ∀ a ∈ l, g a ≤ g' a) : (l.map g).sum ≤ (l.map g').sum := by
  induction l with
  | nil => simp
  | cons a l ih =>
    have h1 := h a (by simp)
    have h2 := ih fun a ha => h a (by simp [ha])
    simp only [List.map_cons, List.sum_cons]
    omega

/-- The tables of a file are well formed. -/
theorem decoded_tables_wf {simd : Bool} {e : Encoder} {image : ImageBuffer} {P : Nat → Nat → Nat → UInt8} {t : HuffPair × HuffPair} (hwk : Works simd e image P t) {i : Nat} {T : HuffTable}
    (hT : (e.decoded (dctFn simd) image P t).dc i = some T ∨ (e.decoded (dctFn simd) image P t).ac i = some T) : T.WellFormed := by
  have htabs := hwk.cod.tabs
  simp only [Encoder.decoded, fileDec, frameDec, Dec.init] at hT
  by_cases h3 : (initComponents e.samplingFactor image.colorType).length ≥ 3
  · simp only [if_pos h3, upd] at hT
    rcases hT with hT | hT
    · split at hT
      · cases hT; exact (htabs.dc1 h3).ok.wf
      · split at hT
        · cases hT; exact htabs.dc0.ok.wf
        · cases hT
    · split at hT
      · cases hT; exact (htabs.ac1 h3).ok.wf
      · split at hT
        · cases hT; exact htabs.ac0.ok.wf
        · cases hT
  · simp only [if_neg h3, upd] at hT
    rcases hT with hT | hT
    · split at hT
      · cases hT; exact htabs.dc0.ok.wf
      · cases hT
    · split at hT
      · cases hT; exact htabs.ac0.ok.wf
      · cases hT

section
variable {pf : Platform} (hpf : pf.Valid) {q : UInt8} {calls : List Spec.Call} {e : Encoder} (hc : Configured pf q calls e) {simd : Bool}
  {p : Prog (R Unit)} {ct : JpegColorType} {w h : UInt16} {P : Nat → Nat → Nat → UInt8} (hp : Spec.EncodeCall pf simd e p ct w h P)
  (hs : Spec.Supported pf simd e ct w h P) (h8 : Spec.EightBit e.getQuantizationTables) {strict : Bool} (hst : ScansFine strict e)
include hpf hc hp hs h8 hst

/-- C100: whatever the settings are - standard or optimised tables, baseline or progressive, subsampled or not, with restarts or without - the entropy coded data of a file takes
at least the information of its symbols and the digits of the magnitudes, besides stuffed zero bytes and restart markers: the encoder never writes less than the entropy (and so
nothing is lost), and every symbol of every restart interval has a code word in the table that the file has for it. -/
theorem C100_no_file_smaller : Spec.Encodes p strict fun _ d => ∃ f, d.frame = some f ∧
    (∀ sl T, d.dc sl = some T → T.WellFormed ∧ ∀ v ∈ dcCoded d f sl, v ∈ T.values) ∧ (∀ sl T, d.ac sl = some T → T.WellFormed ∧ ∀ v ∈ acCoded d f sl, v ∈ T.values) ∧
    let symbols := [dcCoded d f 0, acCoded d f 0, dcCoded d f 1, acCoded d f 1]
    (symbols.map information).sum + (symbols.map magnitudeBits).sum + 8 * (stuffedBytes d + restartMarkerCount d f) ≤
      ((8 * (d.scans.map fun s => s.data.length).sum : Nat) : ℝ) := by
  refine ((C93_size hpf hc hp hs h8 hst).and (encodes_of hpf hc hp hs h8 hst
    (Q := fun _ d => ∃ image t, Works simd e image P t ∧ d = e.decoded (dctFn simd) image P t) fun image t _ _ _ ht => ⟨image, t, ht, rfl⟩)).mono ?_
  rintro bytes d ⟨⟨f, hf, -, hsize⟩, image, t, hw, rfl⟩
  refine ⟨f, hf, ?_⟩
  have hff : f = mkFrame e.mode.isProg image.width image.height (initComponents e.samplingFactor image.colorType) := (Option.some.inj hf).symm
  have hg := (initComponents_grid e.samplingFactor image.colorType).1
  have hmem : ∀ sd ∈ e.mode.scans (initComponents e.samplingFactor image.colorType), ∀ c ∈ sd.cs, c ∈ initComponents e.samplingFactor image.colorType := by
    intro sd hsd c hc
    rcases mem_scans hsd with ⟨c', hcm, h1⟩ | h1
    · rw [h1, List.mem_singleton] at hc
      rw [hc]; exact hcm
    · rw [h1] at hc; exact hc
  have hready := decoded_ready e (dctFn simd) image P t
  have hsyms : ∀ s ∈ (e.decoded (dctFn simd) image P t).scans, ∀ units ∈ scanIntervals (e.decoded (dctFn simd) image P t) f s.scan, ∀ sc ∈ s.scan.comps.zipIdx,
      (∃ c ∈ initComponents e.samplingFactor image.colorType, sc.1 = c.scanComp) ∧
      (s.scan.ss = 0 → ∃ T, (e.decoded (dctFn simd) image P t).dc sc.1.td = some T ∧
        ∀ v ∈ _root_.Spec.dcSymbols ((units.filter fun u => u.1 = sc.2).map fun u => (e.decoded (dctFn simd) image P t).coefs sc.1.comp u.2.1 u.2.2 0) 0, v ∈ T.values) ∧
      ∃ T, (e.decoded (dctFn simd) image P t).ac sc.1.ta = some T ∧
        ∀ v ∈ (units.filter fun u => u.1 = sc.2).flatMap fun u =>
          _root_.Spec.acSymbols (bandOf ((e.decoded (dctFn simd) image P t).coefs sc.1.comp u.2.1 u.2.2) s.scan.ss s.scan.se) 0, v ∈ T.values := by
    intro s hs
    subst hff
    obtain ⟨sd, hsd, rfl⟩ := List.mem_map.mp hs
    intro units hun sc hsc
    obtain ⟨⟨c, hcm, h1⟩, h2⟩ := log_symbols hready hg.ok sd (hmem sd hsd) (hw.cod.units sd hsd) (fun u hu k h1 h2 =>
      coefsAfter_mem _ _ (Or.inl ⟨sd, hsd, List.mem_map.mpr ⟨u, hu, rfl⟩, h1, h2⟩)) units hun sc hsc
    exact ⟨⟨c, hmem sd hsd c hcm, h1⟩, h2⟩
  have hslots : ∀ s ∈ (e.decoded (dctFn simd) image P t).scans, ∀ sc ∈ s.scan.comps, sc.td < 2 ∧ sc.ta < 2 := by
    intro s hs sc hsc
    obtain ⟨sd, hsd, rfl⟩ := List.mem_map.mp hs
    obtain ⟨c, hcm, rfl⟩ := List.mem_map.mp hsc
    exact ⟨hg.ok.dc c (hmem sd hsd c hcm), hg.ok.ac c (hmem sd hsd c hcm)⟩
  have htabs := fun i T => decoded_tables_wf hw (i := i) (T := T)
  clear hff hready hmem
  generalize e.decoded (dctFn simd) image P t = d at *
  have hdc : ∀ sl T, d.dc sl = some T → ∀ v ∈ dcCoded d f sl, v ∈ T.values := by
    intro sl T hT v hv
    obtain ⟨s, hs, hv⟩ := List.mem_flatMap.mp hv
    obtain ⟨units, hun, hv⟩ := List.mem_flatMap.mp hv
    obtain ⟨sc, hsc, hv⟩ := List.mem_flatMap.mp hv
    split at hv
    · rename_i hh
      obtain ⟨T', hT', hv'⟩ := (hsyms s hs units hun sc hsc).2.1 hh.2
      rw [hh.1, hT] at hT'
      cases hT'
      exact hv' v hv
    · cases hv
  have hac : ∀ sl T, d.ac sl = some T → ∀ v ∈ acCoded d f sl, v ∈ T.values := by
    intro sl T hT v hv
    obtain ⟨s, hs, hv⟩ := List.mem_flatMap.mp hv
    obtain ⟨units, hun, hv⟩ := List.mem_flatMap.mp hv
    obtain ⟨sc, hsc, hv⟩ := List.mem_flatMap.mp hv
    split at hv
    · rename_i hh
      obtain ⟨T', hT', hv'⟩ := (hsyms s hs units hun sc hsc).2.2
      rw [hh, hT] at hT'
      cases hT'
      exact hv' v hv
    · cases hv
  have hnodc : ∀ sl, d.dc sl = none → dcCoded d f sl = [] := by
    intro sl hn
    refine List.flatMap_eq_nil_iff.mpr fun s hs => List.flatMap_eq_nil_iff.mpr fun units hun => List.flatMap_eq_nil_iff.mpr fun sc hsc => ?_
    split
    · rename_i hh
      obtain ⟨T', hT', -⟩ := (hsyms s hs units hun sc hsc).2.1 hh.2
      rw [hh.1, hn] at hT'
      cases hT'
    · rfl
  have hnoac : ∀ sl, d.ac sl = none → acCoded d f sl = [] := by
    intro sl hn
    refine List.flatMap_eq_nil_iff.mpr fun s hs => List.flatMap_eq_nil_iff.mpr fun units hun => List.flatMap_eq_nil_iff.mpr fun sc hsc => ?_
    split
    · rename_i hh
      obtain ⟨T', hT', -⟩ := (hsyms s hs units hun sc hsc).2.2
      rw [hh, hn] at hT'
      cases hT'
    · rfl
  refine ⟨fun sl T hT => ⟨(htabs sl T (Or.inl hT)), hdc sl T hT⟩, fun sl T hT => ⟨(htabs sl T (Or.inr hT)), hac sl T hT⟩, ?_⟩
  intro symbols
  have k0 := symbolBits_info (hnodc 0) fun T hT => C100_least (htabs 0 T (Or.inl hT)) (hdc 0 T hT)
  have k1 := symbolBits_info (hnodc 1) fun T hT => C100_least (htabs 1 T (Or.inl hT)) (hdc 1 T hT)
  have k2 := symbolBits_info (hnoac 0) fun T hT => C100_least (htabs 0 T (Or.inr hT)) (hac 0 T hT)
  have k3 := symbolBits_info (hnoac 1) fun T hT => C100_least (htabs 1 T (Or.inr hT)) (hac 1 T hT)
  have hb := interval_bits_by_table d f hslots
  have hle : (d.scans.map fun s => ((scanIntervals d f s.scan).map fun units => intervalBits d s.scan units).sum + 8 * (s.data.count 0xFF + ((scanIntervals d f s.scan).length - 1))).sum ≤
      (d.scans.map fun s => 8 * s.data.length).sum := by
    refine sum_le_sum_map fun s hs => ?_
    have h1 := hsize s hs
    have h2 := sum_ceilDiv_bits (scanIntervals d f s.scan) (intervalBits d s.scan)
    unfold dataBytes at h1
    change ((scanIntervals d f s.scan).map fun units => intervalBits d s.scan units).sum ≤ _ at h2
    generalize s.data.count 0xFF = ff at *
    omega
  rw [List.sum_map_add, List.sum_map_mul_left, List.sum_map_mul_left, List.sum_map_add, hb] at hle
  have u : ((symbolBits (d.dc 0) (dcCoded d f 0) + symbolBits (d.ac 0) (acCoded d f 0) + (symbolBits (d.dc 1) (dcCoded d f 1) + symbolBits (d.ac 1) (acCoded d f 1)) +
    8 * (stuffedBytes d + restartMarkerCount d f) : Nat) : ℝ) ≤ ((8 * (d.scans.map fun s => s.data.length).sum : Nat) : ℝ) := by exact_mod_cast hle
  refine le_trans ?_ u
  simp only [symbols, List.map_cons, List.map_nil, List.sum_cons, List.sum_nil]
  push_cast
  linarith
end

-- the hypotheses of `C100_no_file_smaller`: an interleaved baseline file with subsampling, standard tables and restart intervals
example : ∃ e p P, Configured ⟨true, 8⟩ 75 [.setSamplingFactor .R_4_2_0, .setRestartInterval 3] e ∧ Spec.EncodeCall ⟨true, 8⟩ true e p .ycbcr 3 2 P ∧
    Spec.Supported ⟨true, 8⟩ true e .ycbcr 3 2 P ∧ Spec.EightBit e.getQuantizationTables ∧ ScansFine true e := by
  obtain ⟨e, h1, h2⟩ := reachable_exists ⟨true, 8⟩ 75 [.setSamplingFactor .R_4_2_0, .setRestartInterval 3] (by decide)
  refine ⟨e, _, _, h1, .data [1, 2, 3, 4, 5, 6, 7, 8, 9, 10, 11, 12, 13, 14, 15, 16, 17, 18] 3 2 .rgb (by decide) (by unfold Spec.SliceOk; decide),
    ⟨by decide, by decide, Or.inl rfl, Or.inl (by rw [h2.optimized]; rfl)⟩, ?_, ?_⟩
  · rw [h2.quant]; rintro t (h | h) <;> cases h
  · intro _; rw [h2.scans]; intro n hn; cases hn

-- the symbols of a file: three gray blocks and a restart after every second one, standard tables; 9 bytes, 2 of which are the marker
example : (do
    let e ← Encoder.new ⟨true, 8⟩ 75
    let r := ((e.setRestartInterval 2).encode ⟨true, 8⟩ false (List.replicate 8 200 ++ List.replicate 16 40) 24 1 .luma).run vecSink []
    .ok (decide (((decode true r.1).bind fun d => d.frame.map fun f => (dcCoded d f 0, acCoded d f 0, restartMarkerCount d f, stuffedBytes d, d.scans.map fun s : ScanLog => s.data.length)) =
      some ([7, 8, 7], [0, 0, 0], 1, 1, [9])))) = .ok true := by decide +kernel

end Jpeg
