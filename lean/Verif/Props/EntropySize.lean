import Verif.Props.Entropy
import Verif.Props.Gain
/-! C100: the size of the entropy coded data. -/
namespace Jpeg
open _root_.Spec

theorem information_nil : information [] = 0 := rfl

/-- The bits of a list of symbols that a table codes. -/
theorem symbolBits_info {T : Option HuffTable} {L : List Nat} (h0 : T = none → L = []) (h : ∀ t, T = some t → information L ≤ t.cost L) :
    information L + magnitudeBits L ≤ symbolBits T L := by
  cases T with
  | none => rw [h0 rfl]; simp [information_nil, symbolBits, magnitudeBits]
  | some t =>
    rw [symbolBits_cost, Nat.cast_add]
    have := h t rfl
    unfold magnitudeBits
    linarith

theorem symbolBits_near {T : Option HuffTable} {L : List Nat} (h0 : T = none → L = [])
    (h : ∀ t, T = some t → (t.cost L : ℝ) ≤ information L + L.length + Real.logb 2 (L.length + 1) + 1.45) :
    (symbolBits T L : ℝ) ≤ information L + L.length + Real.logb 2 (L.length + 1) + 1.45 + magnitudeBits L := by
  cases T with
  | none => rw [h0 rfl]; simp [information_nil, symbolBits, magnitudeBits]; norm_num
  | some t =>
    rw [symbolBits_cost, Nat.cast_add]
    have := h t rfl
    unfold magnitudeBits
    linarith

section
variable {pf : Platform} (hpf : pf.Valid) {q : UInt8} {calls : List Spec.Call} {e : Encoder} (hc : Configured pf q calls e) {simd : Bool}
  {p : Prog (R Unit)} {ct : JpegColorType} {w h : UInt16} {P : Nat → Nat → Nat → UInt8} (hp : Spec.EncodeCall pf simd e p ct w h P)
  (hs : Spec.Supported pf simd e ct w h P) (h8 : Spec.EightBit e.getQuantizationTables) {strict : Bool} (hst : ScansFine strict e)
include hpf hc hp hs h8 hst

/-- C100: the entropy coded data of a file with optimised tables and without restarts. Not counting stuffed zero bytes, it has at least as many bits as the information of the
symbols and the digits of the magnitudes, and at most a bit more per symbol, the price of the reserved code words and up to 7 bits per scan for padding. -/
theorem C100_data_size (ho : e.getOptimizedHuffmanTables = true) (hri : e.getRestartInterval = none) : Spec.Encodes p strict fun _ d => ∃ f, d.frame = some f ∧
    let symbols := [dcSymbolsOf d f 0, acSymbolsOf d f 0, dcSymbolsOf d f 1, acSymbolsOf d f 1]
    let digits := (symbols.map magnitudeBits).sum
    let bits := 8 * (d.scans.map fun s => s.data.length).sum
    (symbols.map information).sum + digits + 8 * stuffedBytes d ≤ bits ∧
    ((∀ sl T, d.ac sl = some T → T.counts.getD 15 0 = 0 ∨ (acSymbolsOf d f sl).length ≤ 2582) →
      (bits : ℝ) ≤ (symbols.map fun l => information l + l.length + Real.logb 2 (l.length + 1) + 1.45).sum + digits + 8 * stuffedBytes d + 7 * d.scans.length) := by
  have both := ((encodes_of hpf hc hp hs h8 hst (Q := fun _ d => ∃ image t, Works simd e image P t ∧ d = e.decoded (dctFn simd) image P t)
    fun image t _ _ _ ht => ⟨image, t, ht, rfl⟩).and (C100_optimised hpf hc hp hs h8 hst ho)).and
    (opt_tables hpf hc hp hs h8 hst ho (Q := fun _ d => ∀ f, d.frame = some f → NoRestarts d → ∀ sl, dcSymbolsOf d f sl = dcSymbolsUninterrupted d f sl)
      fun _ d f hf _ _ _ _ heq f' hf' => by rw [hf] at hf'; cases hf'; exact heq)
  refine both.mono ?_
  rintro _ d ⟨⟨⟨image, t, hw, rfl⟩, f, hf, hdc, hac⟩, heq⟩
  refine ⟨f, hf, ?_⟩
  have heq := heq f hf
  have hff : f = mkFrame e.mode.isProg image.width image.height (initComponents e.samplingFactor image.colorType) := (Option.some.inj hf).symm
  subst hff
  have hnri : (e.decoded (dctFn simd) image P t).ri = 0 := by
    show (e.restartInterval.map UInt16.toNat).getD 0 = 0
    rw [show e.restartInterval = none from hri]; rfl
  have hno : NoRestarts (e.decoded (dctFn simd) image P t) := Or.inl hnri
  have heq := heq hno
  have hg := (initComponents_grid e.samplingFactor image.colorType).1
  have hmem : ∀ sd ∈ e.mode.scans (initComponents e.samplingFactor image.colorType), ∀ c ∈ sd.cs, c ∈ initComponents e.samplingFactor image.colorType := by
    intro sd hsd c hc
    rcases mem_scans hsd with ⟨c', hcm, h1⟩ | h1
    · rw [h1, List.mem_singleton] at hc
      rw [hc]; exact hcm
    · rw [h1] at hc; exact hc
  have hmode : e.mode ≠ .interleaved := by
    unfold Encoder.mode
    cases e.progressiveScans with
    | some n => exact fun h => nomatch h
    | none =>
      dsimp only
      rw [show e.optimizeHuffmanTable = true from ho, Bool.true_or, if_pos rfl]
      exact fun h => nomatch h
  obtain ⟨b1, b2⟩ := decoded_bits (dctFn simd) image P t (Or.inr (Or.inl hmode))
  have hready := decoded_ready e (dctFn simd) image P t
  have hdata : ∀ s ∈ (e.decoded (dctFn simd) image P t).scans, s.data.length = dataBytes (e.decoded (dctFn simd) image P t)
      (mkFrame e.mode.isProg image.width image.height (initComponents e.samplingFactor image.colorType)) s.scan (s.data.count 0xFF) := by
    intro s hs
    obtain ⟨sd, hsd, rfl⟩ := List.mem_map.mp hs
    refine log_exact hready hg.ok sd (hmem sd hsd) (hw.cod.units sd hsd) fun u hu k h1 h2 => ?_
    exact coefsAfter_mem _ _ (Or.inl ⟨sd, hsd, List.mem_map.mpr ⟨u, hu, rfl⟩, h1, h2⟩)
  have hb := data_bounds _ _ hnri hdata b1
  rw [bits_by_table _ _ b2, ← heq 0, ← heq 1] at hb
  have hnodc : ∀ sl, (e.decoded (dctFn simd) image P t).dc sl = none →
      dcSymbolsOf (e.decoded (dctFn simd) image P t) (mkFrame e.mode.isProg image.width image.height (initComponents e.samplingFactor image.colorType)) sl = [] := by
    intro sl hn
    refine List.flatMap_eq_nil_iff.mpr fun s hs => ?_
    split
    · refine List.flatMap_eq_nil_iff.mpr fun sc hsc => ?_
      obtain ⟨sd, hsd, rfl⟩ := List.mem_map.mp hs
      obtain ⟨c, hcm, rfl⟩ := List.mem_map.mp hsc
      split
      · rename_i hh
        have := hready.dc c (hmem sd hsd c hcm)
        rw [show c.dcHuffmanTable = sl from hh, hn] at this
        cases this
      · rfl
    · rfl
  have hnoac : ∀ sl, (e.decoded (dctFn simd) image P t).ac sl = none →
      acSymbolsOf (e.decoded (dctFn simd) image P t) (mkFrame e.mode.isProg image.width image.height (initComponents e.samplingFactor image.colorType)) sl = [] := by
    intro sl hn
    refine List.flatMap_eq_nil_iff.mpr fun s hs => ?_
    refine List.flatMap_eq_nil_iff.mpr fun sc hsc => ?_
    obtain ⟨sd, hsd, rfl⟩ := List.mem_map.mp hs
    obtain ⟨c, hcm, rfl⟩ := List.mem_map.mp hsc
    split
    · rename_i hh
      have := hready.ac c (hmem sd hsd c hcm)
      rw [show c.acHuffmanTable = sl from hh, hn] at this
      cases this
    · rfl
  generalize mkFrame e.mode.isProg image.width image.height (initComponents e.samplingFactor image.colorType) = f at *
  generalize e.decoded (dctFn simd) image P t = d at *
  have hsplit : (d.scans.map fun s => 8 + 2 * s.scan.comps.length + s.data.length).sum =
      (d.scans.map fun s => 8 + 2 * s.scan.comps.length).sum + (d.scans.map fun s => s.data.length).sum := List.sum_map_add
  rw [hsplit] at hb
  change _ ≤ _ + 8 * stuffedBytes d + _ + _ ∧ _ + 8 * stuffedBytes d + _ ≤ _ at hb
  generalize (d.scans.map fun s => 8 + 2 * s.scan.comps.length).sum = H at hb
  obtain ⟨u1, u2⟩ := hb
  intro symbols digits bits
  have hd : (digits : ℝ) = magnitudeBits (dcSymbolsOf d f 0) + (magnitudeBits (acSymbolsOf d f 0) + (magnitudeBits (dcSymbolsOf d f 1) + magnitudeBits (acSymbolsOf d f 1))) := by
    simp [digits, symbols]
  constructor
  · have k0 := symbolBits_info (hnodc 0) fun T hT => (hdc 0 T hT).1
    have k1 := symbolBits_info (hnodc 1) fun T hT => (hdc 1 T hT).1
    have k2 := symbolBits_info (hnoac 0) fun T hT => (hac 0 T hT).1
    have k3 := symbolBits_info (hnoac 1) fun T hT => (hac 1 T hT).1
    have u : 8 * stuffedBytes d + (symbolBits (d.dc 0) (dcSymbolsOf d f 0) + symbolBits (d.ac 0) (acSymbolsOf d f 0) +
      (symbolBits (d.dc 1) (dcSymbolsOf d f 1) + symbolBits (d.ac 1) (acSymbolsOf d f 1))) ≤ bits := by
      simp only [bits]; omega
    have u : (8 : ℝ) * stuffedBytes d + (symbolBits (d.dc 0) (dcSymbolsOf d f 0) + symbolBits (d.ac 0) (acSymbolsOf d f 0) +
      (symbolBits (d.dc 1) (dcSymbolsOf d f 1) + symbolBits (d.ac 1) (acSymbolsOf d f 1))) ≤ bits := by exact_mod_cast u
    rw [hd]
    simp only [symbols, List.map_cons, List.map_nil, List.sum_cons, List.sum_nil]
    linarith
  · intro h16
    have k0 := symbolBits_near (hnodc 0) fun T hT => (hdc 0 T hT).2 hno
    have k1 := symbolBits_near (hnodc 1) fun T hT => (hdc 1 T hT).2 hno
    have k2 := symbolBits_near (hnoac 0) fun T hT => (hac 0 T hT).2 (h16 0 T hT)
    have k3 := symbolBits_near (hnoac 1) fun T hT => (hac 1 T hT).2 (h16 1 T hT)
    have u : bits ≤ 8 * stuffedBytes d + (symbolBits (d.dc 0) (dcSymbolsOf d f 0) + symbolBits (d.ac 0) (acSymbolsOf d f 0) +
      (symbolBits (d.dc 1) (dcSymbolsOf d f 1) + symbolBits (d.ac 1) (acSymbolsOf d f 1))) + 7 * d.scans.length := by
      simp only [bits]; omega
    have u : (bits : ℝ) ≤ (8 : ℝ) * stuffedBytes d + (symbolBits (d.dc 0) (dcSymbolsOf d f 0) + symbolBits (d.ac 0) (acSymbolsOf d f 0) +
      (symbolBits (d.dc 1) (dcSymbolsOf d f 1) + symbolBits (d.ac 1) (acSymbolsOf d f 1))) + 7 * d.scans.length := by exact_mod_cast u
    rw [hd]
    simp only [symbols, List.map_cons, List.map_nil, List.sum_cons, List.sum_nil]
    linarith
end

end Jpeg
