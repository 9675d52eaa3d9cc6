import Verif.Proofs.Gain
import Verif.Props.ExactSize
import Verif.Props.Optimal
import Verif.Props.Standard
/-! C94: optimised Huffman tables do not make files larger. -/
namespace Jpeg
open _root_.Spec

/-- The blocks of every component are in the same order with and without optimised tables: progressive files, gray images, no chroma subsampling, or sampling factors for which every
component has its own scan anyway. -/
def Spec.SameOrder (e : Encoder) (ct : JpegColorType) : Prop :=
  e.getProgressiveScans ≠ none ∨ ct = .luma ∨ e.getSamplingFactor.factors = (1, 1) ∨ 2 < e.getSamplingFactor.factors.1 ∨ 2 < e.getSamplingFactor.factors.2

/-- DC symbols of coefficients. -/
def dcList (f : Frame) (E : Coefs) (l : List ScanDesc) (sl : Nat) : List Nat :=
  l.flatMap fun sd => sd.cs.flatMap fun c => if sd.ss = 0 then
    if c.dcHuffmanTable = sl then _root_.Spec.dcSymbols ((blockPositions f c.id).map fun p => E c.id p.1 p.2 0) 0 else [] else []

/-- AC symbols of coefficients. -/
def acList (f : Frame) (E : Coefs) (l : List ScanDesc) (sl : Nat) : List Nat :=
  l.flatMap fun sd => sd.cs.flatMap fun c =>
    if c.acHuffmanTable = sl then (blockPositions f c.id).flatMap fun p => _root_.Spec.acSymbols (bandOf (E c.id p.1 p.2) sd.ss sd.se) 0 else []

theorem lists_sequential (f : Frame) (E : Coefs) (cs : List Component) (sl : Nat) :
    dcList f E (Mode.scans cs .interleaved) sl = dcList f E (Mode.scans cs .sequential) sl ∧ acList f E (Mode.scans cs .interleaved) sl = acList f E (Mode.scans cs .sequential) sl := by
  constructor
  · simp only [dcList, Mode.scans, List.flatMap_cons, List.flatMap_nil, List.append_nil, List.flatMap_map]
  · simp only [acList, Mode.scans, List.flatMap_cons, List.flatMap_nil, List.append_nil, List.flatMap_map]

section
variable {e : Encoder} (hwf : e.Wf) (F : List Int → List Int) (image : ImageBuffer) (P : Nat → Nat → Nat → UInt8) (t : HuffPair × HuffPair)

include hwf in
theorem decoded_lists (sl : Nat) :
    dcSymbolsUninterrupted (e.decoded F image P t) (mkFrame e.mode.isProg image.width image.height (initComponents e.samplingFactor image.colorType)) sl =
      dcList (mkFrame e.mode.isProg image.width image.height (initComponents e.samplingFactor image.colorType)) (e.coefs F image P)
        (e.mode.scans (initComponents e.samplingFactor image.colorType)) sl ∧
    acSymbolsOf (e.decoded F image P t) (mkFrame e.mode.isProg image.width image.height (initComponents e.samplingFactor image.colorType)) sl =
      acList (mkFrame e.mode.isProg image.width image.height (initComponents e.samplingFactor image.colorType)) (e.coefs F image P)
        (e.mode.scans (initComponents e.samplingFactor image.colorType)) sl := by
  have hg := (initComponents_grid e.samplingFactor image.colorType).1
  have hmo := hwf.mode_ok false (by simp) image.colorType
  have hco : ∀ c ∈ initComponents e.samplingFactor image.colorType, ∀ p ∈ blockPositions (mkFrame e.mode.isProg image.width image.height (initComponents e.samplingFactor image.colorType)) c.id,
      ∀ k, k < 64 → (e.decoded F image P t).coefs c.id p.1 p.2 k = e.coefs F image P c.id p.1 p.2 k := by
    intro c hc p hp k hk
    unfold blockPositions at hp
    rw [(dcValues_decoded (F := F) P t hc).1] at hp
    simp only [raster, List.mem_flatMap, List.mem_map, List.mem_range] at hp
    obtain ⟨y, hy, x, hx, rfl⟩ := hp
    exact fileDec_coefs _ _ _ hmo _ _ hg (init_one _ _) _ _ _ _ _ hc hy hx hk
  have hmem : ∀ sd ∈ e.mode.scans (initComponents e.samplingFactor image.colorType), ∀ c ∈ sd.cs, c ∈ initComponents e.samplingFactor image.colorType := by
    intro sd hsd c hc
    rcases mem_scans hsd with ⟨c', hcm, h1⟩ | h1
    · rw [h1, List.mem_singleton] at hc
      rw [hc]; exact hcm
    · rw [h1] at hc; exact hc
  have hsc : (e.decoded F image P t).scans = (e.mode.scans (initComponents e.samplingFactor image.colorType)).map
      (·.log (mkFrame e.mode.isProg image.width image.height (initComponents e.samplingFactor image.colorType)) t (e.coefs F image P) e.interval) := rfl
  constructor
  · unfold dcSymbolsUninterrupted dcList
    rw [hsc, List.flatMap_map]
    refine List.flatMap_congr fun sd hsd => ?_
    show (if sd.ss = 0 then (sd.cs.map Component.scanComp).flatMap _ else []) = _
    by_cases hss : sd.ss = 0
    · simp only [if_pos hss]
      rw [List.flatMap_map]
      refine List.flatMap_congr fun c hc => ?_
      show (if c.dcHuffmanTable = sl then _ else []) = _
      split
      · unfold dcValues
        congr 1
        exact List.map_congr_left fun p hp => hco c (hmem sd hsd c hc) p hp 0 (by omega)
      · rfl
    · simp only [if_neg hss]
      symm
      exact List.flatMap_eq_nil_iff.mpr fun _ _ => rfl
  · unfold acSymbolsOf acList
    rw [hsc, List.flatMap_map]
    refine List.flatMap_congr fun sd hsd => ?_
    show (sd.cs.map Component.scanComp).flatMap _ = _
    rw [List.flatMap_map]
    refine List.flatMap_congr fun c hc => ?_
    show (if c.acHuffmanTable = sl then _ else []) = _
    split
    · refine List.flatMap_congr fun p hp => ?_
      congr 1
      unfold bandOf
      show (List.range (sd.se + 1 - max sd.ss 1)).map _ = _
      refine List.map_congr_left fun i hi => ?_
      have hi := List.mem_range.mp hi
      have hse := scans_se hg.ok hmo sd hsd
      exact hco c (hmem sd hsd c hc) p hp _ (by show max sd.ss 1 + i < 64; omega)
    · rfl

/-- The bits of the scans of a file without restarts in terms of the symbols of every table. -/
theorem decoded_bits (hso : (∃ c, initComponents e.samplingFactor image.colorType = [c]) ∨ e.mode ≠ .interleaved ∨
    ∀ c ∈ initComponents e.samplingFactor image.colorType, c.horizontalSamplingFactor = 1 ∧ c.verticalSamplingFactor = 1) :
    (∀ s ∈ (e.decoded F image P t).scans, intervalBits (e.decoded F image P t) s.scan (layout (mkFrame e.mode.isProg image.width image.height (initComponents e.samplingFactor image.colorType))
      (scanFrameComps (mkFrame e.mode.isProg image.width image.height (initComponents e.samplingFactor image.colorType)) s.scan)).flatten =
      (s.scan.comps.map (rasterBits (e.decoded F image P t) (mkFrame e.mode.isProg image.width image.height (initComponents e.samplingFactor image.colorType)) s.scan)).sum) ∧
    ∀ s ∈ (e.decoded F image P t).scans, ∀ sc ∈ s.scan.comps, sc.td < 2 ∧ sc.ta < 2 := by
  have hg := (initComponents_grid e.samplingFactor image.colorType).1
  have hmem : ∀ sd ∈ e.mode.scans (initComponents e.samplingFactor image.colorType), ∀ c ∈ sd.cs, c ∈ initComponents e.samplingFactor image.colorType := by
    intro sd hsd c hc
    rcases mem_scans hsd with ⟨c', hcm, h1⟩ | h1
    · rw [h1, List.mem_singleton] at hc
      rw [hc]; exact hcm
    · rw [h1] at hc; exact hc
  constructor
  · intro s hs
    obtain ⟨sd, hsd, rfl⟩ := List.mem_map.mp hs
    refine intervalBits_raster _ _ _ ?_ ?_
    · intro sc hsc
      obtain ⟨c, hc, rfl⟩ := List.mem_map.mp hsc
      show ((mkFrame _ _ _ _).comps[c.id]?).isSome
      rw [(dcValues_decoded (F := F) P t (hmem sd hsd c hc)).1]
      rfl
    · show (sd.cs.map Component.scanComp).length = 1 ∨ _
      rw [List.length_map]
      rcases hso with ⟨c, h1⟩ | h1 | h1
      · left
        rcases mem_scans hsd with ⟨c', -, h2⟩ | h2
        · rw [h2]; rfl
        · rw [h2, h1]; rfl
      · left
        cases hm : e.mode with
        | interleaved => exact absurd hm h1
        | sequential =>
          rw [hm] at hsd
          obtain ⟨c, -, rfl⟩ := List.mem_map.mp hsd
          rfl
        | progressive n =>
          rw [hm] at hsd
          simp only [Mode.scans] at hsd
          rcases List.mem_append.mp hsd with hsd | hsd
          · obtain ⟨c, -, rfl⟩ := List.mem_map.mp hsd
            rfl
          · obtain ⟨b, -, hsd⟩ := List.mem_flatMap.mp hsd
            obtain ⟨c, -, rfl⟩ := List.mem_map.mp hsd
            rfl
      · right
        intro c hc
        obtain ⟨c', hc', rfl⟩ := List.mem_map.mp hc
        exact h1 c' hc'
  · intro s hs sc hsc
    obtain ⟨sd, hsd, rfl⟩ := List.mem_map.mp hs
    obtain ⟨c, hc, rfl⟩ := List.mem_map.mp hsc
    exact ⟨hg.ok.dc c (hmem sd hsd c hc), hg.ok.ac c (hmem sd hsd c hc)⟩

end


/-- The bits of the coefficients `E` with the tables in `d`. -/
def tableBits (d : Dec) (f : Frame) (E : Coefs) (l : List ScanDesc) : Nat :=
  symbolBits (d.dc 0) (dcList f E l 0) + symbolBits (d.ac 0) (acList f E l 0) + (symbolBits (d.dc 1) (dcList f E l 1) + symbolBits (d.ac 1) (acList f E l 1))

section
variable {e : Encoder} (hwf : e.Wf) {simd : Bool} {image : ImageBuffer} {P : Nat → Nat → Nat → UInt8} {t : HuffPair × HuffPair} (hw : Works simd e image P t)
  (hr : e.restartInterval = none)
  (hso : (∃ c, initComponents e.samplingFactor image.colorType = [c]) ∨ e.mode ≠ .interleaved ∨
    ∀ c ∈ initComponents e.samplingFactor image.colorType, c.horizontalSamplingFactor = 1 ∧ c.verticalSamplingFactor = 1)
include hwf hw hr hso

/-- The size of the scans of a file between bounds that depend on the bits of the coefficients. -/
theorem decoded_bounds (d : Dec) (hd : d = e.decoded (dctFn simd) image P t) (f : Frame)
    (hf : f = mkFrame e.mode.isProg image.width image.height (initComponents e.samplingFactor image.colorType)) :
    8 * (d.scans.map fun s => 8 + 2 * s.scan.comps.length + s.data.length).sum ≤
      8 * (d.scans.map fun s => 8 + 2 * s.scan.comps.length).sum + 8 * stuffedBytes d +
        tableBits d f (e.coefs (dctFn simd) image P) (e.mode.scans (initComponents e.samplingFactor image.colorType)) + 7 * d.scans.length ∧
    8 * (d.scans.map fun s => 8 + 2 * s.scan.comps.length).sum + 8 * stuffedBytes d +
        tableBits d f (e.coefs (dctFn simd) image P) (e.mode.scans (initComponents e.samplingFactor image.colorType)) ≤
      8 * (d.scans.map fun s => 8 + 2 * s.scan.comps.length + s.data.length).sum := by
  subst hd hf
  have hg := (initComponents_grid e.samplingFactor image.colorType).1
  obtain ⟨b1, b2⟩ := decoded_bits (dctFn simd) image P t hso
  have hri : (e.decoded (dctFn simd) image P t).ri = 0 := by
    show (e.restartInterval.map UInt16.toNat).getD 0 = 0
    rw [hr]; rfl
  have hdata : ∀ s ∈ (e.decoded (dctFn simd) image P t).scans, s.data.length = dataBytes (e.decoded (dctFn simd) image P t)
      (mkFrame e.mode.isProg image.width image.height (initComponents e.samplingFactor image.colorType)) s.scan (s.data.count 0xFF) := by
    intro s hs
    obtain ⟨sd, hsd, rfl⟩ := List.mem_map.mp hs
    refine log_exact (decoded_ready e (dctFn simd) image P t) hg.ok sd ?_ (hw.cod.units sd hsd) fun u hu k h1 h2 => ?_
    · rcases mem_scans hsd with ⟨c, hcm, h1⟩ | h1
      · intro c' hc'
        rw [h1, List.mem_singleton] at hc'
        rw [hc']; exact hcm
      · rw [h1]; exact fun c hc => hc
    · exact coefsAfter_mem _ _ (Or.inl ⟨sd, hsd, List.mem_map.mpr ⟨u, hu, rfl⟩, h1, h2⟩)
  have hb := data_bounds _ _ hri hdata b1
  rw [bits_by_table _ _ b2] at hb
  have l0 := decoded_lists hwf (dctFn simd) image P t 0
  have l1 := decoded_lists hwf (dctFn simd) image P t 1
  rw [l0.1, l0.2, l1.1, l1.2] at hb
  exact hb

end

theorem symbolBits_mono {t : HuffTable} {l l' : List Nat} (hp : l.Perm l') : symbolBits (some t) l = symbolBits (some t) l' := (hp.map _).sum_eq

/-- An optimised table against a standard table. -/
theorem opt_against {alphabet syms : List Nat} {t : HuffmanTable} (h : OptTable alphabet syms t) (h16 : t.spec.counts.getD 15 0 = 0) {T' : HuffTable} (hT : T'.WellFormed)
    (ha : ∀ v ∈ alphabet, v ∈ T'.values) :
    dhtBytes (some t.spec) ≤ dhtBytes (some T') ∧ symbolBits (some t.spec) syms ≤ symbolBits (some T') syms + 15 := by
  constructor
  · have h1 : t.spec.values.length ≤ T'.values.length := by
      refine (List.subperm_of_subset h.file.ok.wf.values_nodup fun v hv => ?_).length_le
      exact ha v (h.sub v ((h.mem v).mp hv))
    show 21 + _ ≤ 21 + _
    omega
  · exact symbolBits_le (h.optimal h16 hT fun v hv => ha v (h.sub v hv))

theorem scan_headers (f : Frame) (t : HuffPair × HuffPair) (E : Coefs) (ri : Nat) (l : List ScanDesc) :
    ((l.map (·.log f t E ri)).map fun s => 8 + 2 * s.scan.comps.length).sum = (l.map fun sd => 8 + 2 * sd.cs.length).sum := by
  rw [List.map_map]
  refine congrArg List.sum (List.map_congr_left fun sd _ => ?_)
  show 8 + 2 * (sd.cs.map Component.scanComp).length = _
  rw [List.length_map]

theorem scan_headers_le (cs : List Component) (hcs : cs.length ≤ 4) :
    ((Mode.scans cs .sequential).map fun sd => 8 + 2 * sd.cs.length).sum ≤ ((Mode.scans cs .interleaved).map fun sd => 8 + 2 * sd.cs.length).sum + 24 := by
  simp only [Mode.scans, List.map_cons, List.map_nil, List.sum_cons, List.sum_nil, List.map_map]
  have h : (cs.map ((fun sd : ScanDesc => 8 + 2 * sd.cs.length) ∘ fun c => ⟨[c], 0, 63⟩)) = cs.map fun _ => 10 := List.map_congr_left fun c _ => rfl
  rw [h, List.map_const', List.sum_replicate]
  simp only [smul_eq_mul]
  omega

theorem factors_interleaved (sf : SamplingFactor) (h : 2 < sf.factors.1 ∨ 2 < sf.factors.2) : sf.supportsInterleaved = false := by
  revert h
  cases sf <;> decide

section
variable {e1 e0 : Encoder} {simd : Bool} {image : ImageBuffer} {P : Nat → Nat → Nat → UInt8} {t1 t0 : HuffPair × HuffPair}

/-- What the tables of a file with optimised tables and of one with the standard tables have to do with each other. -/
def TableGain (d1 d0 : Dec) (f : Frame) : Prop :=
  ∀ sl, sl < 2 → (∀ T T', d1.dc sl = some T → d0.dc sl = some T' →
      dhtBytes (some T) ≤ dhtBytes (some T') ∧ symbolBits (some T) (dcSymbolsUninterrupted d1 f sl) ≤ symbolBits (some T') (dcSymbolsUninterrupted d1 f sl) + 15) ∧
    (∀ T T', d1.ac sl = some T → d0.ac sl = some T' →
      dhtBytes (some T) ≤ dhtBytes (some T') ∧ symbolBits (some T) (acSymbolsOf d1 f sl) ≤ symbolBits (some T') (acSymbolsOf d1 f sl) + 15)

theorem opt_le {T T' : Option HuffTable} {L : List Nat} (h : T.isSome = T'.isSome)
    (hg : ∀ t t', T = some t → T' = some t' → dhtBytes (some t) ≤ dhtBytes (some t') ∧ symbolBits (some t) L ≤ symbolBits (some t') L + 15) :
    dhtBytes T ≤ dhtBytes T' ∧ symbolBits T L ≤ symbolBits T' L + 15 := by
  cases T with
  | none =>
    cases T' with
    | none => exact ⟨Nat.le_refl _, Nat.le_add_right _ _⟩
    | some _ => simp at h
  | some a =>
    cases T' with
    | none => simp at h
    | some b => exact hg a b rfl rfl

theorem decoded_tables (e : Encoder) (F : List Int → List Int) (t : HuffPair × HuffPair) (sl : Nat) :
    ((e.decoded F image P t).dc sl).isSome = decide (sl = 0 ∨ sl = 1 ∧ 3 ≤ (initComponents e.samplingFactor image.colorType).length) ∧
    ((e.decoded F image P t).ac sl).isSome = decide (sl = 0 ∨ sl = 1 ∧ 3 ≤ (initComponents e.samplingFactor image.colorType).length) := by
  simp only [Encoder.decoded, fileDec, frameDec, Dec.init]
  by_cases hl : (initComponents e.samplingFactor image.colorType).length ≥ 3
  · simp only [if_pos hl, upd]
    constructor <;> by_cases h1 : sl = 1 <;> by_cases h0 : sl = 0 <;> simp [h1, h0, hl]
  · have hl' : ¬ 3 ≤ (initComponents e.samplingFactor image.colorType).length := hl
    simp only [if_neg hl, upd]
    constructor <;> by_cases h0 : sl = 0 <;> simp [h0, hl']

variable (hwf1 : e1.Wf) (hwf0 : e0.Wf) (hw1 : Works simd e1 image P t1) (hw0 : Works simd e0 image P t0)
  (hr1 : e1.restartInterval = none) (hr0 : e0.restartInterval = none) (hsf : e1.samplingFactor = e0.samplingFactor) (hden : e1.density = e0.density)
  (happs : e1.appSegments = e0.appSegments) (hps : e1.progressiveScans = e0.progressiveScans) (hs0 : e1.steps0 = e0.steps0) (hs1 : e1.steps1 = e0.steps1)
  (ho1 : e1.optimizeHuffmanTable = true) (ho0 : e0.optimizeHuffmanTable = false)
  (hso : Spec.SameOrder e0 image.colorType)
include hwf1 hwf0 hw1 hw0 hr1 hr0 hsf hden happs hps hs0 hs1 ho1 ho0 hso

theorem file_gain (hg : TableGain (e1.decoded (dctFn simd) image P t1) (e0.decoded (dctFn simd) image P t0)
      (mkFrame e1.mode.isProg image.width image.height (initComponents e1.samplingFactor image.colorType))) :
    (e1.file (dctFn simd) image P t1).length + stuffedBytes (e0.decoded (dctFn simd) image P t0) ≤
      (e0.file (dctFn simd) image P t0).length + stuffedBytes (e1.decoded (dctFn simd) image P t1) + 32 + (e1.decoded (dctFn simd) image P t1).scans.length := by
  have hcoef : e1.coefs (dctFn simd) image P = e0.coefs (dctFn simd) image P := by
    unfold Encoder.coefs
    rw [hs0, hs1, hsf]
  have hprog : e1.mode.isProg = e0.mode.isProg := by
    unfold Encoder.mode
    rw [hps]
    cases e0.progressiveScans with
    | some n => rfl
    | none => simp only []; split <;> split <;> rfl
  have hso0 : (∃ c, initComponents e0.samplingFactor image.colorType = [c]) ∨ e0.mode ≠ .interleaved ∨
      ∀ c ∈ initComponents e0.samplingFactor image.colorType, c.horizontalSamplingFactor = 1 ∧ c.verticalSamplingFactor = 1 := by
    rcases hso with h | h | h | h | h
    · right; left
      unfold Encoder.mode
      cases hp : e0.progressiveScans with
      | none => exact absurd hp h
      | some n => intro h; cases h
    · left
      rw [h]
      exact ⟨_, rfl⟩
    · right; right
      have h : e0.samplingFactor.factors = (1, 1) := h
      cases image.colorType <;> simp [initComponents, h, mkComponent]
    · right; left
      have h : 2 < e0.samplingFactor.factors.1 := h
      unfold Encoder.mode
      rw [factors_interleaved _ (Or.inl h)]
      cases hp : e0.progressiveScans <;> simp
    · right; left
      have h : 2 < e0.samplingFactor.factors.2 := h
      unfold Encoder.mode
      rw [factors_interleaved _ (Or.inr h)]
      cases hp : e0.progressiveScans <;> simp
  have hm1 : e1.mode = e0.mode ∨ e1.mode = .sequential ∧ e0.mode = .interleaved := by
    unfold Encoder.mode
    rw [hps]
    cases e0.progressiveScans with
    | some n => left; rfl
    | none =>
      rw [ho1, ho0, hsf]
      cases e0.samplingFactor.supportsInterleaved <;> simp
  have hni : e1.mode ≠ .interleaved := by
    unfold Encoder.mode
    rw [ho1]
    cases e1.progressiveScans <;> simp
  have b1 := (decoded_bounds hwf1 hw1 hr1 (Or.inr (Or.inl hni)) _ rfl _ rfl).1
  have b0 := (decoded_bounds hwf0 hw0 hr0 hso0 _ rfl _ rfl).2
  have len1 : (e1.file (dctFn simd) image P t1).length = _ := file_exact hw1.cod.tabs
  have len0 : (e0.file (dctFn simd) image P t0).length = _ := file_exact hw0.cod.tabs
  have hgb := fun sl (h : sl < 2) => hg sl h
  have ht1 := decoded_tables (image := image) (P := P) e1 (dctFn simd) t1
  have ht0 := decoded_tables (image := image) (P := P) e0 (dctFn simd) t0
  have hli := decoded_lists hwf1 (dctFn simd) image P t1
  have hscans : ∀ sl, dcList (mkFrame e0.mode.isProg image.width image.height (initComponents e0.samplingFactor image.colorType)) (e0.coefs (dctFn simd) image P)
      (e1.mode.scans (initComponents e0.samplingFactor image.colorType)) sl =
      dcList (mkFrame e0.mode.isProg image.width image.height (initComponents e0.samplingFactor image.colorType)) (e0.coefs (dctFn simd) image P)
      (e0.mode.scans (initComponents e0.samplingFactor image.colorType)) sl ∧
      acList (mkFrame e0.mode.isProg image.width image.height (initComponents e0.samplingFactor image.colorType)) (e0.coefs (dctFn simd) image P)
      (e1.mode.scans (initComponents e0.samplingFactor image.colorType)) sl =
      acList (mkFrame e0.mode.isProg image.width image.height (initComponents e0.samplingFactor image.colorType)) (e0.coefs (dctFn simd) image P)
      (e0.mode.scans (initComponents e0.samplingFactor image.colorType)) sl := by
    intro sl
    rcases hm1 with h | ⟨h1, h0⟩
    · rw [h]; exact ⟨rfl, rfl⟩
    · rw [h1, h0]
      have := lists_sequential (mkFrame (Mode.interleaved).isProg image.width image.height (initComponents e0.samplingFactor image.colorType)) (e0.coefs (dctFn simd) image P)
        (initComponents e0.samplingFactor image.colorType) sl
      exact ⟨this.1.symm, this.2.symm⟩
  have hlen4 : (initComponents e0.samplingFactor image.colorType).length ≤ 4 := by
    cases image.colorType <;> simp [initComponents]
  have hhead : ((e1.decoded (dctFn simd) image P t1).scans.map fun s => 8 + 2 * s.scan.comps.length).sum ≤
      ((e0.decoded (dctFn simd) image P t0).scans.map fun s => 8 + 2 * s.scan.comps.length).sum + 24 := by
    have k1 := scan_headers (mkFrame e1.mode.isProg image.width image.height (initComponents e1.samplingFactor image.colorType)) t1 (e1.coefs (dctFn simd) image P) e1.interval
      (e1.mode.scans (initComponents e1.samplingFactor image.colorType))
    have k0 := scan_headers (mkFrame e0.mode.isProg image.width image.height (initComponents e0.samplingFactor image.colorType)) t0 (e0.coefs (dctFn simd) image P) e0.interval
      (e0.mode.scans (initComponents e0.samplingFactor image.colorType))
    refine Nat.le_trans (Nat.le_of_eq k1) (Nat.le_trans ?_ (Nat.add_le_add_right (Nat.le_of_eq k0.symm) 24))
    rw [hsf]
    rcases hm1 with h | ⟨h1, h0⟩
    · rw [h]; exact Nat.le_add_right _ _
    · rw [h1, h0]; exact scan_headers_le _ hlen4
  have happ : (e1.decoded (dctFn simd) image P t1).apps = (e0.decoded (dctFn simd) image P t0).apps := by
    show fileApps _ _ _ = fileApps _ _ _
    rw [hden, happs]
  have hdd : (e1.decoded (dctFn simd) image P t1).markers.count 0xDD = (e0.decoded (dctFn simd) image P t0).markers.count 0xDD := by
    have k1 := count_dri (den := e1.density) (ct := image.colorType) (apps := e1.appSegments) (m := e1.mode) (w := image.width) (h := image.height)
      (cs := initComponents e1.samplingFactor image.colorType) (s0 := e1.steps0) (s1 := e1.steps1) (t := t1) (ri := e1.restartInterval) (E := e1.coefs (dctFn simd) image P)
    have k0 := count_dri (den := e0.density) (ct := image.colorType) (apps := e0.appSegments) (m := e0.mode) (w := image.width) (h := image.height)
      (cs := initComponents e0.samplingFactor image.colorType) (s0 := e0.steps0) (s1 := e0.steps1) (t := t0) (ri := e0.restartInterval) (E := e0.coefs (dctFn simd) image P)
    rw [hr1] at k1
    rw [hr0] at k0
    show (fileDec _ _ _ _ _ _ _ _ _ _ _ _).markers.count 0xDD = (fileDec _ _ _ _ _ _ _ _ _ _ _ _).markers.count 0xDD
    rw [hr1, hr0, k1, k0]
  have htb : tableBits (e1.decoded (dctFn simd) image P t1) (mkFrame e1.mode.isProg image.width image.height (initComponents e1.samplingFactor image.colorType))
      (e1.coefs (dctFn simd) image P) (e1.mode.scans (initComponents e1.samplingFactor image.colorType)) ≤
      tableBits (e0.decoded (dctFn simd) image P t0) (mkFrame e0.mode.isProg image.width image.height (initComponents e0.samplingFactor image.colorType))
      (e0.coefs (dctFn simd) image P) (e0.mode.scans (initComponents e0.samplingFactor image.colorType)) + 60 ∧
      dhtBytes ((e1.decoded (dctFn simd) image P t1).dc 0) + dhtBytes ((e1.decoded (dctFn simd) image P t1).ac 0) + dhtBytes ((e1.decoded (dctFn simd) image P t1).dc 1) +
        dhtBytes ((e1.decoded (dctFn simd) image P t1).ac 1) ≤
      dhtBytes ((e0.decoded (dctFn simd) image P t0).dc 0) + dhtBytes ((e0.decoded (dctFn simd) image P t0).ac 0) + dhtBytes ((e0.decoded (dctFn simd) image P t0).dc 1) +
        dhtBytes ((e0.decoded (dctFn simd) image P t0).ac 1) := by
    have both : ∀ sl, sl < 2 →
        (dhtBytes ((e1.decoded (dctFn simd) image P t1).dc sl) ≤ dhtBytes ((e0.decoded (dctFn simd) image P t0).dc sl) ∧
          symbolBits ((e1.decoded (dctFn simd) image P t1).dc sl) (dcList (mkFrame e1.mode.isProg image.width image.height (initComponents e1.samplingFactor image.colorType))
            (e1.coefs (dctFn simd) image P) (e1.mode.scans (initComponents e1.samplingFactor image.colorType)) sl) ≤
          symbolBits ((e0.decoded (dctFn simd) image P t0).dc sl) (dcList (mkFrame e0.mode.isProg image.width image.height (initComponents e0.samplingFactor image.colorType))
            (e0.coefs (dctFn simd) image P) (e0.mode.scans (initComponents e0.samplingFactor image.colorType)) sl) + 15) ∧
        (dhtBytes ((e1.decoded (dctFn simd) image P t1).ac sl) ≤ dhtBytes ((e0.decoded (dctFn simd) image P t0).ac sl) ∧
          symbolBits ((e1.decoded (dctFn simd) image P t1).ac sl) (acList (mkFrame e1.mode.isProg image.width image.height (initComponents e1.samplingFactor image.colorType))
            (e1.coefs (dctFn simd) image P) (e1.mode.scans (initComponents e1.samplingFactor image.colorType)) sl) ≤
          symbolBits ((e0.decoded (dctFn simd) image P t0).ac sl) (acList (mkFrame e0.mode.isProg image.width image.height (initComponents e0.samplingFactor image.colorType))
            (e0.coefs (dctFn simd) image P) (e0.mode.scans (initComponents e0.samplingFactor image.colorType)) sl) + 15) := by
      intro sl hsl
      obtain ⟨g1, g2⟩ := hg sl hsl
      rw [← (hli sl).1, ← (hli sl).2]
      have q1 := (hli sl).1
      have q2 := (hli sl).2
      rw [hprog, hsf, hcoef, (hscans sl).1] at q1
      rw [hprog, hsf, hcoef, (hscans sl).2] at q2
      rw [← q1, ← q2, ← hprog, ← hsf]
      refine ⟨opt_le ?_ g1, opt_le ?_ g2⟩
      · rw [(ht1 sl).1, (ht0 sl).1, hsf]
      · rw [(ht1 sl).2, (ht0 sl).2, hsf]
    obtain ⟨⟨x1, x2⟩, x3, x4⟩ := both 0 (by omega)
    obtain ⟨⟨y1, y2⟩, y3, y4⟩ := both 1 (by omega)
    unfold tableBits
    omega
  have hfl : (mkFrame e1.mode.isProg image.width image.height (initComponents e1.samplingFactor image.colorType)).comps.length =
      (mkFrame e0.mode.isProg image.width image.height (initComponents e0.samplingFactor image.colorType)).comps.length := by rw [hsf]; rfl
  rw [len1, len0]
  unfold fileSize
  rw [show fileDec e1.density image.colorType e1.appSegments e1.mode image.width image.height (initComponents e1.samplingFactor image.colorType) e1.steps0 e1.steps1 t1
      e1.restartInterval (e1.coefs (dctFn simd) image P) = e1.decoded (dctFn simd) image P t1 from rfl,
    show fileDec e0.density image.colorType e0.appSegments e0.mode image.width image.height (initComponents e0.samplingFactor image.colorType) e0.steps0 e0.steps1 t0
      e0.restartInterval (e0.coefs (dctFn simd) image P) = e0.decoded (dctFn simd) image P t0 from rfl, happ, hdd, hfl]
  obtain ⟨z1, z2⟩ := htb
  omega

end


section
variable {pf : Platform} (hpf : pf.Valid) {q : UInt8} {calls : List Spec.Call} {e1 e0 : Encoder} (hc1 : Configured pf q (calls ++ [.setOptimizedHuffmanTables true]) e1)
  (hc0 : Configured pf q (calls ++ [.setOptimizedHuffmanTables false]) e0)
  {simd : Bool} {p1 p0 : Prog (R Unit)} {ct : JpegColorType} {w h : UInt16} {P : Nat → Nat → Nat → UInt8} (hp1 : Spec.EncodeCall pf simd e1 p1 ct w h P)
  (hp0 : Spec.EncodeCall pf simd e0 p0 ct w h P) (hs1 : Spec.Supported pf simd e1 ct w h P) (hs0 : Spec.Supported pf simd e0 ct w h P)
  (h8 : Spec.EightBit e1.getQuantizationTables) {strict : Bool} (hst : ScansFine strict e1)
include hpf hc1 hc0 hp1 hp0 hs1 hs0 h8 hst

/-- C94: the file with optimised Huffman tables is at most 32 bytes plus one byte per scan larger than the file with the standard tables, if the difference of the
number of stuffed zero bytes is not counted, there are no restarts, the order of the blocks is the same, and no AC code has 16 bits (which takes more than 2582 symbols). -/
theorem C94_optimised (hri : e1.getRestartInterval = none) (hso : Spec.SameOrder e1 ct) :
    Spec.Encodes p1 strict fun bytes1 d1 => Spec.Encodes p0 strict fun bytes0 d0 =>
      (∀ f sl T, d1.frame = some f → d1.ac sl = some T → T.counts.getD 15 0 = 0 ∨ (acSymbolsOf d1 f sl).length ≤ 2582) →
      bytes1.length + stuffedBytes d0 ≤ bytes0.length + stuffedBytes d1 + 32 + d1.scans.length := by
  have c1 := hc1.settings.1
  have c0 := hc0.settings.1
  have g1 : e1.samplingFactor = e0.samplingFactor := by
    have a := c1.sampling
    have b := c0.sampling
    rw [latest_snoc] at a b
    exact a.trans b.symm
  have g2 : e1.density = e0.density := by
    have a := c1.density
    have b := c0.density
    rw [latest_snoc] at a b
    exact a.trans b.symm
  have g3 : e1.progressiveScans = e0.progressiveScans := by
    have a := c1.scans
    have b := c0.scans
    rw [latest_snoc] at a b
    exact a.trans b.symm
  have g4 : e1.restartInterval = e0.restartInterval := by
    have a := c1.restart
    have b := c0.restart
    rw [latest_snoc] at a b
    exact a.trans b.symm
  have g5 : e1.getQuantizationTables = e0.getQuantizationTables := by
    have a := c1.quant
    have b := c0.quant
    rw [latest_snoc] at a b
    exact a.trans b.symm
  have g6 : e1.quality = e0.quality := c1.quality.trans c0.quality.symm
  have g7 : e1.appSegments = e0.appSegments := by rw [hc1.apps, hc0.apps]; simp [Spec.Call.segments]
  have ho1 : e1.getOptimizedHuffmanTables = true := by rw [c1.optimized]; simp [latest_snoc, Spec.wantOptimized]
  have ho0 : e0.getOptimizedHuffmanTables = false := by rw [c0.optimized]; simp [latest_snoc, Spec.wantOptimized]
  have hst0 : ScansFine strict e0 := fun h n hn => hst h n (g3.trans hn)
  have both := (encodes_of hpf hc1 hp1 hs1 h8 hst (Q := fun bytes d => ∃ image t, image.colorType = ct ∧ image.width = w ∧ image.height = h ∧ Works simd e1 image P t ∧
    bytes = e1.file (dctFn simd) image P t ∧ d = e1.decoded (dctFn simd) image P t) fun image t a b c ht => ⟨image, t, a, b, c, ht, rfl, rfl⟩).and
    (opt_tables hpf hc1 hp1 hs1 h8 hst ho1 (Q := fun _ d => ∀ f, d.frame = some f → 
      (∀ sl T, d.dc sl = some T → ∃ t, T = t.spec ∧ OptTable Jpeg.dcSymbols (dcSymbolsUninterrupted d f sl) t) ∧
      (∀ sl T, d.ac sl = some T → ∃ t syms, T = t.spec ∧ syms.Perm (acSymbolsOf d f sl) ∧ OptTable Jpeg.acSymbols syms t)) fun _ d f hf _ k1 k2 _ _ => by
      intro f' hf'
      rw [hf] at hf'
      cases hf'
      exact ⟨k1, k2⟩)
  refine both.mono fun bytes1 d1 hb1 => ?_
  obtain ⟨⟨image1, t1, rfl, rfl, rfl, hw1, rfl, rfl⟩, hopt⟩ := hb1
  refine ((encodes_of hpf hc0 hp0 hs0 (g5 ▸ h8) hst0 (Q := fun bytes d => ∃ image t, image.colorType = image1.colorType ∧ image.width = image1.width ∧ image.height = image1.height ∧ Works simd e0 image P t ∧
    bytes = e0.file (dctFn simd) image P t ∧ d = e0.decoded (dctFn simd) image P t) fun image t a b c ht => ⟨image, t, a, b, c, ht, rfl, rfl⟩).and
    (C44_standard_huffman_tables hpf hc0 hp0 hs0 (g5 ▸ h8) hst0 ho0)).mono fun bytes0 d0 hb0 h16 => ?_
  obtain ⟨⟨image0, t0, hi1, hi2, hi3, hw0, rfl, rfl⟩, hstd⟩ := hb0
  obtain ⟨ict, iw, ih, ifb⟩ := image1
  obtain ⟨ict0, iw0, ih0, ifb0⟩ := image0
  simp only at hi1 hi2 hi3
  subst hi1 hi2 hi3
  have hst0' : e1.steps0 = e0.steps0 ∧ e1.steps1 = e0.steps1 := by
    have g5a : e1.quantizationTables = e0.quantizationTables := g5
    unfold Encoder.steps0 Encoder.steps1
    rw [g5a, g6]
    exact ⟨rfl, rfl⟩
  have hso0 : Spec.SameOrder e0 ict0 := by
    unfold Spec.SameOrder Encoder.getProgressiveScans Encoder.getSamplingFactor at hso ⊢
    rw [← g1, ← g3]
    exact hso
  obtain ⟨o1, o2⟩ := hopt _ rfl
  have hk : (∀ T' ∈ [tableK3, tableK4], T'.WellFormed ∧ ∀ v ∈ Jpeg.dcSymbols, v ∈ T'.values) ∧
      ∀ T' ∈ [tableK5, tableK6], T'.WellFormed ∧ ∀ v ∈ Jpeg.acSymbols, v ∈ T'.values := by decide +kernel
  obtain ⟨s1, s2, s3⟩ := hstd
  have hslot : ∀ sl, sl < 2 → (∀ T', (e0.decoded (dctFn simd) ⟨ict0, iw0, ih0, ifb0⟩ P t0).dc sl = some T' → T' ∈ [tableK3, tableK4]) ∧
      ∀ T', (e0.decoded (dctFn simd) ⟨ict0, iw0, ih0, ifb0⟩ P t0).ac sl = some T' → T' ∈ [tableK5, tableK6] := by
    intro sl hsl
    have hcase : sl = 0 ∨ sl = 1 := by omega
    rcases hcase with rfl | rfl
    · constructor
      · intro T' hT; rw [s1] at hT; cases hT; simp
      · intro T' hT; rw [s2] at hT; cases hT; simp
    · by_cases hcc : Spec.componentCount ict0 = 1
      · have hl : ¬ 3 ≤ (initComponents e0.samplingFactor ict0).length := by
          revert hcc
          cases ict0 <;> simp [Spec.componentCount, initComponents]
        obtain ⟨n1, n2⟩ := decoded_tables (image := ⟨ict0, iw0, ih0, ifb0⟩) (P := P) e0 (dctFn simd) t0 1
        simp only [hl] at n1 n2
        constructor
        · intro T' hT; rw [hT] at n1; simp at n1
        · intro T' hT; rw [hT] at n2; simp at n2
      · obtain ⟨s4, s5⟩ := s3 hcc
        constructor
        · intro T' hT; rw [s4] at hT; cases hT; simp
        · intro T' hT; rw [s5] at hT; cases hT; simp
  have hgain : TableGain (e1.decoded (dctFn simd) ⟨ict0, iw0, ih0, ifb⟩ P t1) (e0.decoded (dctFn simd) ⟨ict0, iw0, ih0, ifb0⟩ P t0)
      (mkFrame e1.mode.isProg iw0 ih0 (initComponents e1.samplingFactor ict0)) := by
    intro sl hsl
    constructor
    · intro T T' hT hT'
      obtain ⟨t, rfl, ht⟩ := o1 sl T hT
      have hm := hk.1 T' ((hslot sl hsl).1 T' hT')
      exact opt_against ht (ht.short (by decide)) hm.1 hm.2
    · intro T T' hT hT'
      obtain ⟨t, syms, rfl, hperm, ht⟩ := o2 sl T hT
      have hm := hk.2 T' ((hslot sl hsl).2 T' hT')
      have := opt_against ht ((h16 _ sl _ rfl hT).elim id fun h => ht.short_of_few (hperm.length_eq.trans_le h)) hm.1 hm.2
      rwa [symbolBits_mono hperm, symbolBits_mono hperm] at this
  exact file_gain hc1.wf hc0.wf hw1 (image := ⟨ict0, iw0, ih0, ifb⟩) (t0 := t0) ⟨hw0.opt, ⟨hw0.cod.tabs, hw0.cod.units⟩⟩ hri (g4 ▸ hri) g1 g2 g7 g3 hst0'.1 hst0'.2 ho1 ho0 hso0 hgain

/-- C94 for images with at most 40 blocks per Huffman table, where no AC code has 16 bits. -/
theorem C94_small_images (hri : e1.getRestartInterval = none) (hso : Spec.SameOrder e1 ct) (hb : ∀ t, Spec.codedBlocks (Spec.frameOf e1 ct w h) t ≤ 40) :
    Spec.Encodes p1 strict fun bytes1 d1 => Spec.Encodes p0 strict fun bytes0 d0 =>
      bytes1.length + stuffedBytes d0 ≤ bytes0.length + stuffedBytes d1 + 32 + d1.scans.length := by
  have ho1 : e1.getOptimizedHuffmanTables = true := by rw [hc1.settings.1.optimized]; simp [latest_snoc, Spec.wantOptimized]
  refine ((C94_optimised hpf hc1 hc0 hp1 hp0 hs1 hs0 h8 hst hri hso).and (C46_small_images hpf hc1 hp1 hs1 h8 hst ho1 hb)).mono fun b1 d1 hh => ?_
  exact hh.1.mono fun b0 d0 h => h fun f sl T hf hT => Or.inl (hh.2 sl T hT)

end

/-! ### Concrete cases -/

-- 1000 x 700 samples without chroma subsampling, with and without optimised tables
example : ∃ e1 e0, Configured ⟨true, 4⟩ 90 ([.setDensity (.inch 72 72)] ++ [.setOptimizedHuffmanTables true]) e1 ∧
    Configured ⟨true, 4⟩ 90 ([.setDensity (.inch 72 72)] ++ [.setOptimizedHuffmanTables false]) e0 ∧
    (∀ simd P, Spec.Supported ⟨true, 4⟩ simd e1 .ycbcr 1000 700 P ∧ Spec.Supported ⟨true, 4⟩ simd e0 .ycbcr 1000 700 P) ∧
    Spec.EightBit e1.getQuantizationTables ∧ ScansFine true e1 ∧ e1.getRestartInterval = none ∧ Spec.SameOrder e1 .ycbcr := by
  obtain ⟨e1, h1, h2⟩ := reachable_exists ⟨true, 4⟩ 90 ([.setDensity (.inch 72 72)] ++ [.setOptimizedHuffmanTables true]) (by decide)
  obtain ⟨e0, k1, k2⟩ := reachable_exists ⟨true, 4⟩ 90 ([.setDensity (.inch 72 72)] ++ [.setOptimizedHuffmanTables false]) (by decide)
  have hr : e1.getRestartInterval = none := by rw [h2.restart]; rfl
  have hf : Spec.frameOf e1 .ycbcr 1000 700 = ⟨false, 700, 1000, Spec.expectedComps 1 1 .ycbcr⟩ := by
    rw [Spec.frameOf, h2.scans, h2.sampling]; rfl
  have hf0 : Spec.frameOf e0 .ycbcr 1000 700 = ⟨false, 700, 1000, Spec.expectedComps 1 1 .ycbcr⟩ := by
    rw [Spec.frameOf, k2.scans, k2.sampling]; rfl
  refine ⟨e1, e0, h1, k1, fun _ _ => ⟨⟨by decide, by decide, Or.inr (Or.inl (by rw [hf]; decide)), Or.inr ⟨?_, ?_⟩⟩,
    ⟨by decide, by decide, Or.inr (Or.inl (by rw [hf0]; decide)), Or.inl (by rw [k2.optimized]; rfl)⟩⟩, ?_, ?_, hr, ?_⟩
  · intro n hn; rw [hr] at hn; cases hn
  · refine .of_blocks h1.wf fun t => ?_
    rw [hf]
    match t with
    | 0 => decide
    | 1 => decide
    | t + 2 => show 63 * Spec.codedBlocks ⟨false, 700, 1000, Spec.expectedComps 1 1 .ycbcr⟩ (t + 2) < 9227464; simp [Spec.codedBlocks, Spec.expectedComps]
  · rw [h2.quant]; rintro t (h | h) <;> cases h
  · intro _ n hn; rw [h2.scans] at hn; cases hn
  · right; right; left
    rw [h2.sampling]
    rfl

-- 48 x 48 gray pixels have 36 blocks
example : ∃ e, Configured ⟨true, 8⟩ 90 ([] ++ [.setOptimizedHuffmanTables true]) e ∧ (∀ t, Spec.codedBlocks (Spec.frameOf e .luma 48 48) t ≤ 40) ∧ Spec.SameOrder e .luma := by
  obtain ⟨e, h1, h2⟩ := reachable_exists ⟨true, 8⟩ 90 ([] ++ [.setOptimizedHuffmanTables true]) (by decide)
  refine ⟨e, h1, fun t => ?_, Or.inr (Or.inl rfl)⟩
  have hf : Spec.frameOf e .luma 48 48 = ⟨false, 48, 48, Spec.expectedComps 1 1 .luma⟩ := by
    rw [Spec.frameOf, h2.scans, h2.sampling]; rfl
  rw [hf]
  match t with
  | 0 => decide
  | t + 1 => simp [Spec.codedBlocks, Spec.expectedComps]

-- the files of a gray pixel: no AC code has 16 bits, and optimisation saves 172 bytes
example : (do
    let e ← Encoder.new ⟨true, 8⟩ 75
    .ok (decide (([true, false].map fun o =>
      let r := ((e.setOptimizedHuffmanTables o).encode ⟨true, 8⟩ false [200] 1 1 .luma).run vecSink []
      (r.1.length, (decode true r.1).bind fun d => (d.ac 0).map fun T => [stuffedBytes d, d.scans.length, T.counts.getD 15 0, if (d.ac 1).isNone then 1 else 0])) =
      [(229, some [0, 1, 0, 1]), (401, some [0, 1, 125, 1])])) : R Bool) = .ok true := by decide +kernel

end Jpeg
