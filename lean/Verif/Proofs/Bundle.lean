import Verif.Proofs.Final
import Verif.Proofs.Formats
import Verif.Proofs.AcCounted
import Verif.Spec.Output
import Verif.Props.Coding
/-! Facts about the decoded file in the vocabulary of the specification. -/
namespace Jpeg
open _root_.Spec

theorem interleaved_iff (s : SamplingFactor) : s.supportsInterleaved = true ↔ s.factors.1 ≤ 2 ∧ s.factors.2 ≤ 2 := by
  cases s <;> decide

theorem baseline_mode (e : Encoder) : e.mode = .interleaved ↔ Spec.Baseline e := by
  unfold Encoder.mode Spec.Baseline Encoder.getProgressiveScans Encoder.getOptimizedHuffmanTables Encoder.getSamplingFactor
  rw [← interleaved_iff]
  cases e.progressiveScans with
  | some n => simp
  | none => cases e.optimizeHuffmanTable <;> cases e.samplingFactor.supportsInterleaved <;> simp

theorem mode_isProg (e : Encoder) : e.mode.isProg = e.getProgressiveScans.isSome := by
  unfold Encoder.mode Encoder.getProgressiveScans
  cases e.progressiveScans with
  | some n => rfl
  | none => dsimp only; split <;> rfl

theorem comps_expected (sf : SamplingFactor) (ct : JpegColorType) :
    (initComponents sf ct).map Component.frame = Spec.expectedComps sf.factors.1 sf.factors.2 ct := by
  cases ct <;> rfl

theorem eightBit_steps {e : Encoder} (h : Spec.EightBit e.getQuantizationTables) : Steps8 e := by
  have key : ∀ (ty : QuantizationTableType) (b : Bool), (∀ t, ty = .custom t → ∀ v ∈ t.toList, v.toNat ≤ 255) →
      ∀ v ∈ steps ty e.quality.toNat b, v ≤ 255 := by
    intro ty b ht v hv
    by_cases hc : isCustom ty = false
    · exact (steps_range255 ty _ b hc v hv).2
    · cases ty with
      | custom t =>
        simp only [steps, List.mem_map] at hv
        obtain ⟨x, hx, rfl⟩ := hv
        have := ht t rfl x hx
        simp only [Spec.clamp]
        omega
      | _ => exact absurd rfl hc
  exact ⟨key _ _ fun t ht => h t (Or.inl ht), key _ _ fun t ht => h t (Or.inr ht)⟩

/-- Tables `t` code the image. -/
structure Works (simd : Bool) (e : Encoder) (image : ImageBuffer) (P : Nat → Nat → Nat → UInt8) (t : HuffPair × HuffPair) :
    Prop where
  opt : ∀ pf : Platform, pf.Valid → (e.atWork image.colorType).optimizeIf pf (e.blocks (dctFn simd) image P) = .ok ((e.atWork image.colorType).withTables t)
  cod : Codable e (dctFn simd) image P t

section
variable (e : Encoder) (F : List Int → List Int) (image : ImageBuffer) (P : Nat → Nat → Nat → UInt8) (t : HuffPair × HuffPair)

theorem decoded_frame : Spec.HasFrame e.getProgressiveScans.isSome e.getSamplingFactor.factors image.colorType image.width image.height (e.decoded F image P t) := by
  unfold Spec.HasFrame
  rw [← mode_isProg, ← comps_expected]
  rfl

theorem zigzag_eq (k : Nat) : zigzag.getD k 0 = ZIGZAG.getD k 0 := by rw [C40_zigzag]

theorem decoded_image (hwf : e.Wf) {simd : Bool} (pf : Platform) :
    Spec.HasImage pf simd e.getQuantizationTables e.quality P (e.decoded (dctFn simd) image P t) := by
  obtain ⟨hg, hnc⟩ := initComponents_grid e.samplingFactor image.colorType
  refine ⟨_, _, _, decoded_frame e _ image P t, ⟨newWithQuality_eq _ _ _, newWithQuality_eq _ _ _⟩, ?_⟩
  intro c fc hc y x k hy hx hk
  dsimp only at hc
  have hfr : (⟨e.getProgressiveScans.isSome, image.height.toNat, image.width.toNat,
      Spec.expectedComps e.getSamplingFactor.factors.1 e.getSamplingFactor.factors.2 image.colorType⟩ : Frame) =
      mkFrame e.mode.isProg image.width image.height (initComponents e.samplingFactor image.colorType) := by
    rw [mkFrame, mode_isProg, comps_expected]
    rfl
  rw [hfr] at hy hx ⊢
  rw [show Spec.expectedComps e.getSamplingFactor.factors.1 e.getSamplingFactor.factors.2 image.colorType =
    (initComponents e.samplingFactor image.colorType).map Component.frame from (comps_expected _ _).symm, List.getElem?_map] at hc
  cases hcc : (initComponents e.samplingFactor image.colorType)[c]? with
  | none => rw [hcc] at hc; simp at hc
  | some co =>
    rw [hcc] at hc
    simp only [Option.map_some, Option.some.injEq] at hc
    subst hc
    have hcm : co ∈ initComponents e.samplingFactor image.colorType := List.mem_of_getElem? hcc
    have hid : co.id = c := hg.ok.ids c co hcc
    have hE : (e.decoded (dctFn simd) image P t).coefs co.id y x k = e.coefs (dctFn simd) image P co.id y x k :=
      fileDec_coefs e.density image.colorType e.appSegments (hwf.mode_ok false (by simp) _) image.width image.height hg
        (init_one e.samplingFactor image.colorType) _ _ t _ _ hcm hy hx hk
    rw [hid] at hE
    rw [hE, frame_hmax hg, frame_vmax hg]
    have hcoef : e.coefs (dctFn simd) image P c y x k = (blockAt (dctFn simd) e.steps0 e.steps1 image.width.toNat image.height.toNat P
        (maxSamplingSize (initComponents e.samplingFactor image.colorType)).1 (maxSamplingSize (initComponents e.samplingFactor image.colorType)).2
        c co y x).getD k 0 := by
      simp only [Encoder.coefs, coefsOf, hcc]
    rw [hcoef]
    have hbl := blockSamples_length image.width.toNat image.height.toNat P c
      ((maxSamplingSize (initComponents e.samplingFactor image.colorType)).2 / co.verticalSamplingFactor)
      ((maxSamplingSize (initComponents e.samplingFactor image.colorType)).1 / co.horizontalSamplingFactor) y x
    have hbs := blockSamples_shifted image.width.toNat image.height.toNat P c
      ((maxSamplingSize (initComponents e.samplingFactor image.colorType)).2 / co.verticalSamplingFactor)
      ((maxSamplingSize (initComponents e.samplingFactor image.colorType)).1 / co.horizontalSamplingFactor) y x
    have hop := opOk_for simd
    refine ⟨dctFn simd (Spec.blockSamples image.width.toNat image.height.toNat P c
      ((maxSamplingSize (initComponents e.samplingFactor image.colorType)).2 / co.verticalSamplingFactor)
      ((maxSamplingSize (initComponents e.samplingFactor image.colorType)).1 / co.horizontalSamplingFactor) y x), ?_, ?_⟩
    · have := hop.run pf _ hbl hbs
      cases simd <;> exact this
    · rw [zigzag_eq]
      have hz : ZIGZAG.getD k 0 < 64 := by
        by_cases h0 : k = 0
        · subst h0; decide
        · exact (ZIGZAG_pos k hk (by omega)).2
      have hle : ∀ i, i < 64 → ∀ s, s.length = 64 → Shifted s → ((dctFn simd s).getD i 0).natAbs ≤ 32768 := by
        intro i hi s h1 h2
        by_cases h0 : i = 0
        · subst h0
          have := hop.dc s h1 h2
          omega
        · have := hop.ac s i h1 h2 (by omega) hi
          omega
      change QuantizationTable.quantize pf (if co.quantizationTable = 0 then mkQ e.steps0 else mkQ e.steps1) _ _ = _
      rw [blockAt, coefBlock_getD _ _ _ hk]
      by_cases hq0 : co.quantizationTable = 0
      · rw [if_pos hq0, if_pos hq0]
        exact quantize_eq pf _ (steps_range _ _ _) _ (lt_of_lt_of_eq hz (steps_length _ _ _).symm) _ (hle _ hz _ hbl hbs)
      · rw [if_neg hq0, if_neg hq0]
        exact quantize_eq pf _ (steps_range _ _ _) _ (lt_of_lt_of_eq hz (steps_length _ _ _).symm) _ (hle _ hz _ hbl hbs)

end

theorem frameOf_eq (e : Encoder) (image : ImageBuffer) : Spec.frameOf e image.colorType image.width image.height =
    mkFrame e.mode.isProg image.width image.height (initComponents e.samplingFactor image.colorType) := by
  rw [mkFrame, mode_isProg, comps_expected]
  rfl

/-- The decoder finds the coefficients of the image. -/
theorem decoded_coefs {simd : Bool} {e : Encoder} {image : ImageBuffer} {P : Nat → Nat → Nat → UInt8} (hwf : e.Wf) (t : HuffPair × HuffPair) {i : Nat} {fc : FrameComp}
    (hc : (mkFrame e.mode.isProg image.width image.height (initComponents e.samplingFactor image.colorType)).comps[i]? = some fc) {y x k : Nat}
    (hy : y < (mkFrame e.mode.isProg image.width image.height (initComponents e.samplingFactor image.colorType)).blocksHigh fc)
    (hx : x < (mkFrame e.mode.isProg image.width image.height (initComponents e.samplingFactor image.colorType)).blocksWide fc) (hk : k < 64) :
    (e.decoded (dctFn simd) image P t).coefs i y x k = e.coefs (dctFn simd) image P i y x k := by
  obtain ⟨hg, hnc⟩ := initComponents_grid e.samplingFactor image.colorType
  rw [show (mkFrame e.mode.isProg image.width image.height (initComponents e.samplingFactor image.colorType)).comps =
    (initComponents e.samplingFactor image.colorType).map Component.frame from rfl, List.getElem?_map] at hc
  cases hcc : (initComponents e.samplingFactor image.colorType)[i]? with
  | none => rw [hcc] at hc; simp at hc
  | some co =>
    rw [hcc] at hc
    simp only [Option.map_some, Option.some.injEq] at hc
    subst hc
    have hcm : co ∈ initComponents e.samplingFactor image.colorType := List.mem_of_getElem? hcc
    have hid : co.id = i := hg.ok.ids i co hcc
    have hE : (e.decoded (dctFn simd) image P t).coefs co.id y x k = e.coefs (dctFn simd) image P co.id y x k :=
      fileDec_coefs e.density image.colorType e.appSegments (hwf.mode_ok false (by simp) _) image.width image.height hg
        (init_one e.samplingFactor image.colorType) _ _ _ _ _ hcm hy hx hk
    rwa [hid] at hE

/-- Not too many blocks. -/
theorem Spec.SymbolsFit.of_blocks {pf : Platform} {simd : Bool} {e : Encoder} {ct : JpegColorType} {w h : UInt16} {P : Nat → Nat → Nat → UInt8} (hwf : e.Wf)
    (hsize : ∀ t, 63 * Spec.codedBlocks (Spec.frameOf e ct w h) t < 9227464) : Spec.SymbolsFit pf simd e ct w h P :=
  fun _ _ _ t => Or.inl (lt_of_le_of_lt (acCounted_length hwf.scans _ _ t) (hsize t))

/-- Not too many blocks and nonzero AC coefficients: a block has an AC symbol for each nonzero AC coefficient, the end of each band and each run of 16
zeros (at most three). -/
theorem Spec.SymbolsFit.of_coefficients {pf : Platform} {simd : Bool} {e : Encoder} {ct : JpegColorType} {w h : UInt16} {P : Nat → Nat → Nat → UInt8} (hwf : e.Wf)
    (hsize : ∀ d, Spec.HasFrame e.getProgressiveScans.isSome e.getSamplingFactor.factors ct w h d → Spec.HasImage pf simd e.getQuantizationTables e.quality P d →
      ∀ t, Spec.nonzeroAc (Spec.frameOf e ct w h) d.coefs t + (3 + Spec.acScanCount e) * Spec.codedBlocks (Spec.frameOf e ct w h) t < 9227464) :
    Spec.SymbolsFit pf simd e ct w h P :=
  fun d hf hi t => Or.inl (lt_of_le_of_lt (acCounted_length_nz hwf.scans _ _ t) (hsize d hf hi t))

/-- The condition on the number of symbols, for the coefficients of the image. -/
theorem Spec.SymbolsFit.counts {pf : Platform} {simd : Bool} {e : Encoder} {image : ImageBuffer} {P : Nat → Nat → Nat → UInt8}
    (h : Spec.SymbolsFit pf simd e image.colorType image.width image.height P) (hwf : e.Wf) (hw : image.width ≠ 0) (hh : image.height ≠ 0) (t : Nat) :
    Spec.CountsFit ((initComponents e.samplingFactor image.colorType).zipIdx.flatMap (acOf e.progressiveScans t (e.blocks (dctFn simd) image P))) := by
  have := h (e.decoded (dctFn simd) image P e.huffmanTables) (decoded_frame e _ image P _) (decoded_image e image P _ hwf pf) t
  rw [frameOf_eq] at this
  rw [← acCounted_eq (opOk_for simd) hwf P hw hh]
  rwa [acCounted_congr hwf.scans _ (fun c fc hc y x k hy hx hk => decoded_coefs hwf _ hc hy hx hk)] at this

/-- The condition on restarts, for the coefficients of the image. -/
theorem Spec.CanOptimize.restartSymbols {pf : Platform} {simd : Bool} {e : Encoder} {image : ImageBuffer} {P : Nat → Nat → Nat → UInt8}
    (h : Spec.CanOptimize pf simd e image.colorType image.width image.height P) (hwf : e.Wf) : ∀ n, e.restartInterval = some n → ∀ c fc,
    (mkFrame e.mode.isProg image.width image.height (initComponents e.samplingFactor image.colorType)).comps[c]? = some fc →
      ∀ j p, (raster ((mkFrame e.mode.isProg image.width image.height (initComponents e.samplingFactor image.colorType)).blocksHigh fc)
        ((mkFrame e.mode.isProg image.width image.height (initComponents e.samplingFactor image.colorType)).blocksWide fc))[j * n.toNat]? = some p →
        category (e.coefs (dctFn simd) image P c p.1 p.2 0) ∈
          Spec.dcCounted (mkFrame e.mode.isProg image.width image.height (initComponents e.samplingFactor image.colorType)) (e.coefs (dctFn simd) image P) fc.tq := by
  intro n hn c fc hc j p hp
  have := h.restarts n hn (e.decoded (dctFn simd) image P e.huffmanTables) (decoded_frame e _ image P _) (decoded_image e image P _ hwf pf) c fc
    (by rw [frameOf_eq]; exact hc) j p (by rw [frameOf_eq]; exact hp)
  rw [frameOf_eq] at this
  have hm := mem_raster.mp (List.mem_of_getElem? hp)
  rw [decoded_coefs hwf _ hc hm.1 hm.2 (by omega)] at this
  have hn : Spec.dcCounted (mkFrame e.mode.isProg image.width image.height (initComponents e.samplingFactor image.colorType))
      (e.decoded (dctFn simd) image P e.huffmanTables).coefs fc.tq =
      Spec.dcCounted (mkFrame e.mode.isProg image.width image.height (initComponents e.samplingFactor image.colorType)) (e.coefs (dctFn simd) image P) fc.tq := by
    unfold Spec.dcCounted
    apply List.flatMap_congr
    rintro ⟨fc', i⟩ hci
    have hc := List.mem_zipIdx_iff_getElem?.mp hci
    dsimp only at hc ⊢
    split
    · congr 1
      apply List.map_congr_left
      rintro ⟨y, x⟩ hp
      rw [mem_raster] at hp
      exact decoded_coefs hwf _ hc hp.1 hp.2 (by omega)
    · rfl
  rwa [hn] at this

/-- No restarts, no conditions on them. -/
theorem Spec.restarts_trivial {e : Encoder} {ct : JpegColorType} {w h : UInt16} {coefs : Nat → Nat → Nat → Nat → Int}
    {n : UInt16} (hn : n ≠ 0) {c : Nat} {fc : FrameComp} (hc : (Spec.frameOf e ct w h).comps[c]? = some fc)
    (hb : Spec.blockCount (Spec.frameOf e ct w h) fc ≤ n.toNat) {j : Nat} {p : Nat × Nat}
    (hp : (raster ((Spec.frameOf e ct w h).blocksHigh fc) ((Spec.frameOf e ct w h).blocksWide fc))[j * n.toNat]? = some p) :
    category (coefs c p.1 p.2 0) ∈ Spec.dcCounted (Spec.frameOf e ct w h) coefs fc.tq := by
  have hn0 : 0 < n.toNat := by
    rcases Nat.eq_zero_or_pos n.toNat with h | h
    · exact absurd (UInt16.toNat_inj.mp (by rw [h]; rfl)) hn
    · exact h
  have hlt := (List.getElem?_eq_some_iff.mp hp).1
  rw [raster_length] at hlt
  unfold Spec.blockCount at hb
  have hj : j = 0 := by
    rcases Nat.eq_zero_or_pos j with h | h
    · exact h
    · have := Nat.mul_le_mul_right n.toNat h; omega
  subst hj
  rw [Nat.zero_mul] at hp
  refine List.mem_flatMap.mpr ⟨(fc, c), List.mem_zipIdx_iff_getElem?.mpr hc, ?_⟩
  rw [if_pos rfl]
  cases hr : raster ((Spec.frameOf e ct w h).blocksHigh fc) ((Spec.frameOf e ct w h).blocksWide fc) with
  | nil => rw [hr] at hp; cases hp
  | cons a l =>
    rw [hr] at hp
    cases hp
    rw [List.map_cons, _root_.Spec.dcSymbols, Int.sub_zero]
    exact List.mem_cons_self

theorem Spec.Supported.works {pf : Platform} {simd : Bool} {e : Encoder} {image : ImageBuffer} {P : Nat → Nat → Nat → UInt8}
    (h : Spec.Supported pf simd e image.colorType image.width image.height P) (hwf : e.Wf) : ∃ t, Works simd e image P t := by
  by_cases ho : e.optimizeHuffmanTable = true
  · rcases h.tables with hn | hc
    · exact absurd ho (by rw [show e.optimizeHuffmanTable = false from hn]; simp)
    · obtain ⟨t, h1, h2, -⟩ := codable_optimized (opOk_for simd) hwf P h.width h.height ho (hc.restartSymbols hwf) (hc.size.counts hwf h.width h.height)
      exact ⟨t, h1, h2⟩
  · have hn : e.optimizeHuffmanTable = false := by simpa using ho
    exact ⟨e.huffmanTables, fun _ _ => optimizeIf_off hn _ _, codable_default (opOk_for simd) hwf⟩

/-- The image fits into memory. -/
theorem fits_of {pf : Platform} (hpf : pf.Valid) {e : Encoder} {ct : JpegColorType} {w h : UInt16} (hw : w ≠ 0) (hh : h ≠ 0)
    (hm : pf.wordBytes = 8 ∨ Spec.paddedSamples (Spec.frameOf e ct w h) * 2 < 2 ^ 31) :
    Fits pf (maxSamplingSize (initComponents e.samplingFactor ct)).1 (maxSamplingSize (initComponents e.samplingFactor ct)).2 w.toNat h.toNat := by
  have hw' : w.toNat ≠ 0 := by intro h; exact hw (by rw [← UInt16.toNat_inj]; simpa using h)
  have hh' : h.toNat ≠ 0 := by intro h; exact hh (by rw [← UInt16.toNat_inj]; simpa using h)
  obtain ⟨hg, -⟩ := initComponents_grid e.samplingFactor ct
  rcases hm with h8 | hm
  · exact Fits.of64 h8 w.toNat_lt h.toNat_lt hw' hh' hg.mh hg.mv
  · have hf : Spec.frameOf e ct w h = mkFrame e.mode.isProg w h (initComponents e.samplingFactor ct) := frameOf_eq e ⟨ct, w, h, fun _ rows => .ok rows⟩
    rw [Spec.paddedSamples, hf, Frame.mcusWide, Frame.mcusHigh, frame_hmax hg, frame_vmax hg] at hm
    have : (2 : Nat) ^ 31 ≤ 2 ^ (pf.wordBits - 1) := by
      apply Nat.pow_le_pow_right (by omega)
      rcases hpf with h | h <;> simp [Platform.wordBits, h]
    exact lt_of_lt_of_le hm this

theorem Spec.Supported.fits {pf : Platform} {simd : Bool} {e : Encoder} {image : ImageBuffer} {P : Nat → Nat → Nat → UInt8}
    (h : Spec.Supported pf simd e image.colorType image.width image.height P) (hpf : pf.Valid) :
    Fits pf (maxSamplingSize (initComponents e.samplingFactor image.colorType)).1 (maxSamplingSize (initComponents e.samplingFactor image.colorType)).2
      image.width.toNat image.height.toNat ∨ e.mode = .interleaved := by
  rcases h.memory with hm | hm | hm
  · exact Or.inl (fits_of hpf h.width h.height (.inl hm))
  · exact Or.inl (fits_of hpf h.width h.height (.inr hm))
  · exact Or.inr ((baseline_mode e).mpr hm)

section
variable {pf : Platform} (hpf : pf.Valid) {image : ImageBuffer} {P : Nat → Nat → Nat → UInt8} (hd : Delivers image P)
  {e : Encoder} (hwf : e.Wf) {simd : Bool} (hs : Spec.Supported pf simd e image.colorType image.width image.height P) {t : HuffPair × HuffPair} (hwk : Works simd e image P t)

include hpf hd hwf hs hwk in
theorem encode_run (out : Bytes) :
    (e.encodeImage pf simd image).run vecSink out = (out ++ e.file (dctFn simd) image P t, .ok ()) := by
  change ((e.encodeImageInternal pf (opsFor simd) image).program pf).run vecSink out = _
  rw [Prog.run_vec, WM.program_exec (encodeImageInternal_emits hpf (opOk_for simd) hd hs.width hs.height hwf (hs.fits hpf) (hwk.opt pf hpf) (hwk.cod.writable _))]

/-- Scan counts a decoder following T.81 to the letter accepts. -/
def ScansFine (strict : Bool) (e : Encoder) : Prop := strict = true → ∀ n, e.getProgressiveScans = some n → n.toNat ≤ 33

include hwf hs hwk in
theorem encode_decode {strict : Bool} (hst : ScansFine strict e) (h8 : Spec.EightBit e.getQuantizationTables) :
    decode strict (e.file (dctFn simd) image P t) = some (e.decoded (dctFn simd) image P t) :=
  decode_file_of hs.width hs.height hwf strict hst (eightBit_steps h8) hwk.cod

end

end Jpeg
