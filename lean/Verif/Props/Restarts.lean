import Verif.Proofs.Post
import Verif.Props.Tables
import Verif.Proofs.SafeEncode
/-! C10: optimised tables together with restarts, exactly when it works in debug builds. -/
namespace Jpeg
open _root_.Spec

/-- Every restart interval starts with a DC value whose category is one of the counted ones. -/
def Spec.RestartsCounted (pf : Platform) (simd : Bool) (e : Encoder) (ct : JpegColorType) (w h : UInt16) (P : Nat → Nat → Nat → UInt8) (n : UInt16) : Prop :=
  ∀ d, Spec.HasFrame e.getProgressiveScans.isSome e.getSamplingFactor.factors ct w h d → Spec.HasImage pf simd e.getQuantizationTables e.quality P d →
    ∀ c fc, (Spec.frameOf e ct w h).comps[c]? = some fc → ∀ j p,
      (raster ((Spec.frameOf e ct w h).blocksHigh fc) ((Spec.frameOf e ct w h).blocksWide fc))[j * n.toNat]? = some p →
        category (d.coefs c p.1 p.2 0) ∈ Spec.dcCounted (Spec.frameOf e ct w h) d.coefs fc.tq

/-- The DC values of a decoded image are those of the encoder. -/
theorem image_coefs {pf : Platform} {e : Encoder} (hwf : e.Wf) {simd : Bool} {image : ImageBuffer} {P : Nat → Nat → Nat → UInt8} {d : Dec}
    (hf : Spec.HasFrame e.getProgressiveScans.isSome e.getSamplingFactor.factors image.colorType image.width image.height d)
    (hi : Spec.HasImage pf simd e.getQuantizationTables e.quality P d) {c : Nat} {fc : FrameComp}
    (hc : (Spec.frameOf e image.colorType image.width image.height).comps[c]? = some fc) {y x : Nat}
    (hy : y < (Spec.frameOf e image.colorType image.width image.height).blocksHigh fc) (hx : x < (Spec.frameOf e image.colorType image.width image.height).blocksWide fc) :
    d.coefs c y x 0 = e.coefs (dctFn simd) image P c y x 0 := by
  obtain ⟨f, q0, q1, h1, h2, h3⟩ := hi
  unfold Spec.HasFrame at hf
  rw [h1] at hf
  have hff : f = Spec.frameOf e image.colorType image.width image.height := Option.some.inj hf
  subst hff
  have k1 := h3 c fc hc y x 0 hy hx (by omega)
  obtain ⟨f', q0', q1', h1', h2', h3'⟩ := decoded_image e image P e.huffmanTables hwf (simd := simd) pf
  have hfr := decoded_frame e (dctFn simd) image P e.huffmanTables
  unfold Spec.HasFrame at hfr
  rw [h1'] at hfr
  have hff : f' = Spec.frameOf e image.colorType image.width image.height := Option.some.inj hfr
  subst hff
  have k2 := h3' c fc hc y x 0 hy hx (by omega)
  have hq0 : q0' = q0 := by have := h2.1; rw [h2'.1] at this; exact Except.ok.inj this
  have hq1 : q1' = q1 := by have := h2.2; rw [h2'.2] at this; exact Except.ok.inj this
  subst hq0 hq1
  rw [IsCoef_unique k1 k2]
  rw [frameOf_eq] at hc hy hx
  exact decoded_coefs hwf _ hc hy hx (by omega)

/-- The condition follows when all restart intervals start with a category the tables have a code for. -/
theorem restartsCounted_of {pf : Platform} {e : Encoder} (hwf : e.Wf) {simd : Bool} {image : ImageBuffer} {P : Nat → Nat → Nat → UInt8}
    (hw : image.width ≠ 0) (hh : image.height ≠ 0) {t : HuffPair × HuffPair}
    (hgood : ∀ c ∈ initComponents e.samplingFactor image.colorType, OptTable dcSymbols
      ((initComponents e.samplingFactor image.colorType).zipIdx.flatMap (dcOf c.dcHuffmanTable (e.blocks (dctFn simd) image P))) (tabOf t c.dcHuffmanTable).dc)
    {n : UInt16} (hv : ∀ c co, (initComponents e.samplingFactor image.colorType)[c]? = some co → ∀ j p,
      (raster (nblk image.height.toNat ((maxSamplingSize (initComponents e.samplingFactor image.colorType)).2 / co.verticalSamplingFactor))
        (nblk image.width.toNat ((maxSamplingSize (initComponents e.samplingFactor image.colorType)).1 / co.horizontalSamplingFactor)))[j * n.toNat]? = some p →
        category (e.coefs (dctFn simd) image P c p.1 p.2 0) ∈ (tabOf t co.dcHuffmanTable).dc.values) :
    Spec.RestartsCounted pf simd e image.colorType image.width image.height P n := by
  have hop := opOk_for simd
  obtain ⟨hg, hnc⟩ := initComponents_grid e.samplingFactor image.colorType
  intro d hf hi c fc hcc j pp hpp
  have hco := fun c fc hc y x hy hx => image_coefs hwf hf hi (c := c) (fc := fc) hc (y := y) (x := x) hy hx
  have hmem := mem_raster.mp (List.mem_of_getElem? hpp)
  rw [hco c fc hcc _ _ hmem.1 hmem.2]
  have hcount : Spec.dcCounted (Spec.frameOf e image.colorType image.width image.height) d.coefs fc.tq =
      Spec.dcCounted (Spec.frameOf e image.colorType image.width image.height) (e.coefs (dctFn simd) image P) fc.tq := by
    unfold Spec.dcCounted
    apply List.flatMap_congr
    rintro ⟨fc', i⟩ hci
    have hc := List.mem_zipIdx_iff_getElem?.mp hci
    dsimp only at hc ⊢
    split
    · congr 1
      apply List.map_congr_left
      rintro ⟨y, x⟩ hp
      rw [mem_raster] at hp
      exact hco i fc' hc y x hp.1 hp.2
    · rfl
  rw [hcount]
  rw [frameOf_eq] at hcc hpp ⊢
  rw [dcCounted_eq hop P hw hh]
  rw [show (mkFrame e.mode.isProg image.width image.height (initComponents e.samplingFactor image.colorType)).comps =
    (initComponents e.samplingFactor image.colorType).map Component.frame from rfl, List.getElem?_map] at hcc
  cases hco' : (initComponents e.samplingFactor image.colorType)[c]? with
  | none => rw [hco'] at hcc; simp at hcc
  | some co =>
    rw [hco'] at hcc
    simp only [Option.map_some, Option.some.injEq] at hcc
    subst hcc
    have hcm : co ∈ initComponents e.samplingFactor image.colorType := List.mem_of_getElem? hco'
    have hz : (co, c) ∈ (initComponents e.samplingFactor image.colorType).zipIdx := List.mem_zipIdx_iff_getElem?.mpr hco'
    rw [blocksWide_eq hg _ _ _ hcm, blocksHigh_eq hg _ _ _ hcm] at hpp
    have := hv c co hco' j _ hpp
    rw [(hgood co hcm).mem _, (init_tables e.samplingFactor image.colorType co hcm).1] at this
    exact this

/-- C10: in a debug build, with optimised tables and restarts, the image is encoded if and only if the category of the DC value that
starts each restart interval is also the category of a difference of successive DC values; otherwise the call panics. -/
theorem C10_debug_exact {pf : Platform} (hpf : pf.Valid) (hdbg : pf.checked = true) {q : UInt8} {calls : List Spec.Call} {e : Encoder} (hc : Configured pf q calls e)
    {simd : Bool} {p : Prog (R Unit)} {ct : JpegColorType} {w h : UInt16} {P : Nat → Nat → Nat → UInt8} (hp : Spec.EncodeCall pf simd e p ct w h P) (hw : w ≠ 0) (hh : h ≠ 0)
    (hm : pf.wordBytes = 8 ∨ Spec.paddedSamples (Spec.frameOf e ct w h) * 2 < 2 ^ 31) {n : UInt16} (hn : e.getRestartInterval = some n) (ho : e.getOptimizedHuffmanTables = true)
    (hsize : Spec.SymbolsFit pf simd e ct w h P) :
    (Spec.RestartsCounted pf simd e ct w h P n → ∃ bytes, Spec.Writes p bytes) ∧
      (¬ Spec.RestartsCounted pf simd e ct w h P n → ∀ out, ∃ k, k ≠ .ub ∧ (p.run vecSink out).2 = .error (.panic k)) := by
  have hwf := hc.wf
  obtain ⟨image, hd, rfl, rfl, rfl, rfl⟩ := hp.image_of
  have hfit := fits_of hpf hw hh hm
  have hop := opOk_for simd
  obtain ⟨hg, hnc⟩ := initComponents_grid e.samplingFactor image.colorType
  constructor
  · intro hr
    have hs : Spec.Supported pf simd e image.colorType image.width image.height P := by
      refine ⟨hw, hh, hm.imp id Or.inl, Or.inr ⟨fun m hm => ?_, hsize⟩⟩
      rw [hn] at hm
      cases hm
      exact hr
    obtain ⟨t, hwk⟩ := hs.works hwf
    exact ⟨_, encode_run hpf hd hwf hs hwk⟩
  intro hr out
  obtain ⟨t, hopt, htabs, hgood⟩ := optimized_tables hop hwf P hw hh ho (F := dctFn simd) (image := image) (e := e) (hsize.counts hwf hw hh)
  have hrun : (e.encodeImage pf simd image).run vecSink out = (out ++ (e.encodeImage pf simd image).exec.1, (e.encodeImage pf simd image).exec.2) := Prog.run_vec _ _
  have hpost := encode_post (op := opsFor simd) hop hpf hdbg hd hw hh hfit ho (hopt pf hpf) fun c hc => (hgood c hc).1.file.ok
  have hbg := blocks_good hop P hw hh (e := e) (image := image)
  cases hres : ((e.encodeImage pf simd image).run vecSink out).2 with
  | ok u =>
    exfalso
    apply hr
    -- a successful run has a code for every symbol
    have hex : ∃ s, ((e.encodeImageInternal pf (opsFor simd) image) (BitState.init pf)).exec.2 = .ok ((), s) := by
      rw [hrun] at hres
      change (((e.encodeImageInternal pf (opsFor simd) image) (BitState.init pf)).bind _).exec.2 = _ at hres
      rw [Prog.exec_bind] at hres
      cases hx : ((e.encodeImageInternal pf (opsFor simd) image) (BitState.init pf)).exec.2 with
      | error f => rw [hx] at hres; cases hres
      | ok r => exact ⟨r.2, rfl⟩
    obtain ⟨s, hs⟩ := hex
    have hq := hpost _ _ _ hs
    refine restartsCounted_of hwf hw hh (fun c hc => (hgood c hc).1) ?_
    intro c co hco' j pp hpp
    have hcm : co ∈ initComponents e.samplingFactor image.colorType := List.mem_of_getElem? hco'
    have hz : (co, c) ∈ (initComponents e.samplingFactor image.colorType).zipIdx := List.mem_zipIdx_iff_getElem?.mpr hco'
    obtain ⟨bs, b1, b2, b3, b4, b5⟩ := hbg (co, c) hz
    have hint : e.interval = n.toNat := by
      unfold Encoder.interval
      rw [show e.restartInterval = some n from hn]
      rfl
    have := hq co c bs hco' b1 j _ (by rw [hint, b5, List.getElem?_map, hpp]; rfl)
    rw [catOf_eq] at this
    have hval : e.coefs (dctFn simd) image P c pp.1 pp.2 0 = (blockAt (dctFn simd) e.steps0 e.steps1 image.width.toNat image.height.toNat P
      (maxSamplingSize (initComponents e.samplingFactor image.colorType)).1 (maxSamplingSize (initComponents e.samplingFactor image.colorType)).2
      c co pp.1 pp.2).getD 0 0 := by
      simp only [Encoder.coefs, coefsOf, hco']
    rw [hval]
    exact this
  | error f =>
    have hA : Lax (fun f : Fail => ∃ k, k ≠ .ub ∧ f = .panic k) := ⟨fun k hk => ⟨k, hk, rfl⟩⟩
    have hw' : image.width.toNat ≠ 0 := by intro h; exact hw (by rw [← UInt16.toNat_inj]; simpa using h)
    have hh' : image.height.toNat ≠ 0 := by intro h; exact hh (by rw [← UInt16.toNat_inj]; simpa using h)
    have hbits := lt_of_lt_of_le (lt_of_le_of_lt (Nat.le_mul_of_pos_right _ (by omega)) hfit) (two_pow_pred_le pf.wordBits)
    have key := (encodeImageInternal_only (A := fun f => ∃ k, k ≠ .ub ∧ f = .panic k) hA hpf simd e (fun h => absurd h (by simp [hw, hh])) (image := image)
      (FillFine.of_padded hpf hd hw' hh' e.samplingFactor hbits) (by
        intro _ _ q0 q1 b e0 e1 hb
        rw [newWithQuality_eq] at e0 e1
        have e0 := (Except.ok.inj e0).symm
        have e1 := (Except.ok.inj e1).symm
        subst e0 e1
        have hbl := encodeBlocks_ok hd hw' hh' hpf hop (steps_length e.quantizationTables.1 e.quality.toNat true)
          (steps_length e.quantizationTables.2 e.quality.toNat false) (steps_range _ _ _) (steps_range _ _ _) (e := e.atWork image.colorType) hg hnc.symm hfit
        have hbb : b = e.blocks (dctFn simd) image P := by
          have hb' : encodeBlocks pf (e.atWork image.colorType) (opsFor simd) image (mkQ e.steps0, mkQ e.steps1) = .ok b := hb
          rw [show encodeBlocks pf (e.atWork image.colorType) (opsFor simd) image (mkQ e.steps0, mkQ e.steps1) = _ from hbl] at hb'
          exact (Except.ok.inj hb').symm
        subst hbb
        intro f hf
        rw [show Encoder.optimizeIf pf { e with components := initComponents e.samplingFactor image.colorType } (e.blocks (dctFn simd) image P) = _ from hopt pf hpf] at hf
        cases hf)).run hpf vecSink (fun _ _ _ h => by cases h) out
    obtain ⟨k, hk, rfl⟩ := key f hres
    exact ⟨k, hk, rfl⟩

-- both cases occur: the staircase of `C10_restart_defect` (24x8 pixels, a restart after every second block) is one where an interval starts with an uncounted category
example : ∃ e, Configured ⟨true, 8⟩ 100 [.setOptimizedHuffmanTables true, .setRestartInterval 2] e ∧ e.getRestartInterval = some 2 ∧
    e.getOptimizedHuffmanTables = true ∧
    ∃ P, Spec.EncodeCall ⟨true, 8⟩ false e (e.encode ⟨true, 8⟩ false Spec.stairs 24 8 .luma) .luma 24 8 P ∧
      ¬ Spec.RestartsCounted ⟨true, 8⟩ false e .luma 24 8 P 2 := by
  obtain ⟨⟨e, hc, hpan⟩, -⟩ := C10_restart_defect
  have hs := hc.settings.1
  have hr : e.getRestartInterval = some 2 := by rw [hs.restart]; rfl
  have ho : e.getOptimizedHuffmanTables = true := by rw [hs.optimized]; rfl
  have hcall := Spec.EncodeCall.data (pf := ⟨true, 8⟩) (simd := false) (e := e) Spec.stairs 24 8 .luma (by decide +kernel)
    (by unfold Spec.SliceOk; decide +kernel)
  refine ⟨e, hc, hr, ho, _, hcall, fun hcounted => ?_⟩
  have hf : Spec.frameOf e .luma 24 8 = ⟨false, 8, 24, Spec.expectedComps 1 1 .luma⟩ := by
    rw [Spec.frameOf, hs.scans, hs.sampling]; rfl
  obtain ⟨bytes, hb⟩ := (C10_debug_exact (by decide) rfl hc hcall (by decide) (by decide) (Or.inl rfl) hr ho (.of_blocks hc.wf (by
    show ∀ t, 63 * Spec.codedBlocks (Spec.frameOf e .luma 24 8) t < 9227464
    rw [hf]
    intro t
    match t with
    | 0 => decide
    | t + 1 => show 63 * Spec.codedBlocks ⟨false, 8, 24, Spec.expectedComps 1 1 .luma⟩ (t + 1) < 9227464; simp [Spec.codedBlocks, Spec.expectedComps]))).1 hcounted
  rw [hb []] at hpan
  cases hpan

end Jpeg
