import Verif.Proofs.Loose
import Verif.Props.Restarts
import Verif.Props.Stream
/-! C10: optimised tables together with restarts in builds without checks: exactly when the file is right. -/
namespace Jpeg
open _root_.Spec

/-- With optimised tables every scan has one component. -/
theorem mode_single {e : Encoder} (ho : e.optimizeHuffmanTable = true) (cs : List Component) : ∀ sd ∈ e.mode.scans cs, ∃ c ∈ cs, sd.cs = [c] ∧ sd.ss < 256 := by
  intro sd hsd
  unfold Encoder.mode at hsd
  cases hs : e.progressiveScans with
  | none =>
    rw [hs] at hsd
    simp only [ho, Bool.true_or, if_true, Mode.scans, List.mem_map] at hsd
    obtain ⟨c, hc, rfl⟩ := hsd
    exact ⟨c, hc, rfl, by simp⟩
  | some n =>
    rw [hs] at hsd
    simp only [Mode.scans, List.mem_append, List.mem_map, List.mem_flatMap] at hsd
    rcases hsd with ⟨c, hc, rfl⟩ | ⟨b, hb, c, hc, rfl⟩
    · exact ⟨c, hc, rfl, by simp⟩
    · refine ⟨c, hc, rfl, ?_⟩
      simp only [bandList, List.mem_map, List.mem_range] at hb
      obtain ⟨s, hs', rfl⟩ := hb
      have h1 : s * (64 / (n.toNat - 1)) ≤ (n.toNat - 1) * (64 / (n.toNat - 1)) := Nat.mul_le_mul_right _ (by omega)
      have h2 := Nat.mul_div_le 64 (n.toNat - 1)
      show max (s * (64 / (n.toNat - 1))) 1 < 256
      omega

/-- C10: in a release build, with optimised tables and restarts, the call always reports success, and the file holds the image if and only if the
category of the DC value that starts each restart interval is also the category of a difference of successive DC values. -/
theorem C10_release_exact {pf : Platform} (hpf : pf.Valid) (hrel : pf.checked = false) {q : UInt8} {calls : List Spec.Call} {e : Encoder} (hc : Configured pf q calls e)
    {simd : Bool} {p : Prog (R Unit)} {ct : JpegColorType} {w h : UInt16} {P : Nat → Nat → Nat → UInt8} (hp : Spec.EncodeCall pf simd e p ct w h P) (hw : w ≠ 0) (hh : h ≠ 0)
    (hm : pf.wordBytes = 8 ∨ Spec.paddedSamples (Spec.frameOf e ct w h) * 2 < 2 ^ 31) {n : UInt16} (hn : e.getRestartInterval = some n) (ho : e.getOptimizedHuffmanTables = true)
    (hsize : Spec.SymbolsFit pf simd e ct w h P) (h8 : Spec.EightBit e.getQuantizationTables) {strict : Bool} (hst : ScansFine strict e) :
    ∃ bytes, Spec.Writes p bytes ∧
      ((∃ d, decode strict bytes = some d ∧ Spec.HasFrame e.getProgressiveScans.isSome e.getSamplingFactor.factors ct w h d ∧
        Spec.HasImage pf simd e.getQuantizationTables e.quality P d) ↔ Spec.RestartsCounted pf simd e ct w h P n) := by
  have hwf := hc.wf
  obtain ⟨image, hd, rfl, rfl, rfl, rfl⟩ := hp.image_of
  have hop := opOk_for simd
  obtain ⟨hg, hnc⟩ := initComponents_grid e.samplingFactor image.colorType
  obtain ⟨t, hopt, htabs, hgood⟩ := optimized_tables hop hwf P hw hh ho (F := dctFn simd) (image := image) (e := e) (hsize.counts hwf hw hh)
  have hrun : Spec.Writes (e.encodeImage pf simd image) (e.file (dctFn simd) image P t) := by
    intro out
    change ((e.encodeImageInternal pf (opsFor simd) image).program pf).run vecSink out = _
    rw [Prog.run_vec, WM.program_exec (encodeImageInternal_emits hpf hop hd hw hh hwf (Or.inl (fits_of hpf hw hh hm)) (hopt pf hpf)
      (by rw [hrel]; exact writable_any hop hwf P htabs))]
  refine ⟨_, hrun, ?_, ?_⟩
  · rintro ⟨d, hdec, hf, hi⟩
    have h8' := eightBit_steps h8
    have hmode : ∀ sd ∈ e.mode.scans (initComponents e.samplingFactor image.colorType), ∃ c ∈ initComponents e.samplingFactor image.colorType,
        sd.cs = [c] ∧ sd.ss < 256 ∧ sd.se < 256 := by
      intro sd hsd
      obtain ⟨c, h1, h2, h3⟩ := mode_single ho _ sd hsd
      have := scans_se hg.ok (hwf.mode_ok false (by simp) image.colorType) sd hsd
      exact ⟨c, h1, h2, h3, by omega⟩
    obtain ⟨hready, hv⟩ := file_loose e.density image.colorType (fun a ha => ⟨(hwf.apps a ha).1.2, (hwf.apps a ha).2⟩) hmode hw hh hg.ok (init_dest _ _)
      (steps_length e.quantizationTables.1 e.quality.toNat true) (steps_length e.quantizationTables.2 e.quality.toNat false)
      (fun v hv => ⟨(steps_range _ _ _ v hv).1, h8'.1 v hv⟩) (fun v hv => ⟨(steps_range _ _ _ v hv).1, h8'.2 v hv⟩) htabs e.restartInterval hdec
    refine restartsCounted_of hwf hw hh (fun c hc => (hgood c hc).1) ?_
    intro c co hco' j pp hpp
    have hcm : co ∈ initComponents e.samplingFactor image.colorType := List.mem_of_getElem? hco'
    have hid : co.id = c := hg.ok.ids c co hco'
    have hint : (e.restartInterval.map UInt16.toNat).getD 0 = n.toNat := by
      rw [show e.restartInterval = some n from hn]
      rfl
    have := hv co hcm j pp (by rw [hint, blocksWide_eq hg _ _ _ hcm, blocksHigh_eq hg _ _ _ hcm]; exact hpp)
    have hmem := mem_raster.mp (List.mem_of_getElem? hpp)
    have hfc : (Spec.frameOf e image.colorType image.width image.height).comps[c]? = some co.frame := by
      rw [frameOf_eq]
      show ((initComponents e.samplingFactor image.colorType).map Component.frame)[c]? = _
      rw [List.getElem?_map, hco']
      rfl
    rw [hid, image_coefs hwf hf hi hfc (by rw [frameOf_eq, blocksHigh_eq hg _ _ _ hcm]; exact hmem.1) (by rw [frameOf_eq, blocksWide_eq hg _ _ _ hcm]; exact hmem.2)] at this
    exact this
  · intro hr
    have hs : Spec.Supported pf simd e image.colorType image.width image.height P := by
      refine ⟨hw, hh, hm.imp id Or.inl, Or.inr ⟨fun m hm => ?_, hsize⟩⟩
      rw [hn] at hm
      cases hm
      exact hr
    obtain ⟨t', hwk⟩ := hs.works hwf
    have heq : e.file (dctFn simd) image P t = e.file (dctFn simd) image P t' := by
      have h1 := hrun []
      rw [encode_run hpf hd hwf hs hwk] at h1
      have := congrArg Prod.fst h1
      simpa using this.symm
    rw [heq]
    exact ⟨_, encode_decode hwf hs hwk hst h8, decoded_frame e (dctFn simd) image P t', decoded_image e image P t' hwf pf⟩

-- a file that is reported as written but does not hold the image: the staircase of `C10_restart_defect`
example : ∃ e, Configured ⟨false, 8⟩ 100 [.setOptimizedHuffmanTables true, .setRestartInterval 2] e ∧
    ∃ P, Spec.EncodeCall ⟨false, 8⟩ false e (e.encode ⟨false, 8⟩ false Spec.stairs 24 8 .luma) .luma 24 8 P ∧
      Spec.SymbolsFit ⟨false, 8⟩ false e .luma 24 8 P ∧ ¬ Spec.RestartsCounted ⟨false, 8⟩ false e .luma 24 8 P 2 := by
  obtain ⟨-, e, hc, hok, hdec⟩ := C10_restart_defect
  have hs := hc.settings.1
  have hr : e.getRestartInterval = some 2 := by rw [hs.restart]; rfl
  have ho : e.getOptimizedHuffmanTables = true := by rw [hs.optimized]; rfl
  have h8 : Spec.EightBit e.getQuantizationTables := by rw [hs.quant]; rintro t (h | h) <;> cases h
  have hst : ScansFine false e := fun h => absurd h (by simp)
  have hcall := Spec.EncodeCall.data (pf := ⟨false, 8⟩) (simd := false) (e := e) Spec.stairs 24 8 .luma (by decide +kernel)
    (by unfold Spec.SliceOk; decide +kernel)
  have hf : Spec.frameOf e .luma 24 8 = ⟨false, 8, 24, Spec.expectedComps 1 1 .luma⟩ := by
    rw [Spec.frameOf, hs.scans, hs.sampling]; rfl
  have hfit := Spec.SymbolsFit.of_blocks (simd := false) (pf := ⟨false, 8⟩) (P := Spec.samplesOf .luma Spec.stairs (24 : UInt16).toNat) (ct := .luma) (w := 24) (h := 8) hc.wf (by
    show ∀ t, 63 * Spec.codedBlocks (Spec.frameOf e .luma 24 8) t < 9227464
    rw [hf]
    intro t
    match t with
    | 0 => decide
    | t + 1 => show 63 * Spec.codedBlocks ⟨false, 8, 24, Spec.expectedComps 1 1 .luma⟩ (t + 1) < 9227464; simp [Spec.codedBlocks, Spec.expectedComps])
  refine ⟨e, hc, _, hcall, hfit, fun hcounted => ?_⟩
  obtain ⟨bytes, hb, hiff⟩ := C10_release_exact (by decide) rfl hc hcall (by decide) (by decide) (Or.inl rfl) hr ho hfit h8 hst
  obtain ⟨d, hd, -⟩ := hiff.mpr hcounted
  rw [hb []] at hdec
  rw [List.nil_append, hd] at hdec
  cases hdec

-- C51 applies to such a file: a reader finds its end although it cannot be decoded
example : ∃ f, IsOutput f ∧ decode false f = none := by
  obtain ⟨-, e, hc, hok, hdec⟩ := C10_restart_defect
  have hrun : ∀ {r : Bytes × R Unit}, r.2 = .ok () → r = (r.1, .ok ()) := fun {r} h => by rw [← h]
  exact ⟨_, .of_call (pf := ⟨false, 8⟩) (by decide) hc (.encode ..) (hrun hok), hdec⟩

end Jpeg
