import Verif.Props.Independence
/-! C82: gray images and the sampling factor. -/
namespace Jpeg
open _root_.Spec

/-- The scans of a file with one component. -/
theorem scans_gray {e e' : Encoder} (hsc : e.progressiveScans = e'.progressiveScans) (ho : e.optimizeHuffmanTable = e'.optimizeHuffmanTable) (c : Component) :
    e.mode.isProg = e'.mode.isProg ∧ e.mode.scans [c] = e'.mode.scans [c] := by
  unfold Encoder.mode
  rw [hsc, ho]
  cases e'.progressiveScans with
  | some n => exact ⟨rfl, rfl⟩
  | none =>
    simp only []
    split <;> split <;> exact ⟨rfl, rfl⟩

/-- C82: the sampling factor has no influence on gray images: with the same other settings the files are the same byte by byte (although the code takes
different paths). -/
theorem C82_gray_sampling {pf : Platform} (hpf : pf.Valid) {q : UInt8} {calls calls' : List Spec.Call} {e e' : Encoder}
    (hc : Configured pf q calls e) (hc' : Configured pf q calls' e') (h1 : e.getDensity = e'.getDensity)
    (h3 : e.getQuantizationTables = e'.getQuantizationTables)
    (h4 : e.getProgressiveScans = e'.getProgressiveScans) (h5 : e.getRestartInterval = e'.getRestartInterval)
    (h6 : e.getOptimizedHuffmanTables = e'.getOptimizedHuffmanTables)
    (h7 : calls.flatMap Spec.Call.segments = calls'.flatMap Spec.Call.segments) {simd : Bool} {p p' : Prog (R Unit)}
    {w h : UInt16} {P : Nat → Nat → Nat → UInt8} (hp : Spec.EncodeCall pf simd e p .luma w h P) (hp' : Spec.EncodeCall pf simd e' p' .luma w h P)
    (hs : Spec.Supported pf simd e .luma w h P) (hs' : Spec.Supported pf simd e' .luma w h P) : Spec.SameOutput p p' := by
  obtain ⟨image, hd, rfl, hct, hw, hh⟩ := hp.image_of
  obtain ⟨image', hd', rfl, hct', hw', hh'⟩ := hp'.image_of
  obtain ⟨t, ht, r1⟩ := writes_image hpf hc simd hd (by rw [← hct, ← hw, ← hh]; exact hs)
  obtain ⟨t', ht', r2⟩ := writes_image hpf hc' simd hd' (by rw [← hct', ← hw', ← hh']; exact hs')
  have hq : e.quality = e'.quality := by rw [hc.settings.1.quality, hc'.settings.1.quality]
  have hd1 : e.density = e'.density := h1
  have hqt : e.quantizationTables = e'.quantizationTables := h3
  have hsc : e.progressiveScans = e'.progressiveScans := h4
  have hri : e.restartInterval = e'.restartInterval := h5
  have ho : e.optimizeHuffmanTable = e'.optimizeHuffmanTable := h6
  have hap : e.appSegments = e'.appSegments := by rw [hc.apps, hc'.apps, h7]
  have htb : e.huffmanTables = e'.huffmanTables := hc.tables_eq hc'
  have hcs : ∀ s, initComponents s .luma = [mkComponent 0 0 1 1] := fun _ => rfl
  have hst : e.steps0 = e'.steps0 ∧ e.steps1 = e'.steps1 := by
    unfold Encoder.steps0 Encoder.steps1
    rw [hq, hqt]
    exact ⟨rfl, rfl⟩
  have hco : e.coefs (dctFn simd) image P = e'.coefs (dctFn simd) image' P := by
    unfold Encoder.coefs
    rw [← hct, ← hct', ← hw, ← hw', ← hh, ← hh', hst.1, hst.2, hcs, hcs]
  have hbl : e.blocks (dctFn simd) image P = e'.blocks (dctFn simd) image' P := by
    unfold Encoder.blocks
    rw [← hct, ← hct', ← hw, ← hw', ← hh, ← hh', hst.1, hst.2, hcs, hcs]
  have htt : t = t' := by
    have o1 := ht.opt pf hpf
    have o2 := ht'.opt pf hpf
    rw [optimizeIf_tables] at o1 o2
    have e1 : optTables pf (e.atWork image.colorType).optimizeHuffmanTable (e.atWork image.colorType).progressiveScans (e.atWork image.colorType).components
        (e.atWork image.colorType).huffmanTables (e.blocks (dctFn simd) image P) =
      optTables pf (e'.atWork image'.colorType).optimizeHuffmanTable (e'.atWork image'.colorType).progressiveScans (e'.atWork image'.colorType).components
        (e'.atWork image'.colorType).huffmanTables (e'.blocks (dctFn simd) image' P) := by
      rw [hbl, ← hct, ← hct']
      show optTables pf e.optimizeHuffmanTable e.progressiveScans (initComponents e.samplingFactor .luma) e.huffmanTables _ =
        optTables pf e'.optimizeHuffmanTable e'.progressiveScans (initComponents e'.samplingFactor .luma) e'.huffmanTables _
      rw [ho, hsc, htb, hcs, hcs]
    rw [e1] at o1
    cases ht0 : optTables pf (e'.atWork image'.colorType).optimizeHuffmanTable (e'.atWork image'.colorType).progressiveScans (e'.atWork image'.colorType).components
        (e'.atWork image'.colorType).huffmanTables (e'.blocks (dctFn simd) image' P) with
    | error f => rw [ht0] at o1; cases o1
    | ok t0 =>
      rw [ht0] at o1 o2
      have a1 := congrArg Encoder.huffmanTables (Except.ok.inj o1)
      have a2 := congrArg Encoder.huffmanTables (Except.ok.inj o2)
      exact a1.symm.trans a2
  subst htt
  refine ⟨_, r1, ?_⟩
  obtain ⟨m1, m2⟩ := scans_gray hsc ho (mkComponent 0 0 1 1)
  have : e.file (dctFn simd) image P t = e'.file (dctFn simd) image' P t := by
    unfold Encoder.file fileBytes
    rw [hco, ← hct, ← hct', ← hw, ← hw', ← hh, ← hh', hst.1, hst.2, hcs, hcs, hd1, hap, hri, m1, m2]
  rw [this]
  exact r2

-- the hypotheses can be met: one scan at a time (1x4) against baseline (2x2), with a restart interval
example : ∃ e e', Configured ⟨true, 8⟩ 75 [.setRestartInterval 2] e ∧ Configured ⟨true, 8⟩ 75 [.setRestartInterval 2, .setSamplingFactor .F_1_4] e' ∧
    e.getSamplingFactor.factors = (2, 2) ∧ e'.getSamplingFactor.factors = (1, 4) ∧ e.getDensity = e'.getDensity ∧
    e.getQuantizationTables = e'.getQuantizationTables ∧ e.getProgressiveScans = e'.getProgressiveScans ∧ e.getRestartInterval = e'.getRestartInterval ∧
    e.getOptimizedHuffmanTables = e'.getOptimizedHuffmanTables ∧
    (∀ P, Spec.Supported ⟨true, 8⟩ false e .luma 40 20 P) ∧ ∀ P, Spec.Supported ⟨true, 8⟩ false e' .luma 40 20 P := by
  obtain ⟨e, h1, h2⟩ := reachable_exists ⟨true, 8⟩ 75 [.setRestartInterval 2] (by decide)
  obtain ⟨e', h1', h2'⟩ := reachable_exists ⟨true, 8⟩ 75 [.setRestartInterval 2, .setSamplingFactor .F_1_4] (by decide)
  refine ⟨e, e', h1, h1', by rw [h2.sampling]; decide, by rw [h2'.sampling]; decide, by rw [h2.density, h2'.density]; rfl, by rw [h2.quant, h2'.quant]; rfl,
    by rw [h2.scans, h2'.scans]; rfl, by rw [h2.restart, h2'.restart]; rfl, by rw [h2.optimized, h2'.optimized]; rfl, fun P => ⟨by decide, by decide, Or.inl rfl, Or.inl ?_⟩,
    fun P => ⟨by decide, by decide, Or.inl rfl, Or.inl ?_⟩⟩
  · rw [h2.optimized]; rfl
  · rw [h2'.optimized]; rfl

end Jpeg
