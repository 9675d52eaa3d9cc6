import Verif.Spec.Sections
import Verif.Props.Accuracy
import Verif.Proofs.AnyImage
/-! C56: the order of the sections of a file. -/
namespace Jpeg
open _root_.Spec

theorem mode_scans_length {pf : Platform} {q : UInt8} {calls : List Spec.Call} {e : Encoder} (hc : Configured pf q calls e) (ct : JpegColorType) :
    (e.mode.scans (initComponents e.samplingFactor ct)).length = Spec.scanCount e ct := by
  have hl : (initComponents e.samplingFactor ct).length = Spec.componentCount ct := by
    rw [(initComponents_grid e.samplingFactor ct).2]; cases ct <;> rfl
  unfold Spec.scanCount Encoder.mode Encoder.getProgressiveScans Encoder.getOptimizedHuffmanTables Encoder.getSamplingFactor
  cases hps : e.progressiveScans with
  | some n =>
    obtain ⟨h2, h64⟩ := hc.wf.scans n hps
    have hb := (bandList_chained n.toNat (by omega) h2).2
    simp only [Mode.scans, List.length_append, List.length_map, List.length_flatMap, hl]
    simp only [List.map_const', List.sum_replicate, hb, smul_eq_mul]
    obtain ⟨k, hk⟩ : ∃ k, n.toNat = k + 1 := ⟨n.toNat - 1, by omega⟩
    rw [hk, Nat.add_sub_cancel]; ring
  | none =>
    have hi : e.samplingFactor.supportsInterleaved = decide (e.samplingFactor.factors.1 ≤ 2 ∧ e.samplingFactor.factors.2 ≤ 2) := by
      cases e.samplingFactor <;> decide
    simp only [hi]
    cases e.optimizeHuffmanTable <;> by_cases h2 : e.samplingFactor.factors.1 ≤ 2 ∧ e.samplingFactor.factors.2 ≤ 2 <;>
      simp [Mode.scans, h2, hl]

theorem decodedWith_sections {pf : Platform} {q : UInt8} {calls : List Spec.Call} {e : Encoder} (hc : Configured pf q calls e) (ct : JpegColorType) (w h : UInt16)
    (t : HuffPair × HuffPair) (E : Coefs) :
    (e.decodedWith ct w h t E).markers = Spec.wantedMarkers calls e ct ∧ (e.decodedWith ct w h t E).scans.length = Spec.scanCount e ct := by
  have hsc := mode_scans_length hc ct
  have hl : (initComponents e.samplingFactor ct).length = Spec.componentCount ct := by
    rw [(initComponents_grid e.samplingFactor ct).2]; cases ct <;> rfl
  constructor
  · simp only [Encoder.decodedWith, fileDec, frameDec, hsc, hl, fileApps, hc.apps, Spec.wantedMarkers, Encoder.getRestartInterval, mode_isProg,
      List.map_cons, List.map_append, List.map_map]
    generalize List.replicate _ _ = scans
    generalize List.flatMap _ _ = segs
    have hr : e.restartInterval = none ∨ ∃ r, e.restartInterval = some r := by cases e.restartInterval <;> simp
    have hs : e.getProgressiveScans = none ∨ ∃ r, e.getProgressiveScans = some r := by cases e.getProgressiveScans <;> simp
    rcases hr with hr | ⟨r, hr⟩ <;> rcases hs with hs | ⟨n, hs⟩ <;> simp only [hr, hs] <;> cases ct <;>
      simp [adobeApp, Spec.componentCount, Function.comp_def]
  · simp only [Encoder.decodedWith, fileDec, List.length_map, hsc]

/-- C56: the sections of the file, in order; nothing else is in the file. -/
theorem C56_sections {pf : Platform} (hpf : pf.Valid) {q : UInt8} {calls : List Spec.Call} {e : Encoder} (hc : Configured pf q calls e) {simd : Bool}
    {p : Prog (R Unit)} {ct : JpegColorType} {w h : UInt16} {P : Nat → Nat → Nat → UInt8} (hp : Spec.EncodeCall pf simd e p ct w h P)
    (hs : Spec.Supported pf simd e ct w h P) (h8 : Spec.EightBit e.getQuantizationTables) {strict : Bool} (hst : ScansFine strict e) :
    Spec.Encodes p strict fun bytes d => bytes.take 2 = [0xFF, 0xD8] ∧ bytes.drop (bytes.length - 2) = [0xFF, 0xD9] ∧
      d.markers = Spec.wantedMarkers calls e ct ∧ d.scans.length = Spec.scanCount e ct := by
  refine ((C32_frame_header hpf hc hp hs h8 hst).and ?_).mono fun _ d h => ⟨h.1.1, h.1.2.1, h.2⟩
  refine encodes_of hpf hc hp hs h8 hst fun image t hct hw hh _ => ?_
  subst hct hw hh
  exact decodedWith_sections hc _ _ _ t (e.coefs (dctFn simd) image P)

-- a progressive encoder: 12 scans; an encoder that cannot interleave: 3 scans; otherwise 1 scan
example : ∃ e, Configured ⟨true, 8⟩ 75 [.setProgressive true, .addAppSegment 5 [1, 2], .setRestartInterval 9] e ∧
    Spec.wantedMarkers [.setProgressive true, .addAppSegment 5 [1, 2], .setRestartInterval 9] e .ycbcr =
      [0xE0, 0xE5, 0xC2, 0xDB, 0xDB, 0xC4, 0xC4, 0xC4, 0xC4, 0xDD] ++ List.replicate 12 0xDA := by
  obtain ⟨e, h1, h2⟩ := reachable_exists ⟨true, 8⟩ 75 [.setProgressive true, .addAppSegment 5 [1, 2], .setRestartInterval 9] (by decide)
  refine ⟨e, h1, ?_⟩
  unfold Spec.wantedMarkers Spec.scanCount
  rw [h2.scans, h2.restart, h2.sampling, h2.optimized]
  decide

example : ∃ e, Configured ⟨true, 8⟩ 75 [.setSamplingFactor .R_4_1_1] e ∧ Spec.scanCount e .ycck = 4 := by
  obtain ⟨e, h1, h2⟩ := reachable_exists ⟨true, 8⟩ 75 [.setSamplingFactor .R_4_1_1] (by decide)
  refine ⟨e, h1, ?_⟩
  unfold Spec.scanCount
  rw [h2.scans, h2.sampling, h2.optimized]
  decide

end Jpeg
