import Verif.Proofs.ExactSize
import Verif.Props.Local
/-! C93: the exact size of the output. -/
namespace Jpeg
open _root_.Spec

theorem decoded_ready (e : Encoder) (F : List Int → List Int) (image : ImageBuffer) (P : Nat → Nat → Nat → UInt8) (t : HuffPair × HuffPair) :
    Ready (e.decoded F image P t) (mkFrame e.mode.isProg image.width image.height (initComponents e.samplingFactor image.colorType))
      (initComponents e.samplingFactor image.colorType) t e.interval := by
  have hg := (initComponents_grid e.samplingFactor image.colorType).1
  have hr := frame_ready hg.ok (init_dest _ _) ({ Dec.init with
    apps := fileApps e.density image.colorType e.appSegments
    markers := (fileApps e.density image.colorType e.appSegments).map fun a => 0xE0 + a.1 }) rfl e.mode.isProg image.width image.height e.steps0 e.steps1 t e.restartInterval
  exact ⟨hr.frame, hr.comps, hr.ri, hr.dc, hr.ac, hr.q⟩

section
variable {pf : Platform} (hpf : pf.Valid) {q : UInt8} {calls : List Spec.Call} {e : Encoder} (hc : Configured pf q calls e)
  {simd : Bool} {p : Prog (R Unit)} {ct : JpegColorType} {w h : UInt16} {P : Nat → Nat → Nat → UInt8} (hp : Spec.EncodeCall pf simd e p ct w h P)
  (hs : Spec.Supported pf simd e ct w h P) (h8 : Spec.EightBit e.getQuantizationTables) {strict : Bool} (hst : ScansFine strict e)
include hpf hc hp hs h8 hst

/-- C93: the size of the file is the sum of the sizes of its parts, and the size of every scan follows from the number of bits of its symbols. -/
theorem C93_size : Spec.Encodes p strict fun bytes d => ∃ f, d.frame = some f ∧ bytes.length = fileSize d f ∧
    ∀ s ∈ d.scans, s.data.length = dataBytes d f s.scan (s.data.count 0xFF) := by
  refine encodes_of hpf hc hp hs h8 hst fun image t hct hw hh ht => ?_
  subst hct hw hh
  refine ⟨mkFrame e.mode.isProg image.width image.height (initComponents e.samplingFactor image.colorType), rfl, file_exact ht.cod.tabs, ?_⟩
  intro s hs
  have hg := (initComponents_grid e.samplingFactor image.colorType).1
  obtain ⟨sd, hsd, rfl⟩ := List.mem_map.mp hs
  refine log_exact (decoded_ready e (dctFn simd) image P t) hg.ok sd ?_ (ht.cod.units sd hsd) fun u hu k h1 h2 => ?_
  · rcases mem_scans hsd with ⟨c, hcm, h1⟩ | h1
    · intro c' hc'
      rw [h1, List.mem_singleton] at hc'
      rw [hc']; exact hcm
    · rw [h1]; exact fun c hc => hc
  · exact coefsAfter_mem _ _ (Or.inl ⟨sd, hsd, List.mem_map.mpr ⟨u, hu, rfl⟩, h1, h2⟩)

end

/-! ### Concrete cases -/

-- the hypotheses of `C93_size`: a progressive encoder with restart intervals and subsampling, RGB pixels
example : ∃ e p P, Configured ⟨true, 8⟩ 75 [.setProgressiveScans 10, .setRestartInterval 3] e ∧ Spec.EncodeCall ⟨true, 8⟩ true e p .ycbcr 3 2 P ∧
    Spec.Supported ⟨true, 8⟩ true e .ycbcr 3 2 P ∧ Spec.EightBit e.getQuantizationTables ∧ ScansFine true e := by
  obtain ⟨e, h1, h2⟩ := reachable_exists ⟨true, 8⟩ 75 [.setProgressiveScans 10, .setRestartInterval 3] (by decide)
  refine ⟨e, _, _, h1, .data [1, 2, 3, 4, 5, 6, 7, 8, 9, 10, 11, 12, 13, 14, 15, 16, 17, 18] 3 2 .rgb (by decide) (by unfold Spec.SliceOk; decide),
    ⟨by decide, by decide, Or.inl rfl, Or.inl (by rw [h2.optimized]; rfl)⟩, ?_, ?_⟩
  · rw [h2.quant]; rintro t (h | h) <;> cases h
  · intro _; rw [h2.scans]; decide

-- the sizes of two files: a gray pixel, with the standard tables and with optimised tables; the second has one scan with 2 bytes
example : (do
    let e ← Encoder.new ⟨true, 8⟩ 75
    .ok (decide (([false, true].map fun o =>
      let r := ((e.setOptimizedHuffmanTables o).encode ⟨true, 8⟩ false [200] 1 1 .luma).run vecSink []
      (r.1.length, ((decode true r.1).bind fun d => d.frame.map fun f => fileSize d f :: d.scans.flatMap fun s => [s.data.length, dataBytes d f s.scan (s.data.count 0xFF)]))) =
      [(401, some [401, 2, 2]), (229, some [229, 2, 2])])) : R Bool) = .ok true := by decide +kernel

end Jpeg
