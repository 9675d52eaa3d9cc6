import Verif.Proofs.Bundle
/-! C01 - C04: a T.81 decoder recovers exactly the quantised coefficients. -/
namespace Jpeg
open _root_.Spec

theorem Configured.wf {pf : Platform} {q : UInt8} {calls : List Spec.Call} {e : Encoder} (h : Configured pf q calls e) : e.Wf :=
  Reachable.wf ⟨q, calls, h⟩

theorem decoded_scans (e : Encoder) (F : List Int → List Int) (image : ImageBuffer) (P : Nat → Nat → Nat → UInt8) (t : HuffPair × HuffPair) :
    (e.decoded F image P t).scans.map (·.scan) = (e.mode.scans (initComponents e.samplingFactor image.colorType)).map ScanDesc.scan := by
  simp only [Encoder.decoded, fileDec, List.map_map]
  rfl

theorem initComponents_scanComp (sf : SamplingFactor) (ct : JpegColorType) :
    (initComponents sf ct).map Component.scanComp = (Spec.expectedComps sf.factors.1 sf.factors.2 ct).map Spec.scanComp := by
  cases ct <;> rfl

/-- `encode` with enough data is `encode_image` of the corresponding image buffer. -/
theorem encode_eq_image {pf : Platform} (simd : Bool) (e : Encoder) {data : Bytes} {w h : UInt16} {ct : ColorType}
    (hlen : w.toNat * h.toNat * ct.bytesPerPixel ≤ data.length) (hsl : Spec.SliceOk pf data) :
    e.encode pf simd data w h ct = e.encodeImage pf simd (imageFor pf simd data w h ct) := by
  refine C15_enough_data_accepted pf simd e data w h ct ?_ hlen
  have : (2 : Nat) ^ (pf.wordBits - 1) ≤ 2 ^ pf.wordBits := two_pow_pred_le _
  unfold Spec.SliceOk at hsl
  omega

theorem imageFor_color (pf : Platform) (simd : Bool) (data : Bytes) (w h : UInt16) (ct : ColorType) :
    (imageFor pf simd data w h ct).colorType = Spec.fileColor ct := by
  cases ct <;> cases simd <;> rfl

section
variable {pf : Platform} (hpf : pf.Valid) {q : UInt8} {calls : List Spec.Call} {e : Encoder} (hc : Configured pf q calls e) (simd : Bool)
  {image : ImageBuffer} {P : Nat → Nat → Nat → UInt8} (hd : Delivers image P) (hs : Spec.Supported pf simd e image.colorType image.width image.height P)
  (h8 : Spec.EightBit e.getQuantizationTables)
include hpf hc hd hs h8

/-- All modes: the file is written, a decoder accepts it, and finds the frame header and the coefficients. `strict` decoders do not
accept the scan counts above 33 (C30). -/
theorem round_trip {strict : Bool} (hst : ScansFine strict e) :
    ∃ bytes d, Spec.Writes (e.encodeImage pf simd image) bytes ∧ decode strict bytes = some d ∧
      Spec.HasFrame e.getProgressiveScans.isSome e.getSamplingFactor.factors image.colorType image.width image.height d ∧
      Spec.HasImage pf simd e.getQuantizationTables q P d ∧
      d.scans.map (·.scan) = (e.mode.scans (initComponents e.samplingFactor image.colorType)).map ScanDesc.scan := by
  obtain ⟨t, ht⟩ := hs.works hc.wf
  refine ⟨_, _, encode_run hpf hd hc.wf hs ht, encode_decode hc.wf hs ht hst h8, decoded_frame _ _ _ _ _, ?_, decoded_scans _ _ _ _ _⟩
  have := decoded_image e image P t hc.wf (simd := simd) pf
  rwa [hc.settings.1.quality] at this

/-- C01: baseline files. The frame is not progressive, there is exactly one scan, with all components; the decoder follows T.81 to
the letter; every block of every component is the quantised DCT of its samples. -/
theorem C01_baseline_image (hb : Spec.Baseline e) :
    ∃ bytes d, Spec.Writes (e.encodeImage pf simd image) bytes ∧ decode true bytes = some d ∧
      Spec.HasFrame false e.getSamplingFactor.factors image.colorType image.width image.height d ∧
      Spec.HasImage pf simd e.getQuantizationTables q P d ∧
      d.scans.map (·.scan) = Spec.interleavedScans
        (Spec.expectedComps e.getSamplingFactor.factors.1 e.getSamplingFactor.factors.2 image.colorType) := by
  obtain ⟨bytes, d, h1, h2, h3, h4, h5⟩ := round_trip hpf hc simd hd hs h8 (strict := true) (by intro _ n hn; rw [hb.1] at hn; cases hn)
  refine ⟨bytes, d, h1, h2, ?_, h4, ?_⟩
  · rw [hb.1] at h3; exact h3
  · rw [h5, (baseline_mode e).mpr hb]
    simp only [Mode.scans, List.map_cons, List.map_nil, ScanDesc.scan, Spec.interleavedScans, Encoder.getSamplingFactor, initComponents_scanComp]

/-- C02: non-progressive files with one scan per component. -/
theorem C02_sequential_image (hp : e.getProgressiveScans = none) (hb : ¬ Spec.Baseline e) :
    ∃ bytes d, Spec.Writes (e.encodeImage pf simd image) bytes ∧ decode true bytes = some d ∧
      Spec.HasFrame false e.getSamplingFactor.factors image.colorType image.width image.height d ∧
      Spec.HasImage pf simd e.getQuantizationTables q P d ∧
      d.scans.map (·.scan) = Spec.sequentialScans
        (Spec.expectedComps e.getSamplingFactor.factors.1 e.getSamplingFactor.factors.2 image.colorType) := by
  obtain ⟨bytes, d, h1, h2, h3, h4, h5⟩ := round_trip hpf hc simd hd hs h8 (strict := true) (by intro _ n hn; rw [hp] at hn; cases hn)
  refine ⟨bytes, d, h1, h2, ?_, h4, ?_⟩
  · rw [hp] at h3; exact h3
  · have hm : e.mode = .sequential := by
      have hi : e.mode ≠ .interleaved := fun h => hb ((baseline_mode e).mp h)
      have hp' := mode_isProg e
      rw [hp] at hp'
      cases hm : e.mode with
      | interleaved => exact absurd hm hi
      | sequential => rfl
      | progressive n => rw [hm] at hp'; cases hp'
    rw [h5, hm]
    have := initComponents_scanComp e.samplingFactor image.colorType
    simp only [Mode.scans, Spec.sequentialScans, List.map_map, Encoder.getSamplingFactor]
    have h6 := congrArg (List.map fun c => (⟨[c], 0, 63⟩ : Scan)) this
    simpa [List.map_map, Function.comp_def, ScanDesc.scan] using h6

/-- C03: progressive files with a scan count T.81 admits: a decoder following T.81 to the letter recovers everything. -/
theorem C03_progressive_image (n : UInt8) (hp : e.getProgressiveScans = some n) (hn : n.toNat ≤ 33) :
    ∃ bytes d, Spec.Writes (e.encodeImage pf simd image) bytes ∧ decode true bytes = some d ∧
      Spec.HasFrame true e.getSamplingFactor.factors image.colorType image.width image.height d ∧
      Spec.HasImage pf simd e.getQuantizationTables q P d := by
  obtain ⟨bytes, d, h1, h2, h3, h4, -⟩ := round_trip hpf hc simd hd hs h8 (strict := true)
    (by intro _ m hm; rw [hp] at hm; cases hm; exact hn)
  refine ⟨bytes, d, h1, h2, ?_, h4⟩
  rw [hp] at h3; exact h3

/-- C03 for all scan counts: a decoder that tolerates an empty band (`Ss = 1, Se = 0`) recovers everything. -/
theorem C03_progressive_image_lenient (n : UInt8) (hp : e.getProgressiveScans = some n) :
    ∃ bytes d, Spec.Writes (e.encodeImage pf simd image) bytes ∧ decode false bytes = some d ∧
      Spec.HasFrame true e.getSamplingFactor.factors image.colorType image.width image.height d ∧
      Spec.HasImage pf simd e.getQuantizationTables q P d := by
  obtain ⟨bytes, d, h1, h2, h3, h4, -⟩ := round_trip hpf hc simd hd hs h8 (strict := false) (by intro h; cases h)
  refine ⟨bytes, d, h1, h2, ?_, h4⟩
  rw [hp] at h3; exact h3

end

/-! ### `encode` with the built-in pixel formats -/

section
variable {pf : Platform} (hpf : pf.Valid) {q : UInt8} {calls : List Spec.Call} {e : Encoder} (hc : Configured pf q calls e) (simd : Bool)
  {data : Bytes} {w h : UInt16} {ct : ColorType} (hlen : w.toNat * h.toNat * ct.bytesPerPixel ≤ data.length) (hsl : Spec.SliceOk pf data)
  (hs : Spec.Supported pf simd e (Spec.fileColor ct) w h (Spec.samplesOf ct data w.toNat)) (h8 : Spec.EightBit e.getQuantizationTables)
include hpf hc hlen hsl hs h8

/-- C01 - C03 for `encode`: in every mode the decoder recovers exactly the quantised coefficients of the samples the pixel format
defines. -/
theorem C03_encode_round_trip {strict : Bool} (hst : ScansFine strict e) :
    ∃ bytes d, Spec.Writes (e.encode pf simd data w h ct) bytes ∧ decode strict bytes = some d ∧
      Spec.HasFrame e.getProgressiveScans.isSome e.getSamplingFactor.factors (Spec.fileColor ct) w h d ∧
      Spec.HasImage pf simd e.getQuantizationTables q (Spec.samplesOf ct data w.toNat) d := by
  obtain ⟨hw, hh⟩ := imageFor_width pf simd data w h ct
  obtain ⟨bytes, d, h1, h2, h3, h4, -⟩ := round_trip hpf hc simd (delivers_builtin simd hlen hsl) (by rw [imageFor_color, hw, hh]; exact hs) h8 hst
  rw [encode_eq_image simd e hlen hsl]
  rw [imageFor_color, hw, hh] at h3
  exact ⟨bytes, d, h1, h2, h3, h4⟩

/-- C01 for `encode`. -/
theorem C01_baseline (hb : Spec.Baseline e) :
    ∃ bytes d, Spec.Writes (e.encode pf simd data w h ct) bytes ∧ decode true bytes = some d ∧
      Spec.HasFrame false e.getSamplingFactor.factors (Spec.fileColor ct) w h d ∧
      Spec.HasImage pf simd e.getQuantizationTables q (Spec.samplesOf ct data w.toNat) d := by
  obtain ⟨bytes, d, h1, h2, h3, h4⟩ := C03_encode_round_trip hpf hc simd hlen hsl hs h8 (strict := true)
    (by intro _ n hn; rw [hb.1] at hn; cases hn)
  rw [hb.1] at h3
  exact ⟨bytes, d, h1, h2, h3, h4⟩

/-- C02 for `encode`. -/
theorem C02_sequential (hp : e.getProgressiveScans = none) :
    ∃ bytes d, Spec.Writes (e.encode pf simd data w h ct) bytes ∧ decode true bytes = some d ∧
      Spec.HasFrame false e.getSamplingFactor.factors (Spec.fileColor ct) w h d ∧
      Spec.HasImage pf simd e.getQuantizationTables q (Spec.samplesOf ct data w.toNat) d := by
  obtain ⟨bytes, d, h1, h2, h3, h4⟩ := C03_encode_round_trip hpf hc simd hlen hsl hs h8 (strict := true)
    (by intro _ n hn; rw [hp] at hn; cases hn)
  rw [hp] at h3
  exact ⟨bytes, d, h1, h2, h3, h4⟩

end

/-! ### C04 -/

theorem IsCoef_unique {pf : Platform} {simd : Bool} {table : QuantizationTable} {samples : List Int} {k : Nat} {v v' : Int}
    (h : Spec.IsCoef pf simd table samples k v) (h' : Spec.IsCoef pf simd table samples k v') : v = v' := by
  obtain ⟨f, h1, h2⟩ := h
  obtain ⟨f', h1', h2'⟩ := h'
  rw [h1] at h1'
  cases h1'
  rw [h2] at h2'
  cases h2'
  rfl

/-- C04: two encodes of the same image with the same quality, quantisation tables and sampling factor, however they differ in the
other settings (progressive, number of scans, restart interval, Huffman tables, density, segments), decode to the same coefficients for every
block of every component. -/
theorem C04_mode_independent {pf : Platform} (hpf : pf.Valid) {q : UInt8} {calls calls' : List Spec.Call} {e e' : Encoder}
    (hc : Configured pf q calls e) (hc' : Configured pf q calls' e') (simd : Bool)
    (hq : e.getQuantizationTables = e'.getQuantizationTables) (hsf : e.getSamplingFactor = e'.getSamplingFactor)
    {image : ImageBuffer} {P : Nat → Nat → Nat → UInt8} (hd : Delivers image P) (hs : Spec.Supported pf simd e image.colorType image.width image.height P)
    (hs' : Spec.Supported pf simd e' image.colorType image.width image.height P) (h8 : Spec.EightBit e.getQuantizationTables) :
    ∃ bytes bytes' d d' f f', Spec.Writes (e.encodeImage pf simd image) bytes ∧ Spec.Writes (e'.encodeImage pf simd image) bytes' ∧
      decode false bytes = some d ∧ decode false bytes' = some d' ∧ d.frame = some f ∧ d'.frame = some f' ∧
      f.comps = f'.comps ∧ f.width = f'.width ∧ f.height = f'.height ∧
      ∀ (c : Nat) (fc : FrameComp), f.comps[c]? = some fc → ∀ y x k, y < f.blocksHigh fc → x < f.blocksWide fc → k < 64 →
        d.coefs c y x k = d'.coefs c y x k := by
  obtain ⟨bytes, d, h1, h2, h3, ⟨f, q0, q1, hf, hq0, hcoef⟩, -⟩ := round_trip hpf hc simd hd hs h8 (strict := false) (by intro h; cases h)
  obtain ⟨bytes', d', h1', h2', h3', ⟨f', q0', q1', hf', hq0', hcoef'⟩, -⟩ :=
    round_trip hpf hc' simd hd hs' (hq ▸ h8) (strict := false) (by intro h; cases h)
  unfold Spec.HasFrame at h3 h3'
  rw [hf] at h3
  rw [hf'] at h3'
  cases h3
  cases h3'
  refine ⟨bytes, bytes', d, d', _, _, h1, h1', h2, h2', hf, hf', by rw [hsf], rfl, rfl, ?_⟩
  intro c fc hfc y x k hy hx hk
  have ht0 : q0 = q0' := by
    have h6 := hq0.1; have h7 := hq0'.1
    rw [← hq, h6] at h7
    cases h7; rfl
  have ht1 : q1 = q1' := by
    have h6 := hq0.2; have h7 := hq0'.2
    rw [← hq, h6] at h7
    cases h7; rfl
  subst ht0 ht1
  rw [hsf] at hfc hy hx
  refine IsCoef_unique (hcoef c fc (by rw [hsf]; exact hfc) y x k (by rw [hsf]; exact hy) (by rw [hsf]; exact hx) hk) ?_
  rw [hsf]
  exact hcoef' c fc hfc y x k hy hx hk

/-! ### Concrete cases -/

/-- There are encoders, images and pixel data that meet the hypotheses of the theorems above: any configuration without panicking
calls and optimised tables, any non-empty image on a 64 bit target. -/
theorem supported_exists (checked : Bool) (q : UInt8) (calls : List Spec.Call) (h : calls.any Spec.Call.panics = false)
    (ho : Spec.latest Spec.wantOptimized false calls = false) (ct : JpegColorType) (w h : UInt16) (hw : w ≠ 0) (hh : h ≠ 0) :
    ∃ e, Configured ⟨checked, 8⟩ q calls e ∧ ∀ simd P, Spec.Supported ⟨checked, 8⟩ simd e ct w h P := by
  obtain ⟨e, h1, h2⟩ := reachable_exists ⟨checked, 8⟩ q calls ‹_›
  exact ⟨e, h1, fun _ _ => ⟨hw, hh, Or.inl rfl, Or.inl (by rw [h2.optimized, ho])⟩⟩

-- a progressive 4:2:0 encoder with restart interval, and 10x5 RGB pixels
example : ∃ e, Configured ⟨true, 8⟩ 75 [.setProgressiveScans 10, .setRestartInterval 3, .setSamplingFactor .F_2_2] e ∧
    (∀ simd P, Spec.Supported ⟨true, 8⟩ simd e .ycbcr 10 5 P) ∧ Spec.SliceOk ⟨true, 8⟩ (List.replicate 150 7) ∧
    (10 : UInt16).toNat * (5 : UInt16).toNat * ColorType.rgb.bytesPerPixel ≤ (List.replicate 150 (7 : UInt8)).length := by
  obtain ⟨e, h1, h2⟩ := supported_exists true 75 [.setProgressiveScans 10, .setRestartInterval 3, .setSamplingFactor .F_2_2] (by decide)
    (by decide) .ycbcr 10 5 (by decide) (by decide)
  exact ⟨e, h1, h2, by rw [Spec.SliceOk, List.length_replicate]; decide, by rw [List.length_replicate]; decide⟩

-- a progressive encoder with optimised tables, 1000x700 YCbCr samples with 4:2:0
example : ∃ e, Configured ⟨true, 4⟩ 90 [.setProgressiveScans 5, .setOptimizedHuffmanTables true, .setSamplingFactor .R_4_2_0] e ∧
    (∀ simd P, Spec.Supported ⟨true, 4⟩ simd e .ycbcr 1000 700 P) ∧ e.getOptimizedHuffmanTables = true := by
  obtain ⟨e, h1, h2⟩ := reachable_exists ⟨true, 4⟩ 90 [.setProgressiveScans 5, .setOptimizedHuffmanTables true, .setSamplingFactor .R_4_2_0] (by decide)
  have hr : e.getRestartInterval = none := by rw [h2.restart]; rfl
  have hf : Spec.frameOf e .ycbcr 1000 700 = ⟨true, 700, 1000, Spec.expectedComps 2 2 .ycbcr⟩ := by
    rw [Spec.frameOf, h2.scans, h2.sampling]; rfl
  refine ⟨e, h1, fun _ _ => ⟨by decide, by decide, Or.inr (Or.inl (by rw [hf]; decide)), Or.inr ⟨?_, ?_⟩⟩, by rw [h2.optimized]; rfl⟩
  · intro n hn; rw [hr] at hn; cases hn
  · refine .of_blocks h1.wf fun t => ?_
    rw [hf]
    match t with
    | 0 => decide
    | 1 => decide
    | t + 2 => show 63 * Spec.codedBlocks ⟨true, 700, 1000, Spec.expectedComps 2 2 .ycbcr⟩ (t + 2) < 9227464; simp [Spec.codedBlocks, Spec.expectedComps]

end Jpeg
