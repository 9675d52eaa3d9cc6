import Verif.Props.Order
/-! C59: density and application segments only change the leading part of the file. C60: which quality values give the same files. -/
namespace Jpeg.Spec

/-- Unit and values of the density in a JFIF header. -/
def densityBytes : Density → Bytes
  | .none => [0, 0, 1, 0, 1]
  | .inch x y => [1, UInt8.ofNat (x.toNat / 256), UInt8.ofNat (x.toNat % 256), UInt8.ofNat (y.toNat / 256), UInt8.ofNat (y.toNat % 256)]
  | .centimeter x y => [2, UInt8.ofNat (x.toNat / 256), UInt8.ofNat (x.toNat % 256), UInt8.ofNat (y.toNat / 256), UInt8.ofNat (y.toNat % 256)]

/-- The Adobe segment of images with four components. -/
def adobeBytes : JpegColorType → Bytes
  | .cmyk => [0xFF, 0xEE, 0, 14, 0x41, 0x64, 0x6F, 0x62, 0x65, 0, 0, 0, 0, 0, 0, 0]
  | .ycck => [0xFF, 0xEE, 0, 14, 0x41, 0x64, 0x6F, 0x62, 0x65, 0, 0, 0, 0, 0, 0, 2]
  | _ => []

/-- An application segment. -/
def segmentBytes (s : UInt8 × Bytes) : Bytes :=
  [0xFF, 0xE0 + s.1, UInt8.ofNat ((s.2.length + 2) / 256), UInt8.ofNat ((s.2.length + 2) % 256)] ++ s.2

/-- The leading part of a file: start of image, JFIF header with the density, Adobe segment, application segments. -/
def leader (d : Density) (ct : JpegColorType) (segments : List (UInt8 × Bytes)) : Bytes :=
  [0xFF, 0xD8, 0xFF, 0xE0, 0, 16, 0x4A, 0x46, 0x49, 0x46, 0, 1, 2] ++ densityBytes d ++ [0, 0] ++ adobeBytes ct ++ segments.flatMap segmentBytes

/-- All settings but the density and the application segments are the same. -/
structure SameImaging (calls calls' : List Call) : Prop where
  sampling : ∀ d, latest wantSampling d calls = latest wantSampling d calls'
  quant : latest wantQuant (.default, .default) calls = latest wantQuant (.default, .default) calls'
  scans : latest wantScans none calls = latest wantScans none calls'
  restart : latest wantRestart none calls = latest wantRestart none calls'
  optimized : latest wantOptimized false calls = latest wantOptimized false calls'

end Jpeg.Spec

namespace Jpeg
open Jpeg.Spec

theorem leader_eq (d : Density) (ct : JpegColorType) (segs : List (UInt8 × Bytes)) (h : ∀ s ∈ segs, s.1.toNat ≤ 15) :
    [0xFF, 0xD8] ++ preBytes d ct segs = Spec.leader d ct segs := by
  have h1 : ∀ n : Nat, u8 n = UInt8.ofNat (n % 256) := by
    intro n
    unfold u8
    rw [← UInt8.toNat_inj]
    simp
  have happ : appsBytes segs = segs.flatMap segmentBytes := by
    unfold appsBytes segmentBytes
    rw [← List.flatMap_def]
    refine List.flatMap_congr fun s hs => ?_
    unfold seg
    rw [show u8 (0xE0 + s.1.toNat) = 0xE0 + s.1 by
      rw [← UInt8.toNat_inj, u8_toNat (by have := h s hs; omega), UInt8.toNat_add]
      have := h s hs
      simp only [UInt8.reduceToNat]
      omega, h1 (s.2.length + 2)]
    rfl
  unfold preBytes leader
  rw [happ]
  have h2 : ∀ n : Nat, UInt8.ofNat (n % 256) = UInt8.ofNat n := fun n => by rw [← UInt8.toNat_inj]; simp
  cases d <;> cases ct <;> simp [seg, jfifPayload, adobeSeg, u8, h2, densityBytes, adobeBytes]

theorem optimizeIf_meta (pf : Platform) (e : Encoder) (d : Density) (s : List (UInt8 × Bytes)) (b : Blocks) :
    Encoder.optimizeIf pf { e with density := d, appSegments := s } b = (e.optimizeIf pf b).map fun e => { e with density := d, appSegments := s } := by
  unfold Encoder.optimizeIf
  dsimp only
  split
  · unfold Encoder.optimizeHuffman
    dsimp only
    cases optimizeTable pf e.progressiveScans e.components b 0 with
    | error f => rfl
    | ok t0 =>
      simp only [ok_bind]
      split
      · cases optimizeTable pf e.progressiveScans e.components b 1 with
        | error f => rfl
        | ok t1 => rfl
      · rfl
  · rfl

theorem encodeScans_meta (pf : Platform) (e : Encoder) (d : Density) (s : List (UInt8 × Bytes)) (op : Operations) (image : ImageBuffer)
    (q : QuantizationTable × QuantizationTable) :
    Encoder.encodeScans pf { e with density := d, appSegments := s } op image q = e.encodeScans pf op image q := by
  have hopt : ∀ (b : Blocks) (k : Encoder → WM Unit), (∀ e', k { e' with density := d, appSegments := s } = k e') →
      (WM.lift (Encoder.optimizeIf pf { e with density := d, appSegments := s } b) >>= k) = (WM.lift (e.optimizeIf pf b) >>= k) := by
    intro b k hk
    rw [optimizeIf_meta]
    cases e.optimizeIf pf b with
    | error f => rfl
    | ok e' => exact hk e'
  unfold Encoder.encodeScans
  dsimp only
  cases hp : e.progressiveScans with
  | some n =>
    dsimp only
    unfold Encoder.encodeProgressive
    rw [show (encodeBlocks pf { e with density := d, progressiveScans := some n, appSegments := s } op image q) = encodeBlocks pf e op image q from rfl]
    have := hopt
    funext st
    rw [← hp]
    exact congrFun (congrArg (fun f => WM.lift (encodeBlocks pf e op image q) >>= f) (funext fun b => hopt b _ fun e' => rfl)) st
  | none =>
    dsimp only
    split
    · unfold Encoder.encodeSequential
      rw [← hp]
      exact congrArg (fun f => WM.lift (encodeBlocks pf e op image q) >>= f) (funext fun b => hopt b _ fun e' => rfl)
    · rw [← hp]
      rfl

theorem Emits.exec_bind {α β : Type} {m : WM α} {f : α → WM β} {s s1 : BitState} {o : Bytes} {a : α} (h : Emits m s o a s1) :
    ((m >>= f) s).exec = (o ++ (f a s1).exec.1, (f a s1).exec.2) := by
  change ((m s).bind _).exec = _
  rw [Prog.exec_bind, h]

/-- What follows the leading part. -/
def bodyOf (pf : Platform) (simd : Bool) (e : Encoder) (image : ImageBuffer) : WM Unit := do
  Encoder.encodeScans pf { e with components := initComponents e.samplingFactor image.colorType } (opsFor simd) image (mkQ e.steps0, mkQ e.steps1)
  writeMarker pf .eoi

/-- What is written to a `Vec<u8>`: the leading part, then a part that is a function of the other settings. -/
theorem encodeImage_leader (pf : Platform) (e : Encoder) (simd : Bool) {image : ImageBuffer} (hw : image.width ≠ 0) (hh : image.height ≠ 0)
    (hs : ∀ a ∈ e.appSegments, (1 ≤ a.1.toNat ∧ a.1.toNat ≤ 15) ∧ a.2.length ≤ 65533) :
    (Encoder.encodeImage pf simd e image).exec =
        (Spec.leader e.density image.colorType e.appSegments ++ ((bodyOf pf simd e image).program pf).exec.1, ((bodyOf pf simd e image).program pf).exec.2) := by
  unfold Encoder.encodeImage WM.program
  rw [Prog.exec_bind, Prog.exec_bind]
  have key : ((Encoder.encodeImageInternal pf e (opsFor simd) image) (BitState.init pf)).exec =
      (Spec.leader e.density image.colorType e.appSegments ++ ((bodyOf pf simd e image) (BitState.init pf)).exec.1, ((bodyOf pf simd e image) (BitState.init pf)).exec.2) := by
    unfold Encoder.encodeImageInternal
    rw [if_neg (by simp [hw, hh])]
    rw [Emits.exec_bind (Emits.lift _ (newWithQuality_eq _ _ _)), Emits.exec_bind (Emits.lift _ (newWithQuality_eq _ _ _))]
    dsimp only
    rw [Emits.exec_bind (writeMarker_emits (m := .soi) (v := 0xD8) rfl (BitState.init pf)), Emits.exec_bind (writeHeader_emits pf e.density (BitState.init pf)),
      Emits.exec_bind (writeAdobe_emits pf image.colorType _),
      Emits.exec_bind (writeApps_emits pf e.appSegments (fun a ha => ⟨(hs a ha).1.2, (hs a ha).2⟩) _)]
    rw [← leader_eq _ _ _ fun a ha => (hs a ha).1.2]
    simp only [List.nil_append, preBytes, List.append_assoc]
    rfl
  rw [show ((Encoder.encodeImageInternal pf e (if simd = true then avx2Operations else defaultOperations) image) (BitState.init pf)).exec
    = _ from key]
  simp only [List.append_assoc]

theorem Configured.same {pf : Platform} {q : UInt8} {calls calls' : List Call} {e e' : Encoder} (h : Configured pf q calls e) (h' : Configured pf q calls' e')
    (hs : SameImaging calls calls') : e' = { e with density := e'.density, appSegments := e'.appSegments } := by
  obtain ⟨e0, hn, a1, a2⟩ := h.rest
  obtain ⟨e0', hn', b1, b2⟩ := h'.rest
  rw [hn] at hn'
  cases hn'
  obtain ⟨s, -⟩ := h.settings
  obtain ⟨s', -⟩ := h'.settings
  have sa := s.sampling.trans ((hs.sampling _).trans s'.sampling.symm)
  have qu := s.quant.trans (hs.quant.trans s'.quant.symm)
  have sc := s.scans.trans (hs.scans.trans s'.scans.symm)
  have re := s.restart.trans (hs.restart.trans s'.restart.symm)
  have op := s.optimized.trans (hs.optimized.trans s'.optimized.symm)
  have ql := s.quality.trans s'.quality.symm
  cases e
  cases e'
  simp only [Encoder.getDensity, Encoder.getSamplingFactor, Encoder.getQuantizationTables, Encoder.getProgressiveScans, Encoder.getRestartInterval,
    Encoder.getOptimizedHuffmanTables] at *
  subst sa qu sc re op ql
  rw [a1, a2, ← b1, ← b2]

/-- C59: `encode_image` with two encoders that differ in nothing but the density and the application segments, for every image: what is
written differs in the leading part only, which has the density and the segments in it; the results are the same. -/
theorem C59_encode_image {pf : Platform} {q : UInt8} {calls calls' : List Call} {e e' : Encoder} (h : Configured pf q calls e) (h' : Configured pf q calls' e')
    (hs : SameImaging calls calls') (simd : Bool) (image : ImageBuffer) (hw : image.width ≠ 0) (hh : image.height ≠ 0) :
    ∃ body r, ∀ out,
      (e.encodeImage pf simd image).run vecSink out = (out ++ Spec.leader (latest wantDensity .none calls) image.colorType (calls.flatMap Call.segments) ++ body, r) ∧
      (e'.encodeImage pf simd image).run vecSink out = (out ++ Spec.leader (latest wantDensity .none calls') image.colorType (calls'.flatMap Call.segments) ++ body, r) := by
  have hsame := h.same h' hs
  refine ⟨((bodyOf pf simd e image).program pf).exec.1, ((bodyOf pf simd e image).program pf).exec.2, fun out => ⟨?_, ?_⟩⟩
  · rw [Prog.run_vec, encodeImage_leader pf e simd hw hh h.wf.apps, List.append_assoc, ← h.settings.1.density, ← h.apps]
    rfl
  · rw [Prog.run_vec, encodeImage_leader pf e' simd hw hh h'.wf.apps, List.append_assoc, ← h'.settings.1.density, ← h'.apps]
    have : bodyOf pf simd e' image = bodyOf pf simd e image := by
      rw [hsame]
      unfold bodyOf
      have := encodeScans_meta pf { e with components := initComponents e.samplingFactor image.colorType } e'.density e'.appSegments (opsFor simd) image (mkQ e.steps0, mkQ e.steps1)
      exact congrArg (fun m => m >>= fun _ => writeMarker pf .eoi) this
    rw [this]
    rfl

/-- C59 for `encode` (calls that are not rejected; those that are write nothing, C15). -/
theorem C59_encode {pf : Platform} {q : UInt8} {calls calls' : List Call} {e e' : Encoder} (h : Configured pf q calls e) (h' : Configured pf q calls' e')
    (hs : SameImaging calls calls') (simd : Bool) {data : Bytes} {w h : UInt16} {ct : ColorType} (hw : w ≠ 0) (hh : h ≠ 0)
    (hlen : w.toNat * h.toNat * ct.bytesPerPixel ≤ data.length) (hsl : Spec.SliceOk pf data) :
    ∃ body r, ∀ out,
      (e.encode pf simd data w h ct).run vecSink out = (out ++ Spec.leader (latest wantDensity .none calls) (Spec.fileColor ct) (calls.flatMap Call.segments) ++ body, r) ∧
      (e'.encode pf simd data w h ct).run vecSink out = (out ++ Spec.leader (latest wantDensity .none calls') (Spec.fileColor ct) (calls'.flatMap Call.segments) ++ body, r) := by
  obtain ⟨h1, h2⟩ := imageFor_width pf simd data w h ct
  rw [encode_eq_image simd e hlen hsl, encode_eq_image simd e' hlen hsl, ← imageFor_color pf simd data w h ct]
  exact C59_encode_image ‹_› h' hs simd _ (by rw [h1]; exact hw) (by rw [h2]; exact hh)

-- two such histories: one with a density, a comment-like segment and an ICC profile, one without
example : SameImaging [.setSamplingFactor .F_2_1, .setDensity (.inch 300 300), .addAppSegment 1 [1, 2, 3], .setRestartInterval 5, .addIccProfile [7]]
    [.setRestartInterval 3, .setSamplingFactor .F_2_1, .setRestartInterval 5] := ⟨fun _ => rfl, rfl, rfl, rfl, rfl⟩

-- the leading part of a CMYK file with 72 dpi and one segment
example : Spec.leader (.inch 72 72) .cmyk [(1, [7])] = [0xFF, 0xD8, 0xFF, 0xE0, 0, 16, 0x4A, 0x46, 0x49, 0x46, 0, 1, 2, 1, 0, 72, 0, 72, 0, 0,
    0xFF, 0xEE, 0, 14, 0x41, 0x64, 0x6F, 0x62, 0x65, 0, 0, 0, 0, 0, 0, 0, 0xFF, 0xE1, 0, 3, 7] := by decide

/-! ### C60: quality -/

theorem new_rest {pf : Platform} {q q' : UInt8} {e e' : Encoder} (h : Encoder.new pf q = .ok e) (h' : Encoder.new pf q' = .ok e') :
    e.components = e'.components ∧ e.huffmanTables = e'.huffmanTables := by
  unfold Encoder.new at h h'
  cases h1 : HuffmanTable.defaultLumaDc pf with
  | error f => rw [h1] at h; cases h
  | ok a =>
    rw [h1] at h h'
    cases h2 : HuffmanTable.defaultLumaAc pf with
    | error f => rw [h2] at h; cases h
    | ok b =>
      rw [h2] at h h'
      cases h3 : HuffmanTable.defaultChromaDc pf with
      | error f => rw [h3] at h; cases h
      | ok c =>
        rw [h3] at h h'
        cases h4 : HuffmanTable.defaultChromaAc pf with
        | error f => rw [h4] at h; cases h
        | ok d =>
          rw [h4] at h h'
          cases h
          cases h'
          exact ⟨rfl, rfl⟩

/-- C60: two encoders with all settings alike but the quality behave in the same way for every input, if the qualities are the same after
limiting them to 1..100, or if both quantisation tables are custom tables. -/
theorem C60_quality {pf : Platform} {q q' : UInt8} {calls calls' : List Call} {e e' : Encoder} (h : Configured pf q calls e) (h' : Configured pf q' calls' e')
    (hs : SameEffect calls calls') (hsamp : e.getSamplingFactor = e'.getSamplingFactor)
    (hq : max 1 (min 100 q.toNat) = max 1 (min 100 q'.toNat) ∨ ∃ a b, e.getQuantizationTables = (.custom a, .custom b)) (simd : Bool) :
    (∀ data w h ct, e.encode pf simd data w h ct = e'.encode pf simd data w h ct) ∧ ∀ image, e.encodeImage pf simd image = e'.encodeImage pf simd image := by
  obtain ⟨e0, hn, a1, a2⟩ := h.rest
  obtain ⟨e0', hn', b1, b2⟩ := h'.rest
  obtain ⟨s, -⟩ := h.settings
  obtain ⟨s', -⟩ := h'.settings
  obtain ⟨c1, c2⟩ := new_rest hn hn'
  have heq : e' = { e with quality := e'.quality } := by
    have d := s.density.trans (hs.density.trans s'.density.symm)
    have qu := s.quant.trans (hs.quant.trans s'.quant.symm)
    have sc := s.scans.trans (hs.scans.trans s'.scans.symm)
    have re := s.restart.trans (hs.restart.trans s'.restart.symm)
    have op := s.optimized.trans (hs.optimized.trans s'.optimized.symm)
    have ap := h.apps.trans (hs.segments.trans h'.apps.symm)
    cases e
    cases e'
    simp only [Encoder.getDensity, Encoder.getSamplingFactor, Encoder.getQuantizationTables, Encoder.getProgressiveScans, Encoder.getRestartInterval,
      Encoder.getOptimizedHuffmanTables] at *
    subst d hsamp qu sc re op ap
    rw [a1, a2, b1, b2, c1, c2]
  have hqt : ∀ t luma, (max 1 (min 100 q.toNat) = max 1 (min 100 q'.toNat) ∨ ∃ a, t = .custom a) →
      QuantizationTable.newWithQuality t e.quality.toNat luma = QuantizationTable.newWithQuality t e'.quality.toNat luma := by
    intro t luma ht
    rw [s.quality, s'.quality]
    rcases ht with ht | ⟨a, rfl⟩
    · rw [C20_clamped, ht, ← C20_clamped]
    · rfl
  have himg : ∀ op image, e.encodeImageInternal pf op image = e'.encodeImageInternal pf op image := by
    intro op image
    have h0 := hqt e.quantizationTables.1 true (hq.imp id fun ⟨a, b, hab⟩ => ⟨a, congrArg Prod.fst hab⟩)
    have h1 := hqt e.quantizationTables.2 false (hq.imp id fun ⟨a, b, hab⟩ => ⟨b, congrArg Prod.snd hab⟩)
    rw [heq]
    unfold Encoder.encodeImageInternal
    dsimp only
    rw [h0, h1]
    have hscan : ∀ (e : Encoder) x q, Encoder.encodeScans pf { e with quality := x } op image q = e.encodeScans pf op image q := by
      intro e x q
      have hopt : ∀ (b : Blocks) (k : Encoder → WM Unit), (∀ e', k { e' with quality := x } = k e') →
          (WM.lift (Encoder.optimizeIf pf { e with quality := x } b) >>= k) = (WM.lift (e.optimizeIf pf b) >>= k) := by
        intro b k hk
        have : Encoder.optimizeIf pf { e with quality := x } b = (e.optimizeIf pf b).map fun e => { e with quality := x } := by
          unfold Encoder.optimizeIf
          dsimp only
          split
          · unfold Encoder.optimizeHuffman
            dsimp only
            cases optimizeTable pf e.progressiveScans e.components b 0 with
            | error f => rfl
            | ok t0 =>
              simp only [ok_bind]
              split
              · cases optimizeTable pf e.progressiveScans e.components b 1 with
                | error f => rfl
                | ok t1 => rfl
              · rfl
          · rfl
        rw [this]
        cases e.optimizeIf pf b with
        | error f => rfl
        | ok e' => exact hk e'
      unfold Encoder.encodeScans
      dsimp only
      cases hp : e.progressiveScans with
      | some n =>
        dsimp only
        unfold Encoder.encodeProgressive
        rw [← hp]
        exact congrArg (fun f => WM.lift (encodeBlocks pf e op image q) >>= f) (funext fun b => hopt b _ fun e' => rfl)
      | none =>
        dsimp only
        split
        · unfold Encoder.encodeSequential
          rw [← hp]
          exact congrArg (fun f => WM.lift (encodeBlocks pf e op image q) >>= f) (funext fun b => hopt b _ fun e' => rfl)
        · rw [← hp]
          rfl
    simp only [hscan { e with components := initComponents e.samplingFactor image.colorType }]
  have himage : ∀ image, e.encodeImage pf simd image = e'.encodeImage pf simd image := by
    intro image
    unfold Encoder.encodeImage
    rw [himg]
  refine ⟨fun data w h ct => ?_, himage⟩
  unfold Encoder.encode
  simp only [himage]

-- the values 100..255 mean the same, and so do 0 and 1; with custom tables all values from 90 on and all values below 90 do
example : ∀ q : UInt8, 100 ≤ q.toNat → max 1 (min 100 q.toNat) = max 1 (min 100 (255 : UInt8).toNat) := by
  intro q hq
  have := q.toNat_lt
  simp only [UInt8.reduceToNat]
  omega

-- two configured encoders, created with the qualities 100 and 200, meet all hypotheses
example : ∃ e e', Configured ⟨true, 8⟩ 100 [.setProgressiveScans 9, .setSamplingFactor .F_2_1] e
    ∧ Configured ⟨true, 8⟩ 200 [.setSamplingFactor .F_2_1, .setProgressiveScans 9] e'
    ∧ SameEffect [.setProgressiveScans 9, .setSamplingFactor .F_2_1] [.setSamplingFactor .F_2_1, .setProgressiveScans 9]
    ∧ e.getSamplingFactor = e'.getSamplingFactor
    ∧ max 1 (min 100 (100 : UInt8).toNat) = max 1 (min 100 (200 : UInt8).toNat) := by
  obtain ⟨e, h, -⟩ := reachable_exists ⟨true, 8⟩ 100 [.setProgressiveScans 9, .setSamplingFactor .F_2_1] (by decide)
  obtain ⟨e', h', -⟩ := reachable_exists ⟨true, 8⟩ 200 [.setSamplingFactor .F_2_1, .setProgressiveScans 9] (by decide)
  refine ⟨e, e', h, h', ⟨rfl, fun _ => rfl, rfl, rfl, rfl, rfl, rfl⟩, ?_, rfl⟩
  obtain ⟨s, -⟩ := h.settings
  obtain ⟨s', -⟩ := h'.settings
  exact s.sampling.trans s'.sampling.symm

end Jpeg
