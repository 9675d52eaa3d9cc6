import Verif.Props.Independence
import Verif.Props.SameFile
/-! C87: sizes that are not multiples of the block size. -/
namespace Jpeg
open _root_.Spec

/-- `P'` continues the `w`x`h` image `P` to `w'`x`h'` pixels: the last column and the last line are repeated. -/
def Spec.Continues (ct : JpegColorType) (w h w' h' : Nat) (P P' : Nat → Nat → Nat → UInt8) : Prop :=
  ∀ c y x, c < Spec.componentCount ct → y < h' → x < w' → P' c y x = P c (min y (h - 1)) (min x (w - 1))

/-- How the frame header states the size (T.81 B.2.2). -/
def Spec.sizeBytes (w h : UInt16) : Bytes := [UInt8.ofNat (h.toNat / 256), UInt8.ofNat (h.toNat % 256), UInt8.ofNat (w.toNat / 256), UInt8.ofNat (w.toNat % 256)]

section
variable {w h w' h' : UInt16} {P P' : Nat → Nat → Nat → UInt8}

theorem Spec.Continues.samples {ct : JpegColorType} (hc : Spec.Continues ct w.toNat h.toNat w'.toNat h'.toNat P P') (hw : w.toNat ≤ w'.toNat) (hh : h.toNat ≤ h'.toNat) (hw0 : w'.toNat ≠ 0) (hh0 : h'.toNat ≠ 0) {c : Nat} (hn : c < Spec.componentCount ct) (sy sx y x : Nat) :
    blockSamples w'.toNat h'.toNat P' c sy sx y x = blockSamples w.toNat h.toNat P c sy sx y x := by
  unfold blockSamples
  refine List.map_congr_left fun i _ => ?_
  unfold sampleAt
  rw [hc c _ _ hn (by omega) (by omega)]
  rw [show min (min ((8 * y + i / 8) * sy) (h'.toNat - 1)) (h.toNat - 1) = min ((8 * y + i / 8) * sy) (h.toNat - 1) by omega,
    show min (min ((8 * x + i % 8) * sx) (w'.toNat - 1)) (w.toNat - 1) = min ((8 * x + i % 8) * sx) (w.toNat - 1) by omega]

theorem frameBytes_size (prog : Bool) (cs : List Component) (s0 s1 : List Nat) (t : HuffPair × HuffPair) (ri : Option UInt16) :
    ∃ a b, ∀ w h, frameBytes prog w h cs s0 s1 t ri = a ++ Spec.sizeBytes w h ++ b := by
  have h2 : ∀ n : Nat, UInt8.ofNat (n % 256) = UInt8.ofNat n := fun n => by rw [← UInt8.toNat_inj]; simp
  unfold frameBytes
  generalize (seg 0xDB (dqtPayload 0 s0) ++ _) = r
  refine ⟨[0xFF, if prog then 0xC2 else 0xC0, u8 ((8 + 3 * cs.length) / 256), u8 (8 + 3 * cs.length), 8], [u8 cs.length] ++ (cs.map frameCompBytes).flatten ++ r, fun w h => ?_⟩
  have hlen : (sofPayload w h cs).length + 2 = 8 + 3 * cs.length := by
    rw [sofPayload, List.length_append, flatten_const_length _ _ 3 (fun _ => rfl)]
    simp; omega
  unfold seg
  rw [hlen]
  simp [sofPayload, Spec.sizeBytes, u8, h2]

theorem ceilDiv_mul_eq {a b k : Nat} (hk : 1 ≤ k ∧ k ≤ 4) (h : _root_.Spec.ceilDiv a 8 = _root_.Spec.ceilDiv b 8) :
    _root_.Spec.ceilDiv a (8 * k) = _root_.Spec.ceilDiv b (8 * k) := by
  unfold _root_.Spec.ceilDiv at *
  rcases (show k = 1 ∨ k = 2 ∨ k = 3 ∨ k = 4 by omega) with rfl | rfl | rfl | rfl <;> omega

/-- The files differ only in the size if the scans consist of the same blocks and the tables are the same. -/
theorem padded_files {pf : Platform} (hpf : pf.Valid) {q : UInt8} {calls : List Spec.Call} {e : Encoder} (hc : Configured pf q calls e) {simd : Bool} {p p' : Prog (R Unit)} {ct : JpegColorType}
    (hp : Spec.EncodeCall pf simd e p ct w h P) (hp' : Spec.EncodeCall pf simd e p' ct w' h' P') (hs : Spec.Supported pf simd e ct w h P) (hs' : Spec.Supported pf simd e ct w' h' P')
    (hP : Spec.Continues ct w.toNat h.toNat w'.toNat h'.toNat P P') (hw : w.toNat ≤ w'.toNat) (hh : h.toNat ≤ h'.toNat)
    (hmcus : ∀ sd ∈ e.mode.scans (initComponents e.samplingFactor ct), sd.mcus (mkFrame e.mode.isProg w' h' (initComponents e.samplingFactor ct)) =
      sd.mcus (mkFrame e.mode.isProg w h (initComponents e.samplingFactor ct)))
    (hblk : e.optimizeHuffmanTable = true → ∀ c : Component, c ∈ initComponents e.samplingFactor ct →
      nblk h'.toNat ((maxSamplingSize (initComponents e.samplingFactor ct)).2 / c.verticalSamplingFactor) = nblk h.toNat ((maxSamplingSize (initComponents e.samplingFactor ct)).2 / c.verticalSamplingFactor) ∧
      nblk w'.toNat ((maxSamplingSize (initComponents e.samplingFactor ct)).1 / c.horizontalSamplingFactor) = nblk w.toNat ((maxSamplingSize (initComponents e.samplingFactor ct)).1 / c.horizontalSamplingFactor)) :
    ∃ before after, Spec.Writes p (before ++ Spec.sizeBytes w h ++ after) ∧ Spec.Writes p' (before ++ Spec.sizeBytes w' h' ++ after) := by
  obtain ⟨image, hd, rfl, h1, h2, h3⟩ := hp.image_of
  obtain ⟨image', hd', rfl, h1', h2', h3'⟩ := hp'.image_of
  subst h1 h2 h3 h2' h3'
  obtain ⟨t, ht, hwr⟩ := writes_image hpf hc simd hd hs
  have hs2 := hs'
  rw [h1'] at hs'
  obtain ⟨t', ht', hwr'⟩ := writes_image hpf hc simd hd' hs'
  have hw0 : image'.width.toNat ≠ 0 := fun hz => hs2.width (UInt16.toNat_inj.mp hz)
  have hh0 : image'.height.toNat ≠ 0 := fun hz => hs2.height (UInt16.toNat_inj.mp hz)
  have hat : ∀ s0 s1 mh mv i c y x, (initComponents e.samplingFactor image.colorType)[i]? = some c → blockAt (dctFn simd) s0 s1 image'.width.toNat image'.height.toNat P' mh mv i c y x =
      blockAt (dctFn simd) s0 s1 image.width.toNat image.height.toNat P mh mv i c y x := by
    intro s0 s1 mh mv i c y x hi
    obtain ⟨hlt, -⟩ := List.getElem?_eq_some_iff.mp hi
    rw [initComponents_count] at hlt
    unfold blockAt
    rw [hP.samples hw hh hw0 hh0 hlt]
  have hE : e.coefs (dctFn simd) image' P' = e.coefs (dctFn simd) image P := by
    funext i y x k
    unfold Encoder.coefs coefsOf
    rw [← h1']
    cases hi : (initComponents e.samplingFactor image.colorType)[i]? with
    | none => rfl
    | some c => dsimp only; rw [hat _ _ _ _ _ _ _ _ hi]
  have htt : t' = t := by
    have o1 := ht.opt pf hpf
    have o2 := ht'.opt pf hpf
    rw [← h1'] at o2
    have hb : (e.atWork image.colorType).optimizeIf pf (e.blocks (dctFn simd) image' P') = (e.atWork image.colorType).optimizeIf pf (e.blocks (dctFn simd) image P) := by
      by_cases ho : e.optimizeHuffmanTable = true
      · congr 1
        unfold Encoder.blocks allBlocks
        rw [← h1']
        refine List.map_congr_left fun ci hci => ?_
        obtain ⟨c, i⟩ := ci
        have hci' := List.mem_zipIdx_iff_getElem?.mp hci
        have hcm := List.mem_of_getElem? hci'
        dsimp only
        rw [(hblk ho c hcm).1, (hblk ho c hcm).2]
        exact List.map_congr_left fun p _ => hat _ _ _ _ _ _ _ _ hci'
      · unfold Encoder.optimizeIf
        rw [if_neg (by exact ho), if_neg (by exact ho)]
    rw [hb, o1] at o2
    exact (congrArg Encoder.huffmanTables (Except.ok.inj o2)).symm
  subst htt
  obtain ⟨a, b, hab⟩ := frameBytes_size e.mode.isProg (initComponents e.samplingFactor image.colorType) e.steps0 e.steps1 t' e.restartInterval
  have hscan : ((e.mode.scans (initComponents e.samplingFactor image.colorType)).map fun sd =>
        sd.bytes (mkFrame e.mode.isProg image'.width image'.height (initComponents e.samplingFactor image.colorType)) t' (e.coefs (dctFn simd) image P) ((e.restartInterval.map UInt16.toNat).getD 0)) =
      (e.mode.scans (initComponents e.samplingFactor image.colorType)).map fun sd =>
        sd.bytes (mkFrame e.mode.isProg image.width image.height (initComponents e.samplingFactor image.colorType)) t' (e.coefs (dctFn simd) image P) ((e.restartInterval.map UInt16.toNat).getD 0) := by
    refine List.map_congr_left fun sd hsd => ?_
    unfold ScanDesc.bytes
    rw [hmcus sd hsd]
  refine ⟨[0xFF, 0xD8] ++ preBytes e.density image.colorType e.appSegments ++ a, b ++
    ((e.mode.scans (initComponents e.samplingFactor image.colorType)).map fun sd =>
        sd.bytes (mkFrame e.mode.isProg image.width image.height (initComponents e.samplingFactor image.colorType)) t' (e.coefs (dctFn simd) image P) ((e.restartInterval.map UInt16.toNat).getD 0)).flatten ++ [0xFF, 0xD9], ?_, ?_⟩
  · unfold Encoder.file fileBytes at hwr
    rw [hab] at hwr
    simpa only [List.append_assoc] using hwr
  · unfold Encoder.file fileBytes at hwr'
    rw [← h1', hab, hE, hscan] at hwr'
    simpa only [List.append_assoc] using hwr'

end

section
variable {pf : Platform} (hpf : pf.Valid) {q : UInt8} {calls : List Spec.Call} {e : Encoder} (hc : Configured pf q calls e) {simd : Bool} {p p' : Prog (R Unit)}
  {ct : JpegColorType} {w h w' h' : UInt16} {P P' : Nat → Nat → Nat → UInt8}
  (hp : Spec.EncodeCall pf simd e p ct w h P) (hp' : Spec.EncodeCall pf simd e p' ct w' h' P')
  (hs : Spec.Supported pf simd e ct w h P) (hs' : Spec.Supported pf simd e ct w' h' P')
  (hP : Spec.Continues ct w.toNat h.toNat w'.toNat h'.toNat P P') (hw : w.toNat ≤ w'.toNat) (hh : h.toNat ≤ h'.toNat)
include hpf hc hp hp' hs hs' hP hw hh

/-- C87: the right edge of an image is continued with the last column, the lower edge with the last line. An image that is larger by such columns and lines, but has the same number
of 8 x 8 blocks, gives the same file up to the size in the frame header: with all settings. -/
theorem C87_block (hbw : _root_.Spec.ceilDiv w.toNat 8 = _root_.Spec.ceilDiv w'.toNat 8)
    (hbh : _root_.Spec.ceilDiv h.toNat 8 = _root_.Spec.ceilDiv h'.toNat 8) :
    ∃ before after, Spec.Writes p (before ++ Spec.sizeBytes w h ++ after) ∧ Spec.Writes p' (before ++ Spec.sizeBytes w' h' ++ after) := by
  obtain ⟨hg, -⟩ := initComponents_grid e.samplingFactor ct
  have hone := init_one e.samplingFactor ct
  refine padded_files hpf hc hp hp' hs hs' hP hw hh (fun sd hsd => ?_) fun _ c _ => ?_
  · have single : ∀ c ∈ initComponents e.samplingFactor ct, layout (mkFrame e.mode.isProg w' h' (initComponents e.samplingFactor ct)) [c.frame] =
        layout (mkFrame e.mode.isProg w h (initComponents e.samplingFactor ct)) [c.frame] := by
      intro c hc
      rw [layout_single hg _ _ _ hc, layout_single hg _ _ _ hc]
      unfold nblk
      rw [hbw, hbh]
    unfold ScanDesc.mcus
    cases hm : e.mode with
    | interleaved =>
      rw [hm] at hsd
      rw [List.mem_singleton.mp hsd]
      dsimp only
      rw [layout_all hg _ _ _ hone, layout_all hg _ _ _ hone]
      rw [ceilDiv_mul_eq hg.mh hbw, ceilDiv_mul_eq hg.mv hbh]
    | sequential =>
      rw [hm] at hsd single
      obtain ⟨c, hc, rfl⟩ := List.mem_map.mp hsd
      exact single c hc
    | progressive n =>
      rw [hm] at hsd single
      rcases List.mem_append.mp hsd with h1 | h1
      · obtain ⟨c, hc, rfl⟩ := List.mem_map.mp h1
        exact single c hc
      · obtain ⟨b, -, hb⟩ := List.mem_flatMap.mp h1
        obtain ⟨c, hc, rfl⟩ := List.mem_map.mp hb
        exact single c hc
  · unfold nblk
    rw [hbw, hbh]
    exact ⟨rfl, rfl⟩

/-- C87 for one interleaved scan: the same number of MCUs is enough. -/
theorem C87_mcu (hb : Spec.Baseline e) (hbw : (Spec.frameOf e ct w h).mcusWide = (Spec.frameOf e ct w' h').mcusWide)
    (hbh : (Spec.frameOf e ct w h).mcusHigh = (Spec.frameOf e ct w' h').mcusHigh) :
    ∃ before after, Spec.Writes p (before ++ Spec.sizeBytes w h ++ after) ∧ Spec.Writes p' (before ++ Spec.sizeBytes w' h' ++ after) := by
  obtain ⟨hg, -⟩ := initComponents_grid e.samplingFactor ct
  have hone := init_one e.samplingFactor ct
  have hm : e.mode = .interleaved := (baseline_mode e).mpr hb
  have hfr : ∀ w h, Spec.frameOf e ct w h = mkFrame e.mode.isProg w h (initComponents e.samplingFactor ct) := by
    intro w h
    rw [mkFrame, mode_isProg, comps_expected]; rfl
  rw [hfr, hfr] at hbw hbh
  simp only [Frame.mcusWide, Frame.mcusHigh, frame_vmax hg, frame_hmax hg] at hbw hbh
  refine padded_files hpf hc hp hp' hs hs' hP hw hh (fun sd hsd => ?_) fun ho => ?_
  · unfold ScanDesc.mcus
    rw [hm] at hsd ⊢
    rw [List.mem_singleton.mp hsd]
    dsimp only
    rw [layout_all hg _ _ _ hone, layout_all hg _ _ _ hone]
    exact congrArg₂ (fun a b => (raster a b).map _) hbh.symm hbw.symm
  · exact absurd ho (by rw [show e.optimizeHuffmanTable = false from hb.2.1]; simp)

end

-- an image of 9 x 1 pixels and its continuation to 10 x 2 pixels, in progressive mode with optimised tables
example : ∃ e p p' P P', Configured ⟨true, 8⟩ 30 [.setProgressive true, .setOptimizedHuffmanTables true] e ∧
    Spec.EncodeCall ⟨true, 8⟩ true e p .luma 9 1 P ∧ Spec.EncodeCall ⟨true, 8⟩ true e p' .luma 10 2 P' ∧
    Spec.Supported ⟨true, 8⟩ true e .luma 9 1 P ∧ Spec.Supported ⟨true, 8⟩ true e .luma 10 2 P' ∧ Spec.Continues .luma 9 1 10 2 P P' ∧
    _root_.Spec.ceilDiv 9 8 = _root_.Spec.ceilDiv 10 8 ∧ _root_.Spec.ceilDiv 1 8 = _root_.Spec.ceilDiv 2 8 := by
  obtain ⟨e, h1, h2⟩ := reachable_exists ⟨true, 8⟩ 30 [.setProgressive true, .setOptimizedHuffmanTables true] (by decide)
  have hr : e.getRestartInterval = none := by rw [h2.restart]; rfl
  have hf : ∀ w h : UInt16, Spec.frameOf e .luma w h = ⟨true, h.toNat, w.toNat, Spec.expectedComps 1 1 .luma⟩ := by
    intro w h
    rw [Spec.frameOf, h2.scans, h2.sampling]; rfl
  have hfit : ∀ (w h : UInt16) (P : Nat → Nat → Nat → UInt8), (∀ t, 63 * Spec.codedBlocks ⟨true, h.toNat, w.toNat, Spec.expectedComps 1 1 .luma⟩ t < 9227464) →
      Spec.CanOptimize ⟨true, 8⟩ true e .luma w h P := by
    intro w h P hb
    refine ⟨fun n hn => ?_, .of_blocks h1.wf fun t => ?_⟩
    · rw [hr] at hn; cases hn
    · show 63 * Spec.codedBlocks (Spec.frameOf e .luma w h) t < 9227464
      rw [hf]
      exact hb t
  refine ⟨e, _, _, _, _, h1, .data [9, 8, 1, 2, 3, 4, 5, 6, 7] 9 1 .luma (by decide) (by unfold Spec.SliceOk; decide),
    .data [9, 8, 1, 2, 3, 4, 5, 6, 7, 7, 9, 8, 1, 2, 3, 4, 5, 6, 7, 7] 10 2 .luma (by decide) (by unfold Spec.SliceOk; decide),
    ⟨by decide, by decide, Or.inl rfl, Or.inr (hfit _ _ _ fun t => ?_)⟩, ⟨by decide, by decide, Or.inl rfl, Or.inr (hfit _ _ _ fun t => ?_)⟩, ?_, by decide, by decide⟩
  · match t with
    | 0 => decide
    | t + 1 => simp [Spec.codedBlocks, Spec.expectedComps]
  · match t with
    | 0 => decide
    | t + 1 => simp [Spec.codedBlocks, Spec.expectedComps]
  · intro c y x _ hy hx
    have key : ∀ y < 2, ∀ x < 10, Spec.samplesOf .luma [9, 8, 1, 2, 3, 4, 5, 6, 7, 7, 9, 8, 1, 2, 3, 4, 5, 6, 7, 7] 10 0 y x =
      Spec.samplesOf .luma [9, 8, 1, 2, 3, 4, 5, 6, 7] 9 0 (min y 0) (min x 8) := by decide +kernel
    exact key y hy x hx

-- 4:2:0: 2 x 17 red and blue pixels, continued to 3 x 18
example : ∃ e p p' P P', Configured ⟨true, 8⟩ 80 [] e ∧ Spec.Baseline e ∧
    Spec.EncodeCall ⟨true, 8⟩ true e p .ycbcr 2 17 P ∧ Spec.EncodeCall ⟨true, 8⟩ true e p' .ycbcr 3 18 P' ∧
    Spec.Supported ⟨true, 8⟩ true e .ycbcr 2 17 P ∧ Spec.Supported ⟨true, 8⟩ true e .ycbcr 3 18 P' ∧ Spec.Continues .ycbcr 2 17 3 18 P P' ∧
    (Spec.frameOf e .ycbcr 2 17).mcusWide = (Spec.frameOf e .ycbcr 3 18).mcusWide ∧ (Spec.frameOf e .ycbcr 2 17).mcusHigh = (Spec.frameOf e .ycbcr 3 18).mcusHigh := by
  obtain ⟨e, h1, h2⟩ := reachable_exists ⟨true, 8⟩ 80 [] (by decide)
  have hsf : e.getSamplingFactor = .F_2_2 := h2.sampling.trans (by decide)
  have h3 : e.getProgressiveScans = none := h2.scans
  have h4 : e.getOptimizedHuffmanTables = false := h2.optimized
  have hf : ∀ w h : UInt16, Spec.frameOf e .ycbcr w h = ⟨false, h.toNat, w.toNat, Spec.expectedComps 2 2 .ycbcr⟩ := by
    intro w h
    rw [Spec.frameOf, h3, hsf]; rfl
  refine ⟨e, _, _, _, _, h1, ⟨h3, h4, by rw [hsf]; decide, by rw [hsf]; decide⟩,
    .data ((List.replicate 17 [255, 0, 0, 0, 0, 255]).flatten) 2 17 .rgb (by decide +kernel) (by unfold Spec.SliceOk; decide +kernel),
    .data ((List.replicate 18 ([255, 0, 0] ++ (List.replicate 2 [0, 0, 255]).flatten)).flatten) 3 18 .rgb (by decide +kernel) (by unfold Spec.SliceOk; decide +kernel),
    ⟨by decide, by decide, Or.inl rfl, Or.inl h4⟩, ⟨by decide, by decide, Or.inl rfl, Or.inl h4⟩, ?_, by rw [hf, hf]; decide, by rw [hf, hf]; decide⟩
  intro c y x hc hy hx
  have key : ∀ c < 3, ∀ y < 18, ∀ x < 3, Spec.samplesOf .rgb ((List.replicate 18 ([255, 0, 0] ++ (List.replicate 2 [0, 0, 255]).flatten)).flatten) 3 c y x =
    Spec.samplesOf .rgb ((List.replicate 17 [255, 0, 0, 0, 0, 255]).flatten) 2 c (min y 16) (min x 1) := by decide +kernel
  exact key c hc y hy x hx

end Jpeg
