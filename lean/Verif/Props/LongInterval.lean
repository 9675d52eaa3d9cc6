import Verif.Props.Independence
/-! C63: a restart interval that no scan reaches. -/
namespace Jpeg
open _root_.Spec

theorem ceilDiv_le {a k : Nat} (hk : 1 ≤ k ∧ k ≤ 4) : Spec.ceilDiv a (8 * k) ≤ Spec.ceilDiv a 8 ∧ Spec.ceilDiv a k ≤ a := by
  unfold Spec.ceilDiv
  rcases (show k = 1 ∨ k = 2 ∨ k = 3 ∨ k = 4 by omega) with rfl | rfl | rfl | rfl <;> omega

theorem nblk_le_blocks {a m k : Nat} (hm : 1 ≤ m ∧ m ≤ 4) (hk : k = 1 ∨ k = m) : nblk a (m / k) ≤ Spec.ceilDiv a 8 := by
  unfold nblk
  rcases hk with rfl | rfl
  · rw [Nat.div_one]
    exact (ceilDiv_le hm).2
  · rw [Nat.div_self (by omega)]
    exact (ceilDiv_le ⟨by omega, by omega⟩).2

/-- No scan has more MCUs than the image has blocks of 8 x 8 pixels. -/
theorem mcus_le {cs : List Component} {mh mv : Nat} (hg : Grid cs mh mv) {m : Mode} (w h : UInt16) (hone : cs.length = 1 → mh = 1 ∧ mv = 1)
    {sd : ScanDesc} (hsd : sd ∈ m.scans cs) :
    (sd.mcus (mkFrame m.isProg w h cs)).length ≤ Spec.ceilDiv w.toNat 8 * Spec.ceilDiv h.toNat 8 := by
  have single : ∀ c ∈ cs, (layout (mkFrame m.isProg w h cs) [c.frame]).length ≤ Spec.ceilDiv w.toNat 8 * Spec.ceilDiv h.toNat 8 := by
    intro c hc
    rw [layout_single hg m.isProg w h hc, List.length_map, raster_length, Nat.mul_comm]
    exact Nat.mul_le_mul (nblk_le_blocks hg.mh (hg.h c hc)) (nblk_le_blocks hg.mv (hg.v c hc))
  have inter : m = .interleaved → (layout (mkFrame m.isProg w h cs) (cs.map Component.frame)).length ≤ Spec.ceilDiv w.toNat 8 * Spec.ceilDiv h.toNat 8 := by
    intro _
    rw [layout_all hg m.isProg w h hone, List.length_map, raster_length, Nat.mul_comm]
    exact Nat.mul_le_mul (ceilDiv_le hg.mh).1 (ceilDiv_le hg.mv).1
  unfold ScanDesc.mcus
  cases m with
  | interleaved =>
    rw [List.mem_singleton.mp hsd]
    exact inter rfl
  | sequential =>
    obtain ⟨c, hc, rfl⟩ := List.mem_map.mp hsd
    exact single c hc
  | progressive n =>
    rcases List.mem_append.mp hsd with h1 | h1
    · obtain ⟨c, hc, rfl⟩ := List.mem_map.mp h1
      exact single c hc
    · obtain ⟨b, -, hb⟩ := List.mem_flatMap.mp h1
      obtain ⟨c, hc, rfl⟩ := List.mem_map.mp hb
      exact single c hc

/-- C63: setting a restart interval of at least as many MCUs as the image has blocks of 8 x 8 pixels adds the DRI segment and changes nothing else: no
scan contains a restart marker, all other bytes are those of the file without restart interval. -/
theorem C63_long_interval {pf : Platform} (hpf : pf.Valid) {q : UInt8} {calls : List Spec.Call} {e : Encoder} (hc : Configured pf q calls e)
    (hno : e.getRestartInterval = none) {simd : Bool} {p p' : Prog (R Unit)} {ct : JpegColorType} {w h : UInt16} {P : Nat → Nat → Nat → UInt8}
    (hs : Spec.Supported pf simd e ct w h P) {n : UInt16} (hn : n ≠ 0) (hbig : Spec.ceilDiv w.toNat 8 * Spec.ceilDiv h.toNat 8 ≤ n.toNat)
    (hp : Spec.EncodeCall pf simd e p ct w h P) (hp' : Spec.EncodeCall pf simd (e.setRestartInterval n) p' ct w h P) :
    ∃ before after, Spec.Writes p (before ++ after) ∧
      Spec.Writes p' (before ++ [0xFF, 0xDD, 0, 4, UInt8.ofNat (n.toNat / 256), UInt8.ofNat (n.toNat % 256)] ++ after) := by
  obtain ⟨image0, hd0, rfl, hct0, hw0, hh0⟩ := hp.image_of
  obtain ⟨image, hd, rfl, hct, hw, hh⟩ := hp'.image_of
  subst hct hw hh
  rw [hct0, hw0, hh0] at hs
  obtain ⟨t0, ht0, h0⟩ := writes_image hpf hc simd hd0 hs
  rw [← hct0, ← hw0, ← hh0] at hs
  obtain ⟨t, ht, -⟩ := writes_image hpf hc simd hd hs
  obtain rfl : t0 = t := works_unique (.refl e) hct0.symm hw0.symm hh0.symm (fun _ _ _ _ _ _ => rfl) (hw0 ▸ hs.width) (hh0 ▸ hs.height) ht0 ht
  rw [file_congr (.refl e) hct0.symm hw0.symm hh0.symm (fun _ _ _ _ _ _ => rfl) (hw0 ▸ hs.width) (hh0 ▸ hs.height) (P' := P)] at h0
  have hri : (e.setRestartInterval n).restartInterval = some n := by simp [Encoder.setRestartInterval, hn]
  have hno' : e.restartInterval = none := hno
  have hwf : (e.setRestartInterval n).Wf := ⟨hc.wf.t0, hc.wf.t1, hc.wf.apps, hc.wf.scans, fun m hm => by
    rw [hri] at hm
    cases hm
    exact hn⟩
  have hle := fun sd (hsd : sd ∈ e.mode.scans (initComponents e.samplingFactor image.colorType)) =>
    (mcus_le (initComponents_grid e.samplingFactor image.colorType).1 image.width image.height (init_one _ _) hsd).trans hbig
  have hopt : ∀ pf : Platform, pf.Valid → ((e.setRestartInterval n).atWork image.colorType).optimizeIf pf ((e.setRestartInterval n).blocks (dctFn simd) image P) =
      .ok (((e.setRestartInterval n).atWork image.colorType).withTables t0) := by
    intro pf hpf
    have := ht.opt pf hpf
    rw [optimizeIf_tables] at this ⊢
    change Except.map _ (optTables pf e.optimizeHuffmanTable e.progressiveScans (initComponents e.samplingFactor image.colorType) e.huffmanTables (e.blocks (dctFn simd) image P)) = _
    change Except.map _ (optTables pf e.optimizeHuffmanTable e.progressiveScans (initComponents e.samplingFactor image.colorType) e.huffmanTables (e.blocks (dctFn simd) image P)) = _ at this
    cases hx : optTables pf e.optimizeHuffmanTable e.progressiveScans (initComponents e.samplingFactor image.colorType) e.huffmanTables (e.blocks (dctFn simd) image P) with
    | error f => rw [hx] at this; cases this
    | ok u =>
      rw [hx] at this
      have hu : u = t0 := congrArg Encoder.huffmanTables (Except.ok.inj this)
      rw [hu]
      rfl
  have hcod : Codable (e.setRestartInterval n) (dctFn simd) image P t0 := by
    refine ⟨ht.cod.tabs, ?_⟩
    intro sd hsd g hg
    refine ht.cod.units sd hsd g ?_
    rw [show (e.setRestartInterval n).interval = n.toNat by simp [Encoder.interval, hri]] at hg
    rw [show e.interval = 0 by simp [Encoder.interval, hno'], intervals_one (Or.inl rfl)]
    rw [show (e.setRestartInterval n).mode = e.mode from rfl, show (e.setRestartInterval n).samplingFactor = e.samplingFactor from rfl,
      intervals_one (Or.inr (hle sd hsd))] at hg
    exact hg
  have h2 : Spec.Writes ((e.setRestartInterval n).encodeImage pf simd image) ((e.setRestartInterval n).file (dctFn simd) image P t0) := by
    intro out
    change (((e.setRestartInterval n).encodeImageInternal pf (opsFor simd) image).program pf).run vecSink out = _
    rw [Prog.run_vec, WM.program_exec (encodeImageInternal_emits hpf (opOk_for simd) hd hs.width hs.height hwf (hs.fits hpf) (hopt pf hpf) (hcod.writable _))]
  have hscans : ((e.mode.scans (initComponents e.samplingFactor image.colorType)).map fun sd =>
      sd.bytes (mkFrame e.mode.isProg image.width image.height (initComponents e.samplingFactor image.colorType)) t0 (e.coefs (dctFn simd) image P) n.toNat) =
      (e.mode.scans (initComponents e.samplingFactor image.colorType)).map fun sd =>
      sd.bytes (mkFrame e.mode.isProg image.width image.height (initComponents e.samplingFactor image.colorType)) t0 (e.coefs (dctFn simd) image P) 0 := by
    refine List.map_congr_left fun sd hsd => ?_
    unfold ScanDesc.bytes scanPart Coder.scanBytes
    rw [intervals_one (Or.inr (hle sd hsd)), intervals_one (Or.inl rfl)]
  unfold Encoder.file fileBytes frameBytes at h0 h2
  rw [hno'] at h0
  rw [hri] at h2
  simp only [Option.map_none, Option.map_some, Option.getD_none, Option.getD_some] at h0 h2
  simp only [show (e.setRestartInterval n).mode = e.mode from rfl, show (e.setRestartInterval n).samplingFactor = e.samplingFactor from rfl,
    show (e.setRestartInterval n).density = e.density from rfl, show (e.setRestartInterval n).appSegments = e.appSegments from rfl,
    show (e.setRestartInterval n).steps0 = e.steps0 from rfl, show (e.setRestartInterval n).steps1 = e.steps1 from rfl,
    show (e.setRestartInterval n).coefs (dctFn simd) image P = e.coefs (dctFn simd) image P from rfl, hscans] at h2
  have hseg : seg 0xDD [u8 (n.toNat / 256), u8 n.toNat] = [0xFF, 0xDD, 0, 4, UInt8.ofNat (n.toNat / 256), UInt8.ofNat (n.toNat % 256)] := by
    have h2 : ∀ n : Nat, UInt8.ofNat (n % 256) = UInt8.ofNat n := fun n => by rw [← UInt8.toNat_inj]; simp
    simp [seg, u8, h2]
  rw [hseg] at h2
  simp only [← List.append_assoc, List.append_nil] at h0 h2
  simp only [List.append_assoc _ (List.flatten _) _] at h0
  simp only [List.append_assoc _ (List.flatten _) _] at h2
  exact ⟨_, _, h0, h2⟩

-- a configuration that satisfies the hypotheses of C63: 20 x 10 pixels have 6 blocks
example : ∃ e p p' P, Configured ⟨true, 8⟩ 70 [.setSamplingFactor .R_4_2_0, .setProgressive true] e ∧ e.getRestartInterval = none ∧
    Spec.Supported ⟨true, 8⟩ true e .luma 20 10 P ∧ Spec.ceilDiv (20 : UInt16).toNat 8 * Spec.ceilDiv (10 : UInt16).toNat 8 ≤ (6 : UInt16).toNat ∧
    Spec.EncodeCall ⟨true, 8⟩ true e p .luma 20 10 P ∧ Spec.EncodeCall ⟨true, 8⟩ true (e.setRestartInterval 6) p' .luma 20 10 P := by
  obtain ⟨e, h1, h2⟩ := reachable_exists ⟨true, 8⟩ 70 [.setSamplingFactor .R_4_2_0, .setProgressive true] (by decide)
  refine ⟨e, _, _, _, h1, ?_, ⟨by decide, by decide, Or.inl rfl, Or.inl ?_⟩, by decide, .data (List.replicate 200 7) 20 10 .luma (by rw [List.length_replicate]; decide) (by unfold Spec.SliceOk; rw [List.length_replicate]; decide),
    .data (List.replicate 200 7) 20 10 .luma (by rw [List.length_replicate]; decide) (by unfold Spec.SliceOk; rw [List.length_replicate]; decide)⟩
  · rw [h2.restart]; rfl
  · rw [h2.optimized]; rfl

end Jpeg
