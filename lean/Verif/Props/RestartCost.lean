import Verif.Proofs.RestartCost
import Verif.Props.ExactSize
import Verif.Props.Accuracy
import Verif.Props.Gain
/-! C95: restart intervals change nothing but the entropy coded data, and cost little. -/
namespace Jpeg
open _root_.Spec

theorem optimizeIf_restart (pf : Platform) (e : Encoder) (b : Blocks) (r : Option UInt16) :
    ({ e with restartInterval := r } : Encoder).optimizeIf pf b = (e.optimizeIf pf b).map fun e' => { e' with restartInterval := r } := by
  unfold Encoder.optimizeIf
  show (if e.optimizeHuffmanTable = true then Encoder.optimizeHuffman pf { e with restartInterval := r } b else _) = _
  split
  · unfold Encoder.optimizeHuffman
    show (do
      let t0 ← optimizeTable pf e.progressiveScans e.components b 0
      if e.components.length ≥ 2 then do
        let t1 ← optimizeTable pf e.progressiveScans e.components b 1
        .ok { e with restartInterval := r, huffmanTables := (t0, t1) }
      else .ok { e with restartInterval := r, huffmanTables := (t0, e.huffmanTables.2) } : R Encoder) = _
    cases optimizeTable pf e.progressiveScans e.components b 0 with
    | error f => rfl
    | ok t0 =>
      show (if e.components.length ≥ 2 then _ else _) = (if e.components.length ≥ 2 then _ else _ : R Encoder).map _
      split
      · cases optimizeTable pf e.progressiveScans e.components b 1 with
        | error f => rfl
        | ok t1 => rfl
      · rfl
  · rfl

theorem works_restart {pf : Platform} (hpf : pf.Valid) {e1 e0 : Encoder} (he : ∃ r, e1 = { e0 with restartInterval := r }) {simd : Bool} {image image' : ImageBuffer}
    (hi : image.colorType = image'.colorType ∧ image.width = image'.width ∧ image.height = image'.height)
    {P : Nat → Nat → Nat → UInt8} {t1 t0 : HuffPair × HuffPair} (hw1 : Works simd e1 image P t1) (hw0 : Works simd e0 image' P t0) : t1 = t0 := by
  obtain ⟨r, rfl⟩ := he
  have h1 := hw1.opt pf hpf
  have h0 := hw0.opt pf hpf
  have e : (({ e0 with restartInterval := r } : Encoder).atWork image.colorType) = { e0.atWork image'.colorType with restartInterval := r } := by rw [← hi.1]; rfl
  have eb : ({ e0 with restartInterval := r } : Encoder).blocks (dctFn simd) image P = e0.blocks (dctFn simd) image' P := by
    unfold Encoder.blocks
    rw [← hi.1, ← hi.2.1, ← hi.2.2]
    rfl
  rw [e, eb, optimizeIf_restart, h0] at h1
  exact (congrArg Encoder.huffmanTables (Except.ok.inj h1)).symm

theorem forFoldR_snoc_ok {α β : Type} (l : List α) (x : α) (s : β) (body : β → α → R β) {r : β} (h : forFoldR (l ++ [x]) s body = .ok r) :
    ∃ m, forFoldR l s body = .ok m ∧ body m x = .ok r := by
  induction l generalizing s with
  | nil =>
    refine ⟨s, rfl, ?_⟩
    simp only [List.nil_append, forFoldR] at h
    cases hb : body s x with
    | error f => rw [hb] at h; cases h
    | ok a => rw [hb] at h; exact h
  | cons y l ih =>
    simp only [List.cons_append, forFoldR] at h
    cases hb : body s y with
    | error f => rw [hb] at h; cases h
    | ok a =>
      rw [hb] at h
      obtain ⟨m, h1, h2⟩ := ih a h
      exact ⟨m, by simp only [forFoldR]; rw [hb]; exact h1, h2⟩

theorem configured_restart {pf : Platform} {q : UInt8} {calls : List Spec.Call} {e1 e0 : Encoder} {n m : UInt16}
    (h1 : Configured pf q (calls ++ [.setRestartInterval n]) e1) (h0 : Configured pf q (calls ++ [.setRestartInterval m]) e0) :
    ∃ r, e1 = { e0 with restartInterval := r } := by
  obtain ⟨a, ha, h1⟩ := h1
  obtain ⟨b, hb, h0⟩ := h0
  rw [ha] at hb
  cases hb
  obtain ⟨x, hx, h1⟩ := forFoldR_snoc_ok _ _ _ _ h1
  obtain ⟨y, hy, h0⟩ := forFoldR_snoc_ok _ _ _ _ h0
  rw [hx] at hy
  cases hy
  cases h1
  cases h0
  exact ⟨_, rfl⟩

theorem sum_map_le_sum {α : Type} (l : List α) (f g : α → Nat) (h : ∀ x ∈ l, f x ≤ g x) : (l.map f).sum ≤ (l.map g).sum := by
  have := sum_map_le_add l f g 0 h
  omega

section
variable {pf : Platform} (hpf : pf.Valid) {q : UInt8} {calls : List Spec.Call} {n : UInt16} {e1 e0 : Encoder}
  (hc1 : Configured pf q (calls ++ [.setRestartInterval n]) e1) (hc0 : Configured pf q (calls ++ [.setRestartInterval 0]) e0)
  {simd : Bool} {p1 p0 : Prog (R Unit)} {ct : JpegColorType} {w h : UInt16} {P : Nat → Nat → Nat → UInt8}
  (hp1 : Spec.EncodeCall pf simd e1 p1 ct w h P) (hp0 : Spec.EncodeCall pf simd e0 p0 ct w h P)
  (hs1 : Spec.Supported pf simd e1 ct w h P) (hs0 : Spec.Supported pf simd e0 ct w h P)
  (h8 : Spec.EightBit e1.getQuantizationTables) {strict : Bool} (hst : ScansFine strict e1)
include hpf hc1 hc0 hp1 hp0 hs1 hs0 h8 hst

/-- C95: with and without restart intervals a decoder finds the same application segments, tables, frame header, scan headers and coefficients. The file with restart intervals is
at most 6 bytes (the DRI segment) and, for every restart marker in a scan with `c` components, `4 c + 2` bytes larger, if bytes 0xFF in the entropy coded data (which
include the first byte of every marker) are not counted. -/
theorem C95_restarts : Spec.Encodes p1 strict fun bytes1 d1 => Spec.Encodes p0 strict fun bytes0 d0 =>
    (d1.apps = d0.apps ∧ d1.qts = d0.qts ∧ d1.dc = d0.dc ∧ d1.ac = d0.ac ∧ d1.frame = d0.frame ∧ d1.coefs = d0.coefs ∧
      d1.scans.map (·.scan) = d0.scans.map (·.scan) ∧ d1.ri = n.toNat ∧ d0.ri = 0) ∧
    bytes1.length + stuffedBytes d0 ≤ bytes0.length + stuffedBytes d1 + 6 +
      (d1.scans.map fun s => (4 * s.scan.comps.length + 2) * Spec.restartCount n.toNat s.mcus).sum := by
  have he := configured_restart hc1 hc0
  have hr1 : e1.restartInterval = if n = 0 then none else some n := by
    have a := hc1.settings.1.restart
    rw [latest_snoc] at a
    exact a
  have hr0 : e0.restartInterval = none := by
    have a := hc0.settings.1.restart
    rw [latest_snoc] at a
    exact a
  have h80 : Spec.EightBit e0.getQuantizationTables := by obtain ⟨r, rfl⟩ := he; exact h8
  have hst0 : ScansFine strict e0 := by obtain ⟨r, rfl⟩ := he; exact hst
  refine ((encodes_of hpf hc1 hp1 hs1 h8 hst (Q := fun bytes d => ∃ image t, image.colorType = ct ∧ image.width = w ∧ image.height = h ∧ Works simd e1 image P t ∧
    bytes = e1.file (dctFn simd) image P t ∧ d = e1.decoded (dctFn simd) image P t) fun image t a b c ht => ⟨image, t, a, b, c, ht, rfl, rfl⟩).and
    (C93_size hpf hc1 hp1 hs1 h8 hst)).mono fun bytes1 d1 hb1 => ?_
  obtain ⟨⟨image1, t1, rfl, rfl, rfl, hw1, rfl, hd1⟩, f1, hf1, hl1, hsc1⟩ := hb1
  refine ((encodes_of hpf hc0 hp0 hs0 h80 hst0 (Q := fun bytes d => ∃ image t, image.colorType = image1.colorType ∧ image.width = image1.width ∧ image.height = image1.height ∧ Works simd e0 image P t ∧
    bytes = e0.file (dctFn simd) image P t ∧ d = e0.decoded (dctFn simd) image P t) fun image t a b c ht => ⟨image, t, a, b, c, ht, rfl, rfl⟩).and
    (C93_size hpf hc0 hp0 hs0 h80 hst0)).mono fun bytes0 d0 hb0 => ?_
  obtain ⟨⟨image0, t0, hi1, hi2, hi3, hw0, rfl, hd0⟩, f0, hf0, hl0, hsc0⟩ := hb0
  have htt : t1 = t0 := works_restart hpf he ⟨hi1.symm, hi2.symm, hi3.symm⟩ hw1 hw0
  subst htt
  obtain ⟨r, rfl⟩ := he
  obtain ⟨ict, iw, ih, ifb⟩ := image1
  obtain ⟨ict0, iw0, ih0, ifb0⟩ := image0
  simp only at hi1 hi2 hi3
  subst hi1 hi2 hi3
  subst hd1 hd0
  have hri1 : ({ e0 with restartInterval := r } : Encoder).restartInterval = r := rfl
  have hrn : (r.map UInt16.toNat).getD 0 = n.toNat := by
    rw [show r = if n = 0 then none else some n from hr1]
    split
    · next hn => rw [hn]; rfl
    · rfl
  have hf : f1 = f0 := by
    have a := hf1
    rw [show (Encoder.decoded { e0 with restartInterval := r } (dctFn simd) ⟨ict0, iw0, ih0, ifb⟩ P t1).frame = (e0.decoded (dctFn simd) ⟨ict0, iw0, ih0, ifb0⟩ P t1).frame from rfl, hf0] at a
    exact (Option.some.inj a).symm
  subst hf
  have hfe : f1 = mkFrame e0.mode.isProg iw0 ih0 (initComponents e0.samplingFactor ict0) := (Option.some.inj hf0).symm
  subst hfe
  have ri0 : (e0.decoded (dctFn simd) ⟨ict0, iw0, ih0, ifb0⟩ P t1).ri = 0 := by
    show (e0.restartInterval.map UInt16.toNat).getD 0 = 0
    rw [hr0]; rfl
  have ri1 : (Encoder.decoded { e0 with restartInterval := r } (dctFn simd) ⟨ict0, iw0, ih0, ifb⟩ P t1).ri = n.toNat := hrn
  have hscans : (Encoder.decoded { e0 with restartInterval := r } (dctFn simd) ⟨ict0, iw0, ih0, ifb⟩ P t1).scans.map (·.scan) =
      (e0.decoded (dctFn simd) ⟨ict0, iw0, ih0, ifb0⟩ P t1).scans.map (·.scan) := by
    show (((e0.mode.scans (initComponents e0.samplingFactor ict0)).map _).map _) = (((e0.mode.scans (initComponents e0.samplingFactor ict0)).map _).map _)
    rw [List.map_map, List.map_map]
    rfl
  refine ⟨⟨rfl, rfl, rfl, rfl, rfl, rfl, hscans, ri1, ri0⟩, ?_⟩
  have wfT : ∀ sl T, (Encoder.decoded { e0 with restartInterval := r } (dctFn simd) ⟨ict0, iw0, ih0, ifb⟩ P t1).dc sl = some T → T.WellFormed := by
    intro sl T hT
    have htab := hw0.cod.tabs
    have hT : (if (initComponents e0.samplingFactor ict0).length ≥ 3 then upd (upd (fun _ => none) 0 (some t1.1.dc.spec)) 1 (some t1.2.dc.spec)
      else upd (fun _ => none) 0 (some t1.1.dc.spec)) sl = some T := hT
    split at hT
    · next hl =>
      simp only [upd] at hT
      split at hT
      · cases hT; exact (htab.dc1 hl).ok.wf
      · split at hT
        · cases hT; exact htab.dc0.ok.wf
        · cases hT
    · simp only [upd] at hT
      split at hT
      · cases hT; exact htab.dc0.ok.wf
      · cases hT
  have hd := fun s => dataBytes_restarts (d1 := Encoder.decoded { e0 with restartInterval := r } (dctFn simd) ⟨ict0, iw0, ih0, ifb⟩ P t1)
    (d0 := e0.decoded (dctFn simd) ⟨ict0, iw0, ih0, ifb0⟩ P t1) rfl rfl rfl ri0 wfT (mkFrame e0.mode.isProg iw0 ih0 (initComponents e0.samplingFactor ict0)) s
  have hdri1 : (Encoder.decoded { e0 with restartInterval := r } (dctFn simd) ⟨ict0, iw0, ih0, ifb⟩ P t1).markers.count 0xDD ≤ 1 := by
    show (fileDec _ _ _ _ _ _ _ _ _ _ _ _).markers.count 0xDD ≤ 1
    rw [count_dri]
    split <;> omega
  have hsum : ((Encoder.decoded { e0 with restartInterval := r } (dctFn simd) ⟨ict0, iw0, ih0, ifb⟩ P t1).scans.map fun s => 8 + 2 * s.scan.comps.length + s.data.length).sum +
      stuffedBytes (e0.decoded (dctFn simd) ⟨ict0, iw0, ih0, ifb0⟩ P t1) ≤
      ((e0.decoded (dctFn simd) ⟨ict0, iw0, ih0, ifb0⟩ P t1).scans.map fun s => 8 + 2 * s.scan.comps.length + s.data.length).sum +
      stuffedBytes (Encoder.decoded { e0 with restartInterval := r } (dctFn simd) ⟨ict0, iw0, ih0, ifb⟩ P t1) +
      ((Encoder.decoded { e0 with restartInterval := r } (dctFn simd) ⟨ict0, iw0, ih0, ifb⟩ P t1).scans.map fun s =>
        (4 * s.scan.comps.length + 2) * Spec.restartCount n.toNat s.mcus).sum := by
    unfold stuffedBytes
    show (((e0.mode.scans (initComponents e0.samplingFactor ict0)).map _).map _).sum + (((e0.mode.scans (initComponents e0.samplingFactor ict0)).map _).map _).sum ≤
      (((e0.mode.scans (initComponents e0.samplingFactor ict0)).map _).map _).sum + (((e0.mode.scans (initComponents e0.samplingFactor ict0)).map _).map _).sum +
      (((e0.mode.scans (initComponents e0.samplingFactor ict0)).map _).map _).sum
    rw [List.map_map, List.map_map, List.map_map, List.map_map, List.map_map, ← List.sum_map_add, ← List.sum_map_add, ← List.sum_map_add]
    refine sum_map_le_sum _ _ _ fun sd hsd => ?_
    have m1 := hsc1 _ (List.mem_map_of_mem hsd)
    have m0 := hsc0 _ (List.mem_map_of_mem hsd)
    have hk := hd sd.scan ((sd.log (mkFrame e0.mode.isProg iw0 ih0 (initComponents e0.samplingFactor ict0)) t1 (e0.coefs (dctFn simd) ⟨ict0, iw0, ih0, ifb0⟩ P) (Encoder.interval { e0 with restartInterval := r })).data.count 0xFF)
      ((sd.log (mkFrame e0.mode.isProg iw0 ih0 (initComponents e0.samplingFactor ict0)) t1 (e0.coefs (dctFn simd) ⟨ict0, iw0, ih0, ifb0⟩ P) e0.interval).data.count 0xFF)
    have hg := (initComponents_grid e0.samplingFactor ict0).1
    have hfc : scanFrameComps (mkFrame e0.mode.isProg iw0 ih0 (initComponents e0.samplingFactor ict0)) sd.scan = sd.cs.map Component.frame := by
      refine scanFrameComps_ok hg.ok rfl sd.cs (fun c hc => ?_) sd.ss sd.se
      rcases mem_scans hsd with ⟨c', hcm, h1⟩ | h1
      · rw [h1, List.mem_singleton] at hc
        rw [hc]; exact hcm
      · rw [h1] at hc; exact hc
    have hcount : (scanIntervals (Encoder.decoded { e0 with restartInterval := r } (dctFn simd) ⟨ict0, iw0, ih0, ifb⟩ P t1) (mkFrame e0.mode.isProg iw0 ih0 (initComponents e0.samplingFactor ict0)) sd.scan).length - 1 =
        Spec.restartCount n.toNat (sd.mcus (mkFrame e0.mode.isProg iw0 ih0 (initComponents e0.samplingFactor ict0))).length := by
      unfold scanIntervals
      rw [List.length_map, ri1, intervals_length, hfc]
      rfl
    have hlen : sd.scan.comps.length = sd.cs.length := List.length_map _
    rw [hcount] at hk
    show 8 + 2 * sd.scan.comps.length + (sd.log (mkFrame e0.mode.isProg iw0 ih0 (initComponents e0.samplingFactor ict0)) t1 (e0.coefs (dctFn simd) ⟨ict0, iw0, ih0, ifb0⟩ P)
        (Encoder.interval { e0 with restartInterval := r })).data.length +
      (sd.log (mkFrame e0.mode.isProg iw0 ih0 (initComponents e0.samplingFactor ict0)) t1 (e0.coefs (dctFn simd) ⟨ict0, iw0, ih0, ifb0⟩ P) e0.interval).data.count 0xFF ≤
      8 + 2 * sd.scan.comps.length + (sd.log (mkFrame e0.mode.isProg iw0 ih0 (initComponents e0.samplingFactor ict0)) t1 (e0.coefs (dctFn simd) ⟨ict0, iw0, ih0, ifb0⟩ P)
        e0.interval).data.length +
      (sd.log (mkFrame e0.mode.isProg iw0 ih0 (initComponents e0.samplingFactor ict0)) t1 (e0.coefs (dctFn simd) ⟨ict0, iw0, ih0, ifb0⟩ P)
        (Encoder.interval { e0 with restartInterval := r })).data.count 0xFF +
      (4 * sd.scan.comps.length + 2) * Spec.restartCount n.toNat (sd.mcus (mkFrame e0.mode.isProg iw0 ih0 (initComponents e0.samplingFactor ict0))).length
    have n1 : (sd.log (mkFrame e0.mode.isProg iw0 ih0 (initComponents e0.samplingFactor ict0)) t1 (e0.coefs (dctFn simd) ⟨ict0, iw0, ih0, ifb0⟩ P) (Encoder.interval { e0 with restartInterval := r })).data.length =
      dataBytes (Encoder.decoded { e0 with restartInterval := r } (dctFn simd) ⟨ict0, iw0, ih0, ifb⟩ P t1)
      (mkFrame e0.mode.isProg iw0 ih0 (initComponents e0.samplingFactor ict0)) sd.scan ((sd.log (mkFrame e0.mode.isProg iw0 ih0 (initComponents e0.samplingFactor ict0)) t1
        (e0.coefs (dctFn simd) ⟨ict0, iw0, ih0, ifb0⟩ P) (Encoder.interval { e0 with restartInterval := r })).data.count 0xFF) := m1
    have n0 : (sd.log (mkFrame e0.mode.isProg iw0 ih0 (initComponents e0.samplingFactor ict0)) t1 (e0.coefs (dctFn simd) ⟨ict0, iw0, ih0, ifb0⟩ P) e0.interval).data.length =
      dataBytes (e0.decoded (dctFn simd) ⟨ict0, iw0, ih0, ifb0⟩ P t1)
      (mkFrame e0.mode.isProg iw0 ih0 (initComponents e0.samplingFactor ict0)) sd.scan ((sd.log (mkFrame e0.mode.isProg iw0 ih0 (initComponents e0.samplingFactor ict0)) t1
        (e0.coefs (dctFn simd) ⟨ict0, iw0, ih0, ifb0⟩ P) e0.interval).data.count 0xFF) := m0
    rw [Nat.add_comm 2 (4 * _)] at hk
    omega
  have len1 := hl1
  have len0 := hl0
  unfold fileSize at len1 len0
  rw [show (Encoder.decoded { e0 with restartInterval := r } (dctFn simd) ⟨ict0, iw0, ih0, ifb⟩ P t1).apps = (e0.decoded (dctFn simd) ⟨ict0, iw0, ih0, ifb0⟩ P t1).apps from rfl,
    show (Encoder.decoded { e0 with restartInterval := r } (dctFn simd) ⟨ict0, iw0, ih0, ifb⟩ P t1).dc = (e0.decoded (dctFn simd) ⟨ict0, iw0, ih0, ifb0⟩ P t1).dc from rfl,
    show (Encoder.decoded { e0 with restartInterval := r } (dctFn simd) ⟨ict0, iw0, ih0, ifb⟩ P t1).ac = (e0.decoded (dctFn simd) ⟨ict0, iw0, ih0, ifb0⟩ P t1).ac from rfl] at len1
  omega

end

/-! ### Concrete cases -/

-- the hypotheses of `C95_restarts`: a progressive encoder with chroma subsampling, RGB pixels
example : ∃ e1 e0 p1 p0 P, Configured ⟨true, 8⟩ 75 ([.setProgressiveScans 10] ++ [.setRestartInterval 3]) e1 ∧ Configured ⟨true, 8⟩ 75 ([.setProgressiveScans 10] ++ [.setRestartInterval 0]) e0 ∧
    Spec.EncodeCall ⟨true, 8⟩ true e1 p1 .ycbcr 3 2 P ∧ Spec.EncodeCall ⟨true, 8⟩ true e0 p0 .ycbcr 3 2 P ∧
    Spec.Supported ⟨true, 8⟩ true e1 .ycbcr 3 2 P ∧ Spec.Supported ⟨true, 8⟩ true e0 .ycbcr 3 2 P ∧ Spec.EightBit e1.getQuantizationTables ∧ ScansFine true e1 := by
  obtain ⟨e1, h1, h2⟩ := reachable_exists ⟨true, 8⟩ 75 ([.setProgressiveScans 10] ++ [.setRestartInterval 3]) (by decide)
  obtain ⟨e0, k1, k2⟩ := reachable_exists ⟨true, 8⟩ 75 ([.setProgressiveScans 10] ++ [.setRestartInterval 0]) (by decide)
  refine ⟨e1, e0, _, _, _, h1, k1, .data [1, 2, 3, 4, 5, 6, 7, 8, 9, 10, 11, 12, 13, 14, 15, 16, 17, 18] 3 2 .rgb (by decide) (by unfold Spec.SliceOk; decide),
    .data [1, 2, 3, 4, 5, 6, 7, 8, 9, 10, 11, 12, 13, 14, 15, 16, 17, 18] 3 2 .rgb (by decide) (by unfold Spec.SliceOk; decide),
    ⟨by decide, by decide, Or.inl rfl, Or.inl (by rw [h2.optimized]; rfl)⟩, ⟨by decide, by decide, Or.inl rfl, Or.inl (by rw [k2.optimized]; rfl)⟩, ?_, ?_⟩
  · rw [h2.quant]; rintro t (h | h) <;> cases h
  · intro _; rw [h2.scans]; decide

-- 17 gray pixels in a row (three blocks) without restart intervals and with restart intervals of one block: file size, size of the entropy coded data, its bytes 0xFF, restart markers
example : (do
    let e ← Encoder.new ⟨true, 8⟩ 75
    .ok (decide (([0, 1].map fun n =>
      let r := ((e.setRestartInterval n).encode ⟨true, 8⟩ false [200, 190, 180, 170, 160, 150, 140, 130, 20, 30, 40, 50, 60, 70, 80, 90, 255] 17 1 .luma).run vecSink []
      (r.1.length :: ((decode true r.1).map fun d => d.scans.flatMap fun s => [s.data.length, s.data.count 0xFF, Spec.restartCount n.toNat s.mcus]).getD [])) =
      [[411, 12, 0, 0], [421, 16, 2, 2]])) : R Bool) = .ok true := by decide +kernel

end Jpeg
