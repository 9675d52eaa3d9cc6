import Verif.Spec.Preview
import Verif.Props.File
import Verif.Proofs.Loose
import Verif.Props.Accuracy
/-! C70: what can be shown of a file of which only the first scans have arrived. -/
namespace Jpeg
open _root_.Spec

theorem scansOk_take {strict prog : Bool} {cs : List Component} (l : List ScanDesc) (k : Nat) : ∀ done, ScansOk strict prog cs done l →
    ScansOk strict prog cs done (l.take k) := by
  induction l generalizing k with
  | nil => intro done _; rw [List.take_nil]; trivial
  | cons sd l ih =>
    intro done h
    cases k with
    | zero => trivial
    | succ k =>
      rw [List.take_succ_cons]
      exact ⟨h.1, h.2.1, h.2.2.1, ih k _ h.2.2.2⟩

theorem scans_shape {cs : List Component} (m : Mode) : ∀ sd ∈ m.scans cs, (∃ c, sd.cs = [c]) ∨ sd.cs = cs := by
  intro sd hsd
  cases m with
  | interleaved => rw [List.mem_singleton.mp hsd]; exact Or.inr rfl
  | sequential =>
    obtain ⟨c, -, rfl⟩ := List.mem_map.mp hsd
    exact Or.inl ⟨c, rfl⟩
  | progressive n =>
    simp only [Mode.scans, List.mem_append, List.mem_map, List.mem_flatMap] at hsd
    rcases hsd with ⟨c, -, rfl⟩ | ⟨b, -, c, -, rfl⟩ <;> exact Or.inl ⟨c, rfl⟩

theorem sent_logs {f : Frame} {t : HuffPair × HuffPair} {E : Coefs} {n : Nat} (l : List ScanDesc) (c i : Nat) :
    Spec.Sent (l.map (·.log f t E n)) c i ↔ ∃ sd ∈ l, (∃ co ∈ sd.cs, co.id = c) ∧ sd.ss ≤ i ∧ i ≤ sd.se := by
  unfold Spec.Sent
  constructor
  · rintro ⟨s, hs, ⟨sc, h1, h2⟩, h3, h4⟩
    obtain ⟨sd, hsd, rfl⟩ := List.mem_map.mp hs
    obtain ⟨co, hco, rfl⟩ := List.mem_map.mp h1
    exact ⟨sd, hsd, ⟨co, hco, h2⟩, h3, h4⟩
  · rintro ⟨sd, hsd, ⟨co, hco, h2⟩, h3, h4⟩
    exact ⟨_, List.mem_map_of_mem hsd, ⟨_, List.mem_map_of_mem hco, h2⟩, h3, h4⟩

/-- Coefficients no scan codes stay what they are. -/
theorem coefsAfter_not {f : Frame} {t : HuffPair × HuffPair} {E : Coefs} {c y x k : Nat} (l : List ScanDesc) (h1 : ∀ sd ∈ l, 1 ≤ sd.cs.length) (m : Coefs)
    (h : ¬ ∃ sd ∈ l, (∃ co ∈ sd.cs, co.id = c) ∧ sd.ss ≤ k ∧ k ≤ sd.se) : coefsAfter f t E l m c y x k = m c y x k := by
  induction l generalizing m with
  | nil => rfl
  | cons a l ih =>
    unfold coefsAfter
    rw [List.foldl_cons]
    refine (ih (fun sd hsd => h1 sd (List.mem_cons_of_mem _ hsd)) _ fun ⟨sd, hsd, hx⟩ => h ⟨sd, List.mem_cons_of_mem _ hsd, hx⟩).trans ?_
    refine if_neg ?_
    rintro ⟨hm, h2⟩
    obtain ⟨u, hu, he⟩ := List.mem_map.mp hm
    obtain ⟨mcu, hmcu, hu⟩ := List.mem_flatten.mp hu
    have hlt := layout_units (f := f) (fs := a.cs.map Component.frame) (by simpa using h1 a List.mem_cons_self) mcu hmcu u hu
    rw [List.length_map] at hlt
    refine h ⟨a, List.mem_cons_self, ⟨a.cs[u.1], List.getElem_mem hlt, ?_⟩, h2⟩
    have := congrArg Prod.fst he
    simpa [Coder.addr, ScanDesc.coder, scanCoder, hlt] using this

section
variable {strict : Bool} {pf : Platform} (hpf : pf.Valid) {q : UInt8} {calls : List Spec.Call} {e : Encoder} (hc : Configured pf q calls e)
  {simd : Bool} {p : Prog (R Unit)} {ct : JpegColorType} {w h : UInt16} {P : Nat → Nat → Nat → UInt8} (hp : Spec.EncodeCall pf simd e p ct w h P)
  (hs : Spec.Supported pf simd e ct w h P) (h8 : Spec.EightBit e.getQuantizationTables) (hst : ScansFine strict e)
include hpf hc hp hs h8 hst

/-- C70: every file can be shown before it has arrived completely. For each number of scans `k` there is a point `cut k` in the file - later for more scans - such that
the bytes up to there (closed with an EOI marker) are decoded, and all blocks have the final values of the coefficients coded in the first `k` scans and zeros else. -/
theorem C70_preview : Spec.Encodes p strict fun bytes d => ∃ cut : Nat → Nat, (∀ j k, j < k → k ≤ d.scans.length → cut j < cut k) ∧
    (∀ k, k ≤ d.scans.length → cut k + 2 ≤ bytes.length) ∧
    ∀ k, k ≤ d.scans.length → ∃ v, preview strict (bytes.take (cut k) ++ [0xFF, 0xD9]) = some v ∧ Spec.IsPreview (Spec.frameOf e ct w h) d v k := by
  have hwf := hc.wf
  obtain ⟨image, hd, rfl, rfl, rfl, rfl⟩ := hp.image_of
  obtain ⟨hg, hnc⟩ := initComponents_grid e.samplingFactor image.colorType
  obtain ⟨t, hwk⟩ := hs.works hwf
  have h8' := eightBit_steps h8
  refine ⟨_, _, encode_run hpf hd hwf hs hwk, encode_decode hwf hs hwk hst h8, ?_⟩
  have hmode := hwf.mode_ok strict hst image.colorType
  have hok := Mode.scansOk hg.ok hmode
  have hpre := (pre_steps (strict := strict) Dec.init e.density image.colorType e.appSegments (fun a ha => ⟨(hwf.apps a ha).1.2, (hwf.apps a ha).2⟩)).trans
    (frame_steps _ rfl e.mode.isProg hs.width hs.height hg.ok (steps_length e.quantizationTables.1 e.quality.toNat true) (steps_length e.quantizationTables.2 e.quality.toNat false)
      (fun v hv => ⟨(steps_range _ _ _ v hv).1, h8'.1 v hv⟩) (fun v hv => ⟨(steps_range _ _ _ v hv).1, h8'.2 v hv⟩) hwk.cod.tabs e.restartInterval)
  let bytesOf := fun sd : ScanDesc => sd.bytes (mkFrame e.mode.isProg image.width image.height (initComponents e.samplingFactor image.colorType)) t
    (e.coefs (dctFn simd) image P) ((e.restartInterval.map UInt16.toNat).getD 0)
  let heads : Bytes := preBytes e.density image.colorType e.appSegments ++ frameBytes e.mode.isProg image.width image.height
    (initComponents e.samplingFactor image.colorType) (steps e.quantizationTables.1 e.quality.toNat true) (steps e.quantizationTables.2 e.quality.toNat false) t e.restartInterval
  let L := e.mode.scans (initComponents e.samplingFactor image.colorType)
  have hlen : (e.decoded (dctFn simd) image P t).scans.length = L.length := List.length_map ..
  have hfile : e.file (dctFn simd) image P t = [0xFF, 0xD8] ++ ((heads ++ (L.map bytesOf).flatten) ++ [0xFF, 0xD9]) := by
    show fileBytes _ _ _ _ _ _ _ _ _ _ _ _ = _
    unfold fileBytes
    simp only [heads, L, bytesOf, List.append_assoc]
    rfl
  have hsplit : ∀ k, e.file (dctFn simd) image P t = ([0xFF, 0xD8] ++ (heads ++ ((L.take k).map bytesOf).flatten)) ++
      (((L.drop k).map bytesOf).flatten ++ [0xFF, 0xD9]) := by
    intro k
    rw [hfile]
    conv_lhs => rw [← List.take_append_drop k L]
    simp only [List.map_append, List.flatten_append, List.append_assoc]
  refine ⟨fun k => ([0xFF, 0xD8] ++ (heads ++ ((L.take k).map bytesOf).flatten) : Bytes).length, ?_, ?_, ?_⟩
  · intro j k hjk hk
    rw [hlen] at hk
    obtain ⟨i, rfl⟩ : ∃ i, k = j + (i + 1) := ⟨k - j - 1, by omega⟩
    have hj : j < L.length := by omega
    beta_reduce
    rw [List.take_add, List.map_append, List.flatten_append, List.drop_eq_getElem_cons hj, List.take_succ_cons, List.map_cons, List.flatten_cons]
    have : 0 < (bytesOf L[j]).length := Nat.succ_pos _
    simp only [List.length_append]
    omega
  · intro k hk
    rw [hsplit k]
    simp only [List.length_append, List.length_cons, List.length_nil]
    omega
  · intro k hk
    have hst' := hpre.trans (scans_steps hg.ok (L.take k) (E := e.coefs (dctFn simd) image P) (fun sd hsd => hwk.cod.units sd (List.mem_of_mem_take hsd)) [] _
      (frame_ready hg.ok (init_dest _ _) _ rfl _ _ _ _ _ _ _) (by intro c k; rfl) (scansOk_take L k [] hok))
    have hprev := preview_of_steps hst'
    have hcut : (e.file (dctFn simd) image P t).take ([0xFF, 0xD8] ++ (heads ++ ((L.take k).map bytesOf).flatten) : Bytes).length ++ [0xFF, 0xD9] =
        [0xFF, 0xD8] ++ ((heads ++ ((L.take k).map bytesOf).flatten) ++ [0xFF, 0xD9]) := by
      conv_lhs => rw [hsplit k, List.take_left]
      rw [List.append_assoc]
    refine ⟨_, (congrArg (preview strict) hcut).trans hprev, rfl, rfl, rfl, ?_, ?_, ?_⟩
    · show [] ++ (L.take k).map _ = (L.map _).take k
      rw [List.nil_append, List.map_take]
      rfl
    · intro c fc hfc y x i hy hx hi hsent
      have hsent : ∃ sd ∈ L.take k, (∃ co ∈ sd.cs, co.id = c) ∧ sd.ss ≤ i ∧ i ≤ sd.se := (sent_logs (L.take k) c i).mp hsent
      obtain ⟨sd, hsd, ⟨co, hco, hid⟩, h1, h2⟩ := hsent
      rw [frameOf_eq] at hfc hy hx
      rw [decoded_coefs hwf t hfc hy hx hi]
      have hsdL := List.mem_of_mem_take hsd
      have hshape : sd.cs = [co] ∨ sd.cs = initComponents e.samplingFactor image.colorType := by
        rcases scans_shape e.mode sd hsdL with ⟨c', h'⟩ | h'
        · rw [h', List.mem_singleton] at hco
          exact Or.inl (hco ▸ h')
        · exact Or.inr h'
      have hcm : co ∈ initComponents e.samplingFactor image.colorType := scans_mem e.mode sd hsdL co hco
      have hfc' : fc = co.frame := by
        obtain ⟨j, hj, hjc⟩ := List.mem_iff_getElem.mp hcm
        have hjid := hg.ok.ids j co (by rw [List.getElem?_eq_getElem hj, hjc])
        rw [hid] at hjid
        subst hjid
        change ((initComponents e.samplingFactor image.colorType).map Component.frame)[c]? = _ at hfc
        rw [List.getElem?_map, List.getElem?_eq_getElem hj, hjc] at hfc
        exact (Option.some.inj hfc).symm
      subst hfc'
      subst hid
      exact coefsAfter_mem _ _ (Or.inl ⟨sd, hsd, addr_mem hg (init_one e.samplingFactor image.colorType) e.mode.isProg _ _ t _ hcm hshape hy hx, h1, h2⟩)
    · intro c y x i hns
      refine coefsAfter_not (L.take k) (fun sd hsd => ?_) _ fun hx => hns ((sent_logs (L.take k) c i).mpr hx)
      rcases scans_shape e.mode sd (List.mem_of_mem_take hsd) with ⟨c', h'⟩ | h'
      · rw [h']; simp
      · rw [h']; exact hg.ok.one

/-- C70: in a progressive file all blocks have their final DC value, and nothing else, after the first scan of every component: a preview of the whole image in an
eighth of the resolution. -/
theorem C70_dc_first (n : UInt8) (hn : e.getProgressiveScans = some n) : Spec.Encodes p strict fun bytes d =>
    ∃ m v, m + 2 ≤ bytes.length ∧ preview strict (bytes.take m ++ [0xFF, 0xD9]) = some v ∧ v.frame = d.frame ∧ v.qts = d.qts ∧
      v.scans.length = (Spec.frameOf e ct w h).comps.length ∧
      (∀ c fc, (Spec.frameOf e ct w h).comps[c]? = some fc → ∀ y x, y < (Spec.frameOf e ct w h).blocksHigh fc → x < (Spec.frameOf e ct w h).blocksWide fc →
        v.coefs c y x 0 = d.coefs c y x 0) ∧
      ∀ c y x i, 1 ≤ i → v.coefs c y x i = 0 := by
  refine ((C70_preview hpf hc hp hs h8 hst).and (C30_bands hpf hc hp hs h8 hst n hn)).mono ?_
  rintro bytes d ⟨⟨cut, -, hcut, hv⟩, bands, hscans, -⟩
  set cs := Spec.expectedComps e.getSamplingFactor.factors.1 e.getSamplingFactor.factors.2 ct with hcs
  have hcomps : (Spec.frameOf e ct w h).comps = cs := rfl
  have hle : cs.length ≤ d.scans.length := by
    have := congrArg List.length hscans
    rw [List.length_map, List.length_append, Spec.dcScans, List.length_map] at this
    omega
  obtain ⟨v, hp, hprev⟩ := hv cs.length hle
  have hids : ∀ (c : Nat) (fc : FrameComp), cs[c]? = some fc → fc.id = c := by
    intro c fc hfc
    rw [hcs] at hfc
    cases ct <;> rcases c with _ | _ | _ | _ | c <;> simp [Spec.expectedComps] at hfc <;> rw [← hfc]
  have hfirst : v.scans.map (·.scan) = Spec.dcScans cs := by
    rw [hprev.scans, List.map_take, hscans, List.take_left' (by simp [Spec.dcScans])]
  have hsent : ∀ c i, Spec.Sent v.scans c i ↔ (∃ fc ∈ cs, fc.id = c) ∧ i = 0 := by
    intro c i
    constructor
    · rintro ⟨s, hs, ⟨sc, h1, h2⟩, h3, h4⟩
      have : s.scan ∈ Spec.dcScans cs := hfirst ▸ List.mem_map_of_mem hs
      obtain ⟨fc, hfc, he⟩ := List.mem_map.mp this
      rw [← he] at h1 h4
      rw [List.mem_singleton.mp h1] at h2
      exact ⟨⟨fc, hfc, h2⟩, Nat.le_zero.mp h4⟩
    · rintro ⟨⟨fc, hfc, h2⟩, rfl⟩
      have : (⟨[Spec.scanComp fc], 0, 0⟩ : Scan) ∈ v.scans.map (·.scan) := hfirst ▸ List.mem_map_of_mem hfc
      obtain ⟨s, hs, he⟩ := List.mem_map.mp this
      refine ⟨s, hs, ?_⟩
      rw [he]
      exact ⟨⟨_, List.mem_singleton.mpr rfl, h2⟩, Nat.le_refl _, Nat.le_refl _⟩
  refine ⟨cut cs.length, v, hcut _ hle, hp, hprev.frame, hprev.qts, ?_, ?_, ?_⟩
  · rw [hprev.scans, List.length_take, hcomps]
    omega
  · intro c fc hfc y x hy hx
    exact hprev.sent c fc hfc y x 0 hy hx (by omega) ((hsent c 0).mpr ⟨⟨fc, List.mem_of_getElem? hfc, hids c fc hfc⟩, rfl⟩)
  · intro c y x i hi
    exact hprev.rest c y x i fun hx => by have := ((hsent c i).mp hx).2; omega

end

-- a progressive file with nine scans: three components, the DC coefficients and two rounds of AC coefficients
example : ∃ e p, Configured ⟨true, 8⟩ 80 [.setProgressiveScans 3, .setRestartInterval 1] e ∧
    Spec.Encodes p true fun bytes d => d.scans.length = 9 ∧
      ∃ m v, m + 2 ≤ bytes.length ∧ preview true (bytes.take m ++ [0xFF, 0xD9]) = some v ∧ v.scans.length = 3 := by
  obtain ⟨e, h1, h2⟩ := reachable_exists ⟨true, 8⟩ 80 [.setProgressiveScans 3, .setRestartInterval 1] (by decide)
  have ho : e.getOptimizedHuffmanTables = false := by rw [h2.optimized]; rfl
  have hn : e.getProgressiveScans = some 3 := by rw [h2.scans]; rfl
  have h8 : Spec.EightBit e.getQuantizationTables := by rw [h2.quant]; rintro t (h | h) <;> cases h
  have hp := Spec.EncodeCall.data (pf := ⟨true, 8⟩) (simd := true) (e := e) [7, 8, 9, 250, 251, 252] 2 1 .rgb (by decide) (by unfold Spec.SliceOk; decide)
  have hs : Spec.Supported ⟨true, 8⟩ true e .ycbcr 2 1 (Spec.samplesOf .rgb [7, 8, 9, 250, 251, 252] 2) := ⟨by decide, by decide, Or.inl rfl, Or.inl ho⟩
  have hst : ScansFine true e := by
    intro _ n h
    rw [hn] at h
    cases h
    decide
  refine ⟨e, _, h1, ((C70_dc_first (by decide) h1 hp hs h8 hst 3 hn).and (C30_bands (by decide) h1 hp hs h8 hst 3 hn)).mono ?_⟩
  rintro bytes d ⟨⟨m, v, hm, hv, -, -, hl, -⟩, bands, hb, hbl, -⟩
  refine ⟨?_, m, v, hm, hv, hl⟩
  have := congrArg List.length hb
  rw [List.length_map, List.length_append, List.length_flatMap] at this
  simpa [Spec.dcScans, Spec.acScans, Spec.expectedComps, Spec.fileColor, hbl] using this

end Jpeg
