import Verif.Props.File
import Verif.Props.Api
/-! C74: the settings and the quantised coefficients determine the file. -/
namespace Jpeg
open _root_.Spec

namespace Coder

/-- What a scan writes depends only on the coefficients in its blocks and its band. -/
theorem unitBits_same (t : HuffPair × HuffPair) (cs : List Component) (ss se : Nat) {E E' : Coefs} {u : DataUnit}
    (h : ∀ k, ss ≤ k → k ≤ se → E ((cs[u.1]?.map (·.id)).getD 0) u.2.1 u.2.2 k = E' ((cs[u.1]?.map (·.id)).getD 0) u.2.1 u.2.2 k) (p : Nat → Int) :
    (scanCoder t cs ss se E).unitBits u p = (scanCoder t cs ss se E').unitBits u p ∧
      (scanCoder t cs ss se E).nextPreds u p = (scanCoder t cs ss se E').nextPreds u p := by
  have hdc : ss = 0 → (scanCoder t cs ss se E).dc u = (scanCoder t cs ss se E').dc u := fun h0 => h 0 (by omega) (by omega)
  have hb : (scanCoder t cs ss se E).band u = (scanCoder t cs ss se E').band u := by
    unfold band
    refine List.map_congr_left fun i hi => h _ ?_ ?_
    · exact Nat.le_trans (Nat.le_max_left _ _) (Nat.le_add_right _ _)
    · have := List.mem_range.mp hi
      unfold n at this
      change i < se + 1 - (scanCoder t cs ss se E).first at this
      change (scanCoder t cs ss se E).first + i ≤ se
      omega
  constructor
  · unfold unitBits
    rw [hb]
    by_cases h0 : ss = 0
    · rw [hdc h0]; rfl
    · rw [if_neg (show ¬ (scanCoder t cs ss se E).ss = 0 from h0), if_neg (show ¬ (scanCoder t cs ss se E').ss = 0 from h0)]; rfl
  · unfold nextPreds
    by_cases h0 : ss = 0
    · rw [hdc h0]; rfl
    · rw [if_neg (show ¬ (scanCoder t cs ss se E).ss = 0 from h0), if_neg (show ¬ (scanCoder t cs ss se E').ss = 0 from h0)]

theorem unitsBits_same (t : HuffPair × HuffPair) (cs : List Component) (ss se : Nat) {E E' : Coefs} (us : List DataUnit)
    (h : ∀ u ∈ us, ∀ k, ss ≤ k → k ≤ se → E ((cs[u.1]?.map (·.id)).getD 0) u.2.1 u.2.2 k = E' ((cs[u.1]?.map (·.id)).getD 0) u.2.1 u.2.2 k)
    (p : Nat → Int) : (scanCoder t cs ss se E).unitsBits us p = (scanCoder t cs ss se E').unitsBits us p := by
  induction us generalizing p with
  | nil => rfl
  | cons u us ih =>
    obtain ⟨h1, h2⟩ := unitBits_same t cs ss se (h u (List.mem_cons_self ..)) p
    unfold unitsBits
    rw [h1, h2, ih fun u hu => h u (List.mem_cons_of_mem _ hu)]

theorem intervalsBytes_same (t : HuffPair × HuffPair) (cs : List Component) (ss se : Nat) {E E' : Coefs} (gs : List (List DataUnit)) (i : Nat)
    (h : ∀ g ∈ gs, ∀ u ∈ g, ∀ k, ss ≤ k → k ≤ se →
      E ((cs[u.1]?.map (·.id)).getD 0) u.2.1 u.2.2 k = E' ((cs[u.1]?.map (·.id)).getD 0) u.2.1 u.2.2 k) :
    (scanCoder t cs ss se E).intervalsBytes gs i = (scanCoder t cs ss se E').intervalsBytes gs i := by
  induction gs generalizing i with
  | nil => rfl
  | cons g gs ih =>
    have h1 := unitsBits_same t cs ss se g (h g (List.mem_cons_self ..)) fun _ => 0
    cases gs with
    | nil => unfold intervalsBytes; rw [h1]
    | cons g' gs =>
      unfold intervalsBytes
      rw [h1, ih _ fun g hg => h g (List.mem_cons_of_mem _ hg)]

end Coder

/-- Two decoded files have the same coefficients: in all components, in all blocks of all MCUs. -/
def Spec.SameCoefs (f : Frame) (d d' : Dec) : Prop :=
  ∀ c fc, f.comps[c]? = some fc → ∀ y x k, y < f.mcusHigh * fc.v → x < f.mcusWide * fc.h → k < 64 → d.coefs c y x k = d'.coefs c y x k

theorem lt_of_div {a b k : Nat} (hk : 1 ≤ k) (h : a / k < b) : a < b * k := by
  have h1 := Nat.div_add_mod a k
  have h2 := Nat.mod_lt a (show 0 < k by omega)
  have h3 : k * (a / k + 1) ≤ k * b := Nat.mul_le_mul_left k h
  rw [Nat.mul_add, Nat.mul_one] at h3
  rw [Nat.mul_comm b k]
  omega

/-- All units of all scans are in the area of the MCUs. -/
theorem unit_range {cs : List Component} {mh mv : Nat} (hg : Grid cs mh mv) (m : Mode) (w h : UInt16) (hone : cs.length = 1 → mh = 1 ∧ mv = 1)
    {sd : ScanDesc} (hsd : sd ∈ m.scans cs) {u : DataUnit} (hu : u ∈ (sd.mcus (mkFrame m.isProg w h cs)).flatten) :
    ∃ j c, cs[j]? = some c ∧ (sd.cs[u.1]?.map (·.id)).getD 0 = j ∧ u.2.1 < (mkFrame m.isProg w h cs).mcusHigh * c.verticalSamplingFactor ∧
      u.2.2 < (mkFrame m.isProg w h cs).mcusWide * c.horizontalSamplingFactor := by
  have hhigh : (mkFrame m.isProg w h cs).mcusHigh = _root_.Spec.ceilDiv h.toNat (8 * mv) := by rw [Frame.mcusHigh, frame_vmax hg]; rfl
  have hwide : (mkFrame m.isProg w h cs).mcusWide = _root_.Spec.ceilDiv w.toNat (8 * mh) := by rw [Frame.mcusWide, frame_hmax hg]; rfl
  rw [hhigh, hwide]
  have single : ∀ c ∈ cs, sd.cs = [c] → ∃ j c, cs[j]? = some c ∧ (sd.cs[u.1]?.map (·.id)).getD 0 = j ∧
      u.2.1 < _root_.Spec.ceilDiv h.toNat (8 * mv) * c.verticalSamplingFactor ∧ u.2.2 < _root_.Spec.ceilDiv w.toNat (8 * mh) * c.horizontalSamplingFactor := by
    intro c hc hcs
    rw [ScanDesc.mcus, hcs, List.map_singleton, layout_single hg m.isProg w h hc, List.mem_flatten] at hu
    obtain ⟨mcu, h1, h2⟩ := hu
    obtain ⟨p, hp, rfl⟩ := List.mem_map.mp h1
    rw [unit1, List.mem_singleton] at h2
    subst h2
    obtain ⟨hy, hx⟩ := mem_raster.mp hp
    obtain ⟨j, hj, rfl⟩ := List.mem_iff_getElem.mp hc
    have hj' : cs[j]? = some cs[j] := List.getElem?_eq_getElem hj
    refine ⟨j, cs[j], hj', ?_, lt_of_div (by have := hg.ok.v _ hc; omega) (inside_of_lt hg.mv (hg.v _ hc) hy),
      lt_of_div (by have := hg.ok.h _ hc; omega) (inside_of_lt hg.mh (hg.h _ hc) hx)⟩
    rw [hcs]
    exact hg.ok.ids j _ hj'
  have inter : sd.cs = cs → ∃ j c, cs[j]? = some c ∧ (sd.cs[u.1]?.map (·.id)).getD 0 = j ∧
      u.2.1 < _root_.Spec.ceilDiv h.toNat (8 * mv) * c.verticalSamplingFactor ∧ u.2.2 < _root_.Spec.ceilDiv w.toNat (8 * mh) * c.horizontalSamplingFactor := by
    intro hcs
    rw [ScanDesc.mcus, hcs, layout_all hg m.isProg w h hone, List.mem_flatten] at hu
    obtain ⟨mcu, h1, h2⟩ := hu
    obtain ⟨p, hp, rfl⟩ := List.mem_map.mp h1
    obtain ⟨hy, hx⟩ := mem_raster.mp hp
    simp only [mcuUnits, List.mem_flatMap, List.mem_singleton, List.mem_range] at h2
    obtain ⟨⟨c, j⟩, hcj, v, hv, k, hk, rfl⟩ := h2
    have hj : cs[j]? = some c := List.mem_zipIdx_iff_getElem?.mp hcj
    refine ⟨j, c, hj, ?_, ?_, ?_⟩
    · rw [hcs]
      dsimp only
      rw [hj]
      exact hg.ok.ids j c hj
    · dsimp only at hv ⊢
      have := Nat.mul_le_mul_right c.verticalSamplingFactor (show p.1 + 1 ≤ _ from hy)
      rw [Nat.add_mul, Nat.one_mul] at this
      omega
    · dsimp only at hk ⊢
      have := Nat.mul_le_mul_right c.horizontalSamplingFactor (show p.2 + 1 ≤ _ from hx)
      rw [Nat.add_mul, Nat.one_mul] at this
      omega
  cases m with
  | interleaved => exact inter (by rw [List.mem_singleton.mp hsd])
  | sequential =>
    obtain ⟨c, hc, rfl⟩ := List.mem_map.mp hsd
    exact single c hc rfl
  | progressive n =>
    rcases List.mem_append.mp hsd with h1 | h1
    · obtain ⟨c, hc, rfl⟩ := List.mem_map.mp h1
      exact single c hc rfl
    · obtain ⟨b, -, hb⟩ := List.mem_flatMap.mp h1
      obtain ⟨c, hc, rfl⟩ := List.mem_map.mp hb
      exact single c hc rfl

/-- The bytes of a file depend only on the coefficients a decoder finds in it. -/
theorem fileBytes_same {den : Density} {ct : JpegColorType} {apps : List (UInt8 × Bytes)} {m : Mode} {w h : UInt16} {cs : List Component} {s0 s1 : List Nat}
    {t : HuffPair × HuffPair} {ri : Option UInt16} {E E' : Coefs} {mh mv : Nat} (hg : Grid cs mh mv) (hone : cs.length = 1 → mh = 1 ∧ mv = 1)
    (hm : m.Ok false cs)
    (hE : Spec.SameCoefs (mkFrame m.isProg w h cs) (fileDec den ct apps m w h cs s0 s1 t ri E) (fileDec den ct apps m w h cs s0 s1 t ri E')) :
    fileBytes den ct apps m w h cs s0 s1 t ri E = fileBytes den ct apps m w h cs s0 s1 t ri E' := by
  have hscan : ((m.scans cs).map fun sd => sd.bytes (mkFrame m.isProg w h cs) t E ((ri.map UInt16.toNat).getD 0)) =
      (m.scans cs).map fun sd => sd.bytes (mkFrame m.isProg w h cs) t E' ((ri.map UInt16.toNat).getD 0) := by
    refine List.map_congr_left fun sd hsd => ?_
    unfold ScanDesc.bytes scanPart Coder.scanBytes
    congr 1
    refine Coder.intervalsBytes_same t sd.cs sd.ss sd.se _ _ fun g hg' u hu k h1 h2 => ?_
    obtain ⟨g0, hg0, rfl⟩ := List.mem_map.mp hg'
    have humem : u ∈ (sd.mcus (mkFrame m.isProg w h cs)).flatten := by
      rw [← intervals_flatten ((ri.map UInt16.toNat).getD 0) (sd.mcus (mkFrame m.isProg w h cs))]
      obtain ⟨mcu, hm1, hm2⟩ := List.mem_flatten.mp hu
      exact List.mem_flatten.mpr ⟨mcu, List.mem_flatten.mpr ⟨g0, hg0, hm1⟩, hm2⟩
    have hmem : ∀ E0 : Coefs, (((sd.cs[u.1]?.map (·.id)).getD 0), u.2.1, u.2.2) ∈ (sd.mcus (mkFrame m.isProg w h cs)).flatten.map (sd.coder t E0).addr :=
      fun E0 => List.mem_map.mpr ⟨u, humem, rfl⟩
    have e1 := coefsAfter_mem (m.scans cs) (fun _ _ _ _ => 0) (Or.inl ⟨sd, hsd, hmem E, h1, h2⟩)
    have e2 := coefsAfter_mem (m.scans cs) (fun _ _ _ _ => 0) (Or.inl ⟨sd, hsd, hmem E', h1, h2⟩)
    rw [← e1, ← e2]
    obtain ⟨j, c, hj, hid, hy, hx⟩ := unit_range hg m w h hone hsd humem
    have hse := scans_se hg.ok hm sd hsd
    rw [hid]
    exact hE j c.frame (by rw [mkFrame, List.getElem?_map, hj]; rfl) _ _ k hy hx (by omega)
  unfold fileBytes
  rw [hscan]

/-- The same for the blocks, from which optimised tables are computed. -/
theorem blocks_same {e : Encoder} (hwf : e.Wf) {F F' : List Int → List Int} {image image' : ImageBuffer} {P P' : Nat → Nat → Nat → UInt8} {t t' : HuffPair × HuffPair}
    (hct : image'.colorType = image.colorType) (hw : image'.width = image.width) (hh : image'.height = image.height)
    (hE : Spec.SameCoefs (mkFrame e.mode.isProg image.width image.height (initComponents e.samplingFactor image.colorType))
      (e.decoded F image P t) (e.decoded F' image' P' t')) : e.blocks F image P = e.blocks F' image' P' := by
  obtain ⟨hg, -⟩ := initComponents_grid e.samplingFactor image.colorType
  have hdec : ∀ (F : List Int → List Int) (im : ImageBuffer) (P : Nat → Nat → Nat → UInt8) (t : HuffPair × HuffPair), im.colorType = image.colorType → im.width = image.width → im.height = image.height →
      ∀ i c, (initComponents e.samplingFactor image.colorType)[i]? = some c → ∀ y x k,
        y < nblk image.height.toNat ((maxSamplingSize (initComponents e.samplingFactor image.colorType)).2 / c.verticalSamplingFactor) →
        x < nblk image.width.toNat ((maxSamplingSize (initComponents e.samplingFactor image.colorType)).1 / c.horizontalSamplingFactor) → k < 64 →
        (e.decoded F im P t).coefs i y x k = e.coefs F im P i y x k := by
    intro F im P t h1 h2 h3 i c hc y x k hy hx hk
    have hcm := List.mem_of_getElem? hc
    have hid := hg.ok.ids i c hc
    rw [← blocksHigh_eq hg e.mode.isProg image.width image.height hcm] at hy
    rw [← blocksWide_eq hg e.mode.isProg image.width image.height hcm] at hx
    have := fileDec_coefs im.colorType e.appSegments (den := e.density) (hwf.mode_ok false (by simp) _) image.width image.height hg
      (init_one e.samplingFactor image.colorType) e.steps0 e.steps1 t e.restartInterval (e.coefs F im P) hcm hy hx hk
    rw [hid] at this
    rw [← this]
    unfold Encoder.decoded
    rw [h1, h2, h3]
  unfold Encoder.blocks allBlocks
  rw [hct, hw, hh]
  refine List.map_congr_left fun ci hci => List.map_congr_left fun p hp => ?_
  obtain ⟨c, i⟩ := ci
  have hc : (initComponents e.samplingFactor image.colorType)[i]? = some c := List.mem_zipIdx_iff_getElem?.mp hci
  obtain ⟨hy, hx⟩ := mem_raster.mp hp
  refine List.ext_getElem (by rw [blockAt_length, blockAt_length]) fun k h1 h2 => ?_
  have hk : k < 64 := by rw [blockAt_length] at h1; exact h1
  have e1 := hdec F image P t rfl rfl rfl i c hc p.1 p.2 k hy hx hk
  have e2 := hdec F' image' P' t' hct hw hh i c hc p.1 p.2 k hy hx hk
  have hcm := List.mem_of_getElem? hc
  have hin := hE i c.frame (by rw [mkFrame, List.getElem?_map, hc]; rfl) p.1 p.2 k
    (by
      rw [Frame.mcusHigh, frame_vmax hg]
      exact lt_of_div (hg.ok.v _ hcm).1 (inside_of_lt hg.mv (hg.v _ hcm) hy))
    (by
      rw [Frame.mcusWide, frame_hmax hg]
      exact lt_of_div (hg.ok.h _ hcm).1 (inside_of_lt hg.mh (hg.h _ hcm) hx)) hk
  have e3 := (e1.symm.trans hin).trans e2
  simp only [Encoder.coefs, coefsOf, hct, hw, hh, hc] at e3
  rw [List.getD_eq_getElem?_getD, List.getD_eq_getElem?_getD, List.getElem?_eq_getElem h1, List.getElem?_eq_getElem h2] at e3
  exact e3

/-- C74: two images of the same size, encoded with the same settings, give the same file, byte by byte, if the files have the same quantised coefficients:
everything the encoder adds to the coefficients is determined by the settings and the coefficients (also optimised Huffman tables), whatever the word size, the
build profile, and the implementation of the transform. -/
theorem C74_same_coefficients_same_file {pf pf' : Platform} (hpf : pf.Valid) (hpf' : pf'.Valid) {q : UInt8} {calls : List Spec.Call} {e : Encoder}
    (hc : Configured pf q calls e) {simd simd' : Bool} {p p' : Prog (R Unit)} {ct : JpegColorType} {w h : UInt16} {P P' : Nat → Nat → Nat → UInt8}
    (hp : Spec.EncodeCall pf simd e p ct w h P) (hp' : Spec.EncodeCall pf' simd' e p' ct w h P')
    (hs : Spec.Supported pf simd e ct w h P) (hs' : Spec.Supported pf' simd' e ct w h P')
    (h8 : Spec.EightBit e.getQuantizationTables) {strict : Bool} (hst : ScansFine strict e) :
    Spec.Encodes p strict fun bytes d => Spec.Encodes p' strict fun bytes' d' =>
      Spec.SameCoefs (Spec.frameOf e ct w h) d d' → bytes = bytes' := by
  refine encodes_of hpf hc hp hs h8 hst fun image t h1 h2 h3 ht => ?_
  subst h1 h2 h3
  obtain ⟨image', hd', rfl, hct, hw, hh⟩ := hp'.image_of
  rw [hct, hw, hh] at hs'
  obtain ⟨t', ht'⟩ := hs'.works hc.wf
  refine ⟨_, _, encode_run hpf' hd' hc.wf hs' ht', encode_decode hc.wf hs' ht' hst h8, fun hE => ?_⟩
  obtain ⟨hg, -⟩ := initComponents_grid e.samplingFactor image.colorType
  have hfr : Spec.frameOf e image.colorType image.width image.height =
      mkFrame e.mode.isProg image.width image.height (initComponents e.samplingFactor image.colorType) := by
    rw [mkFrame, mode_isProg, comps_expected]; rfl
  rw [hfr] at hE
  have hb := blocks_same hc.wf hct.symm hw.symm hh.symm hE
  have htt : t = t' := by
    have o1 := ht.opt pf hpf
    have o2 := ht'.opt pf hpf
    rw [hb, hct, o2] at o1
    have := Except.ok.inj o1
    exact (congrArg Encoder.huffmanTables this).symm
  subst htt
  unfold Encoder.decoded at hE
  unfold Encoder.file
  rw [← hct, ← hw, ← hh] at hE ⊢
  exact fileBytes_same hg (init_one _ _) (hc.wf.mode_ok false (by simp) _) hE

-- two different images and builds that meet the hypotheses (that files of different images can have the same coefficients: C75)
example : ∃ e p p' P P', Configured ⟨true, 8⟩ 1 [.setProgressive true] e ∧ P 0 0 0 ≠ P' 0 0 0 ∧
    Spec.EncodeCall ⟨true, 8⟩ true e p .luma 9 1 P ∧ Spec.EncodeCall ⟨false, 8⟩ false e p' .luma 9 1 P' ∧
    Spec.Supported ⟨true, 8⟩ true e .luma 9 1 P ∧ Spec.Supported ⟨false, 8⟩ false e .luma 9 1 P' ∧ Spec.EightBit e.getQuantizationTables := by
  obtain ⟨e, h1, h2⟩ := reachable_exists ⟨true, 8⟩ 1 [.setProgressive true] (by decide)
  have hq : e.getQuantizationTables = (.default, .default) := by rw [h2.quant]; rfl
  refine ⟨e, _, _, _, _, h1, ?_, .data [9, 9, 1, 2, 3, 4, 5, 6, 7] 9 1 .luma (by decide) (by unfold Spec.SliceOk; decide),
    .data [8, 9, 1, 2, 3, 4, 5, 6, 7] 9 1 .luma (by decide) (by unfold Spec.SliceOk; decide), ⟨by decide, by decide, Or.inl rfl, Or.inl ?_⟩,
    ⟨by decide, by decide, Or.inl rfl, Or.inl ?_⟩, ?_⟩
  · decide
  · rw [h2.optimized]; rfl
  · rw [h2.optimized]; rfl
  · intro t ht; rw [hq] at ht; rcases ht with h | h <;> cases h

end Jpeg
