import Verif.Proofs.Header
/-! How the decoder reads the marker segments the encoder writes. -/
namespace Jpeg
open Spec

theorem Steps.app {strict : Bool} (d : Dec) {n : Nat} (hn : n ≤ 15) {payload : Bytes} (hl : payload.length ≤ 65533) :
    Steps strict d (Jpeg.seg (u8 (0xE0 + n)) payload) { d.mark (u8 (0xE0 + n)) with apps := d.apps ++ [(n, payload)] } := by
  have e : (u8 (0xE0 + n)).toNat = 0xE0 + n := u8_toNat (by omega)
  have hne : ∀ k : UInt8, k.toNat < 0xE0 → u8 (0xE0 + n) ≠ k := by
    intro k hk h
    have := congrArg UInt8.toNat h
    omega
  refine Steps.seg (hne 0 (by decide)) (hne 0xD9 (by decide)) (hne 0xDA (by decide)) (by omega) ?_
  unfold applySegment
  rw [if_pos]
  · rw [e, show 0xE0 + n - 0xE0 = n by omega]; rfl
  · constructor
    · rw [UInt8.le_iff_toNat_le, e]; show 0xE0 ≤ 0xE0 + n; omega
    · rw [UInt8.le_iff_toNat_le, e]; show 0xE0 + n ≤ 0xEF; omega

theorem Steps.dqt {strict : Bool} (d : Dec) {dest : Nat} (hd : dest < 4) {steps : List Nat} (hl : steps.length = 64)
    (hs : ∀ v ∈ steps, 1 ≤ v ∧ v ≤ 255) :
    Steps strict d (Jpeg.seg 0xDB (dqtPayload dest steps))
      { d.mark 0xDB with qts := upd d.qts dest (some (ZIGZAG.map fun z => steps.getD z 1)) } := by
  refine Steps.seg (by decide) (by decide) (by decide) (by simp [dqtPayload, ZIGZAG]) ?_
  have hz : ∀ z ∈ ZIGZAG, 1 ≤ steps.getD z 1 ∧ steps.getD z 1 ≤ 255 := by
    intro z hz
    have h64 := ZIGZAG_lt z hz
    have : steps.getD z 1 = steps[z] := by simp [List.getD, show z < steps.length by omega]
    rw [this]
    exact hs _ (List.getElem_mem _)
  have hzl : ZIGZAG.length = 64 := rfl
  generalize hQ : ZIGZAG.map (fun z => u8 (steps.getD z 1)) = Q
  have hQl : Q.length = 64 := by rw [← hQ, List.length_map, hzl]
  have hQ1 : Q.map UInt8.toNat = ZIGZAG.map fun z => steps.getD z 1 := by
    rw [← hQ, List.map_map]
    apply List.map_congr_left
    intro z hzm
    have := hz z hzm
    exact u8_toNat (by omega)
  have hQ0 : ∀ b ∈ Q, b ≠ 0 := by
    intro b hb h0
    rw [← hQ, List.mem_map] at hb
    obtain ⟨z, hzm, rfl⟩ := hb
    have h1 := hz z hzm
    have := congrArg UInt8.toNat h0
    rw [u8_toNat (by omega), show (0 : UInt8).toNat = 0 from rfl] at this
    omega
  have hp : dqtPayload dest steps = u8 dest :: Q := by rw [dqtPayload, hQ]
  have hdt : (u8 dest).toNat = dest := u8_toNat (by omega)
  have hparse : ∀ q, parseDqt (dqtPayload dest steps).length (dqtPayload dest steps) q =
      some (upd q dest (some (ZIGZAG.map fun z => steps.getD z 1))) := by
    intro q
    rw [hp, List.length_cons, hQl]
    have ht : Q.take 64 = Q := List.take_of_length_le (by omega)
    have hdr : Q.drop 64 = [] := List.drop_of_length_le (by omega)
    rw [parseDqt.eq_3, if_pos]
    · rw [ht, hdr, hQ1, hdt, parseDqt.eq_1]
    · refine ⟨by omega, by omega, ?_⟩
      rw [ht, List.all_eq_true]
      intro b hb
      simp [hQ0 b hb]
  show (if (0xE0 : UInt8) ≤ 0xDB ∧ _ then _ else _) = _
  rw [if_neg (by decide), if_neg (by decide), if_pos rfl, hparse]
  rfl

/-- What is needed of a table to be written to the file. -/
structure TableFile (t : HuffmanTable) : Prop where
  ok : TableOk t
  counts : ∀ n ∈ t.length, n < 256

theorem wf_values_le {t : HuffTable} (h : t.WellFormed) : t.values.length ≤ 256 := by
  have h1 := h.values_nodup
  have h2 := h.values_byte
  have : t.values.Subset (List.range 256) := fun v hv => List.mem_range.mpr (h2 v hv)
  have := (List.subperm_of_subset h1 this).length_le
  simpa using this

theorem Steps.dht {strict : Bool} (d : Dec) {cls dest : Nat} (hc : cls < 2) (hd : dest < 4) {t : HuffmanTable} (ht : TableFile t) :
    Steps strict d (Jpeg.seg 0xC4 (dhtPayload cls dest t))
      (if cls = 0 then { d.mark 0xC4 with dc := upd d.dc dest (some t.spec) }
        else { d.mark 0xC4 with ac := upd d.ac dest (some t.spec) }) := by
  have wf := ht.ok.wf
  have h16 : t.length.length = 16 := wf.counts_len
  have hvl := wf.values_len
  have hv256 := wf_values_le wf
  simp only at hvl hv256
  refine Steps.seg (by decide) (by decide) (by decide) (by simp [dhtPayload, h16]; omega) ?_
  have hcn : (t.length.map u8).map UInt8.toNat = t.length := by
    rw [List.map_map]
    conv_rhs => rw [← List.map_id t.length]
    apply List.map_congr_left
    intro n hn
    exact u8_toNat (ht.counts n hn)
  have hvn : (t.values.map u8).map UInt8.toNat = t.values := by
    rw [List.map_map]
    conv_rhs => rw [← List.map_id t.values]
    apply List.map_congr_left
    intro n hn
    exact u8_toNat (wf.values_byte n hn)
  have hct : (u8 (16 * cls + dest)).toNat = 16 * cls + dest := u8_toNat (by omega)
  have hparse : ∀ d : Dec, parseDht (dhtPayload cls dest t).length (dhtPayload cls dest t) d =
      some (if cls = 0 then { d with dc := upd d.dc dest (some t.spec) }
        else { d with ac := upd d.ac dest (some t.spec) }) := by
    intro d
    unfold dhtPayload
    have ht16 : (t.length.map u8 ++ t.values.map u8).take 16 = t.length.map u8 := List.take_left' (by simp [h16])
    have hd16 : (t.length.map u8 ++ t.values.map u8).drop 16 = t.values.map u8 := List.drop_left' (by simp [h16])
    have htv : (t.values.map u8).take t.length.sum = t.values.map u8 := List.take_of_length_le (by simp [hvl])
    have hdv : (t.length.map u8 ++ t.values.map u8).drop (16 + t.length.sum) = [] :=
      List.drop_of_length_le (by simp [h16, hvl])
    rw [List.length_cons, parseDht.eq_3]
    simp only [ht16, hcn, hd16, htv, hvn, hct, hdv]
    rw [if_pos ⟨wf, by omega, by omega⟩, show (16 * cls + dest) / 16 = cls by omega,
      show (16 * cls + dest) % 16 = dest by omega]
    split
    · rw [parseDht.eq_1]; rfl
    · rw [parseDht.eq_1]; rfl
  show (if (0xE0 : UInt8) ≤ 0xC4 ∧ _ then _ else _) = _
  rw [if_neg (by decide), if_neg (by decide), if_neg (by decide), if_pos rfl, hparse]
  rfl

theorem Steps.dri {strict : Bool} (d : Dec) {n : Nat} (hn : n < 65536) :
    Steps strict d (Jpeg.seg 0xDD [u8 (n / 256), u8 n]) { d.mark 0xDD with ri := n } := by
  refine Steps.seg (by decide) (by decide) (by decide) (by simp) ?_
  show (if (0xE0 : UInt8) ≤ 0xDD ∧ _ then _ else _) = _
  rw [if_neg (by decide), if_neg (by decide), if_neg (by decide), if_neg (by decide), if_pos rfl]
  change some { d.mark 0xDD with ri := 256 * (u8 (n / 256)).toNat + (u8 n).toNat } = _
  rw [seg_len hn]

/-- The decoder's view of a component. -/
def Component.frame (c : Component) : FrameComp :=
  ⟨c.id, c.horizontalSamplingFactor, c.verticalSamplingFactor, c.quantizationTable⟩

/-- Components as the encoder makes them. -/
structure CompsOk (cs : List Component) : Prop where
  one : 1 ≤ cs.length
  four : cs.length ≤ 4
  ids : ∀ (i : Nat) (c : Component), cs[i]? = some c → c.id = i
  h : ∀ c ∈ cs, 1 ≤ c.horizontalSamplingFactor ∧ c.horizontalSamplingFactor ≤ 4
  v : ∀ c ∈ cs, 1 ≤ c.verticalSamplingFactor ∧ c.verticalSamplingFactor ≤ 4
  q : ∀ c ∈ cs, c.quantizationTable < 2
  dc : ∀ c ∈ cs, c.dcHuffmanTable < 2
  ac : ∀ c ∈ cs, c.acHuffmanTable < 2

theorem parseFrameComps_ok (cs : List Component) (h : ∀ c ∈ cs, c.id < 256 ∧ (1 ≤ c.horizontalSamplingFactor ∧
    c.horizontalSamplingFactor ≤ 4) ∧ (1 ≤ c.verticalSamplingFactor ∧ c.verticalSamplingFactor ≤ 4) ∧ c.quantizationTable < 4) :
    parseFrameComps cs.length (cs.map frameCompBytes).flatten = some (cs.map Component.frame) := by
  induction cs with
  | nil => rfl
  | cons c cs ih =>
    obtain ⟨h1, h2, h3, h4⟩ := h c (by simp)
    have e1 : (u8 c.id).toNat = c.id := u8_toNat h1
    have e2 : (u8 (16 * c.horizontalSamplingFactor + c.verticalSamplingFactor)).toNat =
      16 * c.horizontalSamplingFactor + c.verticalSamplingFactor := u8_toNat (by omega)
    have e3 : (u8 c.quantizationTable).toNat = c.quantizationTable := u8_toNat (by omega)
    show (parseFrameComps cs.length (cs.map frameCompBytes).flatten).bind _ = _
    rw [ih fun x hx => h x (by simp [hx])]
    simp only [Option.bind_some, e1, e2, e3]
    rw [show (16 * c.horizontalSamplingFactor + c.verticalSamplingFactor) / 16 = c.horizontalSamplingFactor by omega,
      show (16 * c.horizontalSamplingFactor + c.verticalSamplingFactor) % 16 = c.verticalSamplingFactor by omega,
      if_pos ⟨h2.1, h2.2, h3.1, h3.2, h4⟩]
    rfl

theorem CompsOk.map_id {cs : List Component} (h : CompsOk cs) : cs.map (·.id) = List.range cs.length := by
  apply List.ext_getElem
  · simp
  · intro i h1 h2
    simp only [List.getElem_map, List.getElem_range]
    simp only [List.length_map] at h1
    exact h.ids i _ (List.getElem?_eq_getElem h1)

theorem CompsOk.id_lt {cs : List Component} (h : CompsOk cs) {c : Component} (hc : c ∈ cs) : c.id < cs.length := by
  have : c.id ∈ cs.map (·.id) := List.mem_map_of_mem hc
  rw [h.map_id] at this
  exact List.mem_range.mp this

/-- The frame header the encoder writes. -/
def mkFrame (prog : Bool) (w h : UInt16) (cs : List Component) : Frame := ⟨prog, h.toNat, w.toNat, cs.map Component.frame⟩

theorem Steps.sof {strict : Bool} (d : Dec) (hd : d.frame = none) (prog : Bool) {w h : UInt16} (hw : w ≠ 0) (hh : h ≠ 0)
    {cs : List Component} (hc : CompsOk cs) :
    Steps strict d (Jpeg.seg (if prog then 0xC2 else 0xC0) (sofPayload w h cs))
      { d.mark (if prog then 0xC2 else 0xC0) with frame := some (mkFrame prog w h cs) } := by
  have h4 := hc.four
  have h1 := hc.one
  have hlen : (sofPayload w h cs).length + 2 = 8 + 3 * cs.length := by
    rw [sofPayload, List.length_append, flatten_const_length _ _ 3 (fun _ => rfl)]
    simp; omega
  have hw' : w.toNat ≠ 0 := fun h0 => hw (UInt16.toNat_inj.mp (by simpa using h0))
  have hh' : h.toNat ≠ 0 := fun h0 => hh (UInt16.toNat_inj.mp (by simpa using h0))
  have hwl : w.toNat < 65536 := w.toNat_lt
  have hhl : h.toNat < 65536 := h.toNat_lt
  have hparse : parseSof prog (sofPayload w h cs) = some (mkFrame prog w h cs) := by
    have hn : (u8 cs.length).toNat = cs.length := u8_toNat (by omega)
    change (parseFrameComps (u8 cs.length).toNat (cs.map frameCompBytes).flatten).bind _ = _
    rw [hn, parseFrameComps_ok cs fun c hcm => ⟨by have := hc.id_lt hcm; omega, hc.h c hcm, hc.v c hcm,
      by have := hc.q c hcm; omega⟩]
    simp only [Option.bind_some]
    rw [seg_len hwl, seg_len hhl, if_pos]
    · rfl
    · refine ⟨by decide, hh', hw', by simpa using h1, by simpa using h4, ?_⟩
      rw [List.map_map, show (FrameComp.id ∘ Component.frame) = (·.id) from rfl, hc.map_id]
      exact List.nodup_range
  have hdm : ∀ m, (d.mark m).frame = none := fun _ => hd
  cases prog
  · simp only [Bool.false_eq_true, if_false]
    refine Steps.seg (by decide) (by decide) (by decide) (by omega) ?_
    show (if (0xE0 : UInt8) ≤ 0xC0 ∧ _ then _ else _) = _
    rw [if_neg (by decide), if_neg (by decide), if_neg (by decide), if_neg (by decide), if_neg (by decide), if_pos (Or.inl rfl), hdm]
    simp only [show (decide ((0xC0 : UInt8) = 0xC2)) = false from rfl, hparse, Option.map_some]
  · simp only [if_true]
    refine Steps.seg (by decide) (by decide) (by decide) (by omega) ?_
    show (if (0xE0 : UInt8) ≤ 0xC2 ∧ _ then _ else _) = _
    rw [if_neg (by decide), if_neg (by decide), if_neg (by decide), if_neg (by decide), if_neg (by decide), if_pos (Or.inr rfl), hdm]
    simp only [decide_true, hparse, Option.map_some]

/-! ### Scan headers -/

/-- The decoder's view of a component in a scan. -/
def Component.scanComp (c : Component) : ScanComp := ⟨c.id, c.dcHuffmanTable, c.acHuffmanTable⟩

theorem findIdx_comp {cs : List Component} (h : CompsOk cs) {i : Nat} (hi : i < cs.length) :
    (cs.map Component.frame).findIdx (fun c => c.id == i) = i := by
  have hg : ∀ j (hj : j < cs.length), cs[j].id = j := fun j hj => h.ids j _ (List.getElem?_eq_getElem hj)
  rw [List.findIdx_eq (by simpa using hi)]
  constructor
  · simp [Component.frame, hg i hi]
  · intro j hj
    have := hg j (by omega)
    simp [Component.frame, this]
    omega

theorem parseScanComps_ok {f : Frame} {all : List Component} (hall : CompsOk all) (hf : f.comps = all.map Component.frame)
    (cs : List Component) (hcs : ∀ c ∈ cs, c ∈ all) (rest : Bytes) :
    parseScanComps f cs.length ((cs.map scanCompBytes).flatten ++ rest) = some (cs.map Component.scanComp, rest) := by
  induction cs with
  | nil => rfl
  | cons c cs ih =>
    have hm := hcs c (by simp)
    have hid := hall.id_lt hm
    have h4 := hall.four
    have hdc := hall.dc c hm
    have hac := hall.ac c hm
    have e1 : (u8 c.id).toNat = c.id := u8_toNat (by omega)
    have e2 : (u8 (16 * c.dcHuffmanTable + c.acHuffmanTable)).toNat = 16 * c.dcHuffmanTable + c.acHuffmanTable := u8_toNat (by omega)
    show (parseScanComps f cs.length ((cs.map scanCompBytes).flatten ++ rest)).bind _ = _
    rw [ih fun x hx => hcs x (by simp [hx])]
    simp only [Option.bind_some, e1, e2, hf, findIdx_comp hall hid, List.length_map]
    rw [if_pos hid, show (16 * c.dcHuffmanTable + c.acHuffmanTable) / 16 = c.dcHuffmanTable by omega,
      show (16 * c.dcHuffmanTable + c.acHuffmanTable) % 16 = c.acHuffmanTable by omega]
    rfl

theorem parseScan_ok {f : Frame} {all : List Component} (hall : CompsOk all) (hf : f.comps = all.map Component.frame)
    (cs : List Component) (hcs : ∀ c ∈ cs, c ∈ all) (hl : cs.length ≤ 4) {ss se : Nat} (h1 : ss < 256) (h2 : se < 256) :
    parseScan f (sosPayload cs ss se) = some ⟨cs.map Component.scanComp, ss, se⟩ := by
  have hn : (u8 cs.length).toNat = cs.length := u8_toNat (by omega)
  unfold sosPayload parseScan
  dsimp only
  rw [hn, parseScanComps_ok hall hf cs hcs]
  dsimp only
  rw [if_pos rfl, u8_toNat h1, u8_toNat h2]

theorem scanFrameComps_ok {f : Frame} {all : List Component} (hall : CompsOk all) (hf : f.comps = all.map Component.frame)
    (cs : List Component) (hcs : ∀ c ∈ cs, c ∈ all) (ss se : Nat) :
    scanFrameComps f ⟨cs.map Component.scanComp, ss, se⟩ = cs.map Component.frame := by
  unfold scanFrameComps
  dsimp only
  rw [List.filterMap_map]
  induction cs with
  | nil => rfl
  | cons c cs ih =>
    have hm := hcs c (by simp)
    obtain ⟨i, hi, rfl⟩ := List.getElem_of_mem hm
    have e : all[i].id = i := hall.ids i _ (List.getElem?_eq_getElem hi)
    rw [List.filterMap_cons]
    simp only [Function.comp_apply, Component.scanComp, e, hf, List.getElem?_map, List.getElem?_eq_getElem hi, Option.map_some,
      List.map_cons]
    congr 1
    rw [← ih fun x hx => hcs x (by simp [hx]), hf]
    simp only [List.getElem?_map]

end Jpeg
