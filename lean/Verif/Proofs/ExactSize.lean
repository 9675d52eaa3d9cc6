import Verif.Proofs.Content
import Verif.Proofs.Optimal
import Verif.Proofs.AcCounted
import Verif.Spec.ExactSize
/-! The exact size of entropy coded data. -/
namespace Jpeg
open _root_.Spec

theorem packBits_exact (b : Bits) : (packBits b).length = _root_.Spec.ceilDiv b.length 8 := by
  have h1 := packBits_len b
  obtain ⟨pad, hp, hb⟩ := bytesToBits_packBits b
  have hl := congrArg List.length hb
  simp only [bytesToBits_length, List.length_append, List.length_replicate] at hl
  unfold _root_.Spec.ceilDiv
  omega

theorem stuff_exact (l : List UInt8) : (stuff l).length = l.length + (stuff l).count 0xFF ∧ (stuff l).count 0xFF = l.count 0xFF := by
  induction l with
  | nil => exact ⟨rfl, rfl⟩
  | cons x xs ih =>
    rw [show x :: xs = [x] ++ xs from rfl, stuff_append, List.length_append, List.count_append, List.length_append, List.count_append]
    by_cases hx : x = 0xFF
    · subst hx
      have : stuff [0xFF] = [0xFF, 0] := rfl
      rw [this]
      simp only [List.length_cons, List.length_nil, List.count_cons_self, List.count_nil]
      have : List.count (255 : UInt8) [0] = 0 := by decide
      omega
    · have : stuff [x] = [x] := by simp [stuff, hx]
      have h0 : List.count (255 : UInt8) [x] = 0 := List.count_eq_zero.mpr (by simp [Ne.symm hx])
      have h1 : [x].length = 1 := rfl
      rw [this]
      omega

theorem assignCodes_fst (ns : List Nat) (len first : Nat) : (assignCodes ns len first).map Prod.fst = expandSizes ns len := by
  induction ns generalizing len first with
  | nil => rfl
  | cons n ns ih =>
    rw [assignCodes, expandSizes, List.map_append, ih, List.map_map]
    congr 1
    refine List.eq_replicate_iff.mpr ⟨by simp, fun b hb => ?_⟩
    obtain ⟨i, -, rfl⟩ := List.mem_map.mp hb
    rfl

theorem lengthOf_code {t : HuffmanTable} (h : TableOk t) {v : Nat} (hv : v ∈ t.values) : (t.codeBits v).length = t.spec.lengthOf v := by
  obtain ⟨j, hj⟩ := List.mem_iff_getElem?.mp hv
  have h1 := map_lengthOf h.wf
  have h2 : (t.values.map t.spec.lengthOf)[j]? = some (t.spec.lengthOf v) := by rw [List.getElem?_map, hj]; rfl
  have h3 : t.values.map t.spec.lengthOf = expandSizes t.length 1 := h1
  rw [h3] at h2
  unfold HuffmanTable.codeBits
  rw [h.code j v hj]
  have h4 : (assignCodes t.length 1 0).map Prod.fst = expandSizes t.length 1 := assignCodes_fst _ _ _
  rw [← h4, List.getElem?_map] at h2
  cases ha : (assignCodes t.length 1 0)[j]? with
  | none => rw [ha] at h2; cases h2
  | some c =>
    rw [ha] at h2
    simp only [toBits_len]
    exact Option.some.inj h2

/-- Bits of symbols with the table of an encoder. -/
theorem toksBits_exact {t : HuffmanTable} (h : TableOk t) (l : List Tok) (hl : HasSyms t l) (hs : ∀ k ∈ l, k.size = k.sym % 16) :
    (toksBits t l).length = symbolBits (some t.spec) (l.map Tok.sym) := by
  induction l with
  | nil => rfl
  | cons k l ih =>
    have ih := ih (fun k hk => hl k (by simp [hk])) fun k hk => hs k (by simp [hk])
    rw [toksBits_cons, List.length_append, ih, Tok.bits, List.length_append, toBits_len, lengthOf_code h (hl k (by simp)), hs k (by simp)]
    rfl

theorem acToks_size (l : List Int) (hl : ∀ v ∈ l, v.natAbs ≤ 1023) (z : Nat) : ∀ k ∈ acToks l z, k.size = k.sym % 16 := by
  induction l generalizing z with
  | nil =>
    intro k hk
    unfold acToks at hk
    split at hk
    · rw [List.mem_singleton] at hk; subst hk; rfl
    · simp at hk
  | cons v vs ih =>
    intro k hk
    have ih := ih fun v hv => hl v (by simp [hv])
    unfold acToks at hk
    split at hk
    · exact ih _ k hk
    · rcases List.mem_append.mp hk with hk | hk
      · rw [List.eq_of_mem_replicate hk]; rfl
      · rcases List.mem_cons.mp hk with rfl | hk
        · have h5 : catOf v ≤ 10 := catOf_le (by have := hl v (by simp); omega)
          simp only [coefTok]
          omega
        · exact ih _ k hk

namespace Coder
variable (C : Coder)

/-- The bits of component `j` of a scan. -/
def compBits (us : List DataUnit) (p : Int) (j : Nat) : Nat :=
  (if C.ss = 0 then symbolBits (some (C.dcT j).spec) (_root_.Spec.dcSymbols ((us.filter fun u => u.1 = j).map C.dc) p) else 0) +
    symbolBits (some (C.acT j).spec) ((us.filter fun u => u.1 = j).flatMap fun u => _root_.Spec.acSymbols (C.band u) 0)

theorem unitBits_exact {u : DataUnit} {p : Nat → Int} (h : C.UnitOk u p) : (C.unitBits u p).length =
    (if C.ss = 0 then symbolBits (some (C.dcT u.1).spec) [category (C.dc u - p u.1)] else 0) + symbolBits (some (C.acT u.1).spec) (_root_.Spec.acSymbols (C.band u) 0) := by
  unfold unitBits
  rw [List.length_append]
  congr 1
  · by_cases hs : C.ss = 0
    · rw [if_pos hs, if_pos hs]
      have := toksBits_exact (h.dcOk hs) [dcTok (C.dc u - p u.1)] (by intro k hk; rw [List.mem_singleton] at hk; subst hk; exact h.diffSym hs) (by
        intro k hk
        rw [List.mem_singleton] at hk
        subst hk
        have h3 : catOf (C.dc u - p u.1) ≤ 11 := catOf_le (by have := h.diff hs; omega)
        simp only [dcTok]
        omega)
      rw [toksBits_cons, toksBits_nil, List.append_nil] at this
      rw [this, ← catOf_eq]
      rfl
    · rw [if_neg hs, if_neg hs]; rfl
  · by_cases hn : C.n = 0
    · have hb : C.band u = [] := List.eq_nil_of_length_eq_zero (by simp [band, hn])
      rw [hb]
      rfl
    · rw [toksBits_exact (h.acOk hn) _ h.bandSyms (acToks_size _ h.bandLe 0), acToks_symbols]

theorem symbolBits_append (t : Option HuffTable) (a b : List Nat) : symbolBits t (a ++ b) = symbolBits t a + symbolBits t b := by
  cases t with
  | none => rfl
  | some t => simp only [symbolBits, List.map_append, List.sum_append]

theorem unitsBits_exact (n : Nat) (us : List DataUnit) (p : Nat → Int) (h : C.UnitsOk us p) (hn : ∀ u ∈ us, u.1 < n) :
    (C.unitsBits us p).length = ∑ j ∈ Finset.range n, C.compBits us (p j) j := by
  induction us generalizing p with
  | nil =>
    symm
    refine Finset.sum_eq_zero fun j _ => ?_
    unfold compBits
    simp only [List.filter_nil, List.map_nil, List.flatMap_nil]
    split <;> rfl
  | cons u us ih =>
    obtain ⟨h1, h2⟩ := h
    have key : ∀ j, C.compBits (u :: us) (p j) j = (if j = u.1 then (C.unitBits u p).length else 0) + C.compBits us (C.nextPreds u p j) j := by
      intro j
      by_cases hj : j = u.1
      · subst hj
        rw [if_pos rfl, C.unitBits_exact h1]
        unfold compBits nextPreds
        rw [List.filter_cons_of_pos (by simp), List.map_cons, List.flatMap_cons, symbolBits_append]
        by_cases hs : C.ss = 0
        · simp only [if_pos hs, upd, if_true]
          rw [_root_.Spec.dcSymbols, show ∀ (x : Nat) (l : List Nat), x :: l = [x] ++ l from fun _ _ => rfl, symbolBits_append]
          omega
        · simp only [if_neg hs]
          omega
      · rw [if_neg hj, Nat.zero_add]
        unfold compBits nextPreds
        rw [List.filter_cons_of_neg (by simpa using Ne.symm hj)]
        by_cases hs : C.ss = 0
        · simp only [if_pos hs, upd, if_neg hj]
        · simp only [if_neg hs]
    rw [unitsBits, List.length_append, ih _ h2 fun u hu => hn u (by simp [hu])]
    simp only [key]
    rw [Finset.sum_add_distrib, Finset.sum_ite_eq', if_pos (Finset.mem_range.mpr (hn u (by simp)))]

/-- The size of restart intervals. -/
theorem intervalsBytes_exact (gs : List (List DataUnit)) (k : Nat) : (C.intervalsBytes gs k).length =
    (gs.map fun g => _root_.Spec.ceilDiv (C.unitsBits g fun _ => 0).length 8).sum + (C.intervalsBytes gs k).count 0xFF + (gs.length - 1) := by
  induction gs generalizing k with
  | nil => rfl
  | cons g gs ih =>
    have h1 := stuff_exact (packBits (C.unitsBits g fun _ => 0))
    rw [packBits_exact] at h1
    cases gs with
    | nil =>
      rw [intervalsBytes]
      simp only [List.map_cons, List.map_nil, List.sum_cons, List.sum_nil, List.length_cons, List.length_nil]
      omega
    | cons g' gs =>
      have h2 := ih (k + 1)
      rw [intervalsBytes]
      have h3 : (rstMarker k).length = 2 := rfl
      have h4 : (rstMarker k).count 0xFF = 1 := by
        unfold rstMarker
        have : u8 (0xD0 + k % 8) ≠ 0xFF := by
          intro h
          have := congrArg UInt8.toNat h
          rw [u8_toNat (by omega)] at this
          have : (0xFF : UInt8).toNat = 255 := rfl
          omega
        rw [List.count_cons_self, List.count_eq_zero.mpr (by simpa using Ne.symm this)]
      simp only [List.length_append, List.count_append, List.map_cons, List.sum_cons, List.length_cons] at h2 ⊢
      omega

end Coder

/-- The data units of a scan are of its components. -/
theorem layout_comp (f : Frame) (l : List FrameComp) : ∀ u ∈ (layout f l).flatten, u.1 < l.length := by
  have hi : ∀ u ∈ (layoutInterleaved f l).flatten, u.1 < l.length := by
    intro u hu
    obtain ⟨g, hg, hu⟩ := List.mem_flatten.mp hu
    obtain ⟨p, -, rfl⟩ := List.mem_map.mp hg
    obtain ⟨cj, hcj, hu⟩ := List.mem_flatMap.mp hu
    obtain ⟨q, -, rfl⟩ := List.mem_map.mp hu
    have := List.mem_zipIdx_iff_getElem?.mp hcj
    exact (List.getElem?_eq_some_iff.mp this).1
  match l, hi with
  | [], hi => exact hi
  | [c], _ =>
    intro u hu
    obtain ⟨g, hg, hu⟩ := List.mem_flatten.mp hu
    obtain ⟨p, -, rfl⟩ := List.mem_map.mp hg
    rw [List.mem_singleton] at hu
    subst hu
    simp
  | a :: b :: l, hi => exact hi

theorem zipIdx_sum_range {α : Type} (l : List α) (g : α × Nat → Nat) : (l.zipIdx.map g).sum = ∑ j ∈ Finset.range l.length, (l[j]?.map fun a => g (a, j)).getD 0 := by
  induction l using List.reverseRecOn with
  | nil => rfl
  | append_singleton l a ih =>
    rw [List.zipIdx_append, List.map_append, List.sum_append, ih, List.length_append, List.length_singleton, Finset.sum_range_succ]
    congr 1
    · refine Finset.sum_congr rfl fun j hj => ?_
      rw [List.getElem?_append_left (Finset.mem_range.mp hj)]
    · simp

/-- The size of a scan in the log of the decoder. -/
theorem log_exact {d : Dec} {f : Frame} {cs : List Component} {t : HuffPair × HuffPair} {ri : Nat} (hr : Ready d f cs t ri) (hok : CompsOk cs) {E : Coefs} (sd : ScanDesc)
    (hsd : ∀ c ∈ sd.cs, c ∈ cs) (hu : ∀ g ∈ intervals ri (sd.mcus f), (sd.coder t E).UnitsOk g.flatten fun _ => 0)
    (hD : ∀ u ∈ (sd.mcus f).flatten, ∀ k, sd.ss ≤ k → k ≤ sd.se →
      d.coefs ((sd.coder t E).comp u.1) u.2.1 u.2.2 k = E ((sd.coder t E).comp u.1) u.2.1 u.2.2 k) :
    (sd.log f t E ri).data.length = dataBytes d f sd.scan ((sd.log f t E ri).data.count 0xFF) := by
  have hfc : scanFrameComps f sd.scan = sd.cs.map Component.frame := scanFrameComps_ok hok hr.comps sd.cs hsd sd.ss sd.se
  unfold dataBytes scanIntervals
  rw [hfc, hr.ri]
  show ((sd.coder t E).scanBytes ri (sd.mcus f)).length = _
  unfold Coder.scanBytes
  rw [Coder.intervalsBytes_exact]
  congr 2
  rw [List.map_map, List.map_map]
  refine congrArg List.sum (List.map_congr_left fun g hg => ?_)
  simp only [Function.comp]
  congr 1
  have hsub : ∀ u ∈ g.flatten, u ∈ (sd.mcus f).flatten := by
    intro u hu
    obtain ⟨x, hx, hu⟩ := List.mem_flatten.mp hu
    have : (intervals ri (sd.mcus f)).flatten = sd.mcus f := intervals_flatten _ _
    exact List.mem_flatten.mpr ⟨x, by rw [← this]; exact List.mem_flatten.mpr ⟨g, hg, hx⟩, hu⟩
  have hlt : ∀ u ∈ g.flatten, u.1 < sd.cs.length := by
    intro u hu
    have := layout_comp f (sd.cs.map Component.frame) u (hsub u hu)
    rwa [List.length_map] at this
  rw [Coder.unitsBits_exact _ sd.cs.length _ _ (hu g hg) hlt]
  unfold intervalBits
  rw [zipIdx_sum_range]
  have hl : sd.scan.comps.length = sd.cs.length := by simp [ScanDesc.scan]
  rw [hl]
  refine Finset.sum_congr rfl fun j hj => ?_
  have hj := Finset.mem_range.mp hj
  have hc : sd.cs[j]? = some sd.cs[j] := List.getElem?_eq_getElem hj
  have hm : sd.cs[j] ∈ cs := hsd _ (List.getElem_mem hj)
  have hcomp : (sd.coder t E).comp j = sd.cs[j].id := by show (sd.cs[j]?.map _).getD 0 = _; rw [hc]; rfl
  have hdct : (sd.coder t E).dcT j = (tabOf t sd.cs[j].dcHuffmanTable).dc := by show (tabOf t ((sd.cs[j]?.map _).getD 0)).dc = _; rw [hc]; rfl
  have hact : (sd.coder t E).acT j = (tabOf t sd.cs[j].acHuffmanTable).ac := by show (tabOf t ((sd.cs[j]?.map _).getD 0)).ac = _; rw [hc]; rfl
  have hsc : sd.scan.comps[j]? = some sd.cs[j].scanComp := by show (sd.cs.map Component.scanComp)[j]? = _; rw [List.getElem?_map, hc]; rfl
  rw [hsc]
  simp only [Option.map_some, Option.getD_some]
  have htd : d.dc sd.cs[j].scanComp.td = some (tabOf t sd.cs[j].dcHuffmanTable).dc.spec := hr.dc _ hm
  have hta : d.ac sd.cs[j].scanComp.ta = some (tabOf t sd.cs[j].acHuffmanTable).ac.spec := hr.ac _ hm
  rw [htd, hta]
  unfold Coder.compBits
  rw [hdct, hact]
  have hss : (sd.coder t E).ss = sd.scan.ss := rfl
  have hse : (sd.coder t E).se = sd.scan.se := rfl
  congr 1
  · rw [hss]
    by_cases hs : sd.scan.ss = 0
    · rw [if_pos hs, if_pos hs]
      congr 2
      refine List.map_congr_left fun u hu => ?_
      obtain ⟨hu, hju⟩ := List.mem_filter.mp hu
      have hju : u.1 = j := by simpa using hju
      have := hD u (hsub u hu) 0 (by show sd.scan.ss ≤ 0; omega) (Nat.zero_le _)
      rw [hju, hcomp] at this
      show E ((sd.coder t E).comp u.1) u.2.1 u.2.2 0 = d.coefs sd.cs[j].id u.2.1 u.2.2 0
      rw [hju, hcomp]
      exact this.symm
    · rw [if_neg hs, if_neg hs]
  · congr 1
    refine List.flatMap_congr fun u hu => ?_
    obtain ⟨hu, hju⟩ := List.mem_filter.mp hu
    have hju : u.1 = j := by simpa using hju
    congr 1
    unfold Coder.band bandOf
    show (List.range (sd.scan.se + 1 - max sd.scan.ss 1)).map _ = _
    refine List.map_congr_left fun i hi => ?_
    have hi := List.mem_range.mp hi
    have := hD u (hsub u hu) (max sd.scan.ss 1 + i) (by show sd.scan.ss ≤ _; omega) (by show _ ≤ sd.scan.se; omega)
    rw [hju, hcomp] at this
    show E ((sd.coder t E).comp u.1) u.2.1 u.2.2 (max sd.scan.ss 1 + i) = d.coefs sd.cs[j].id u.2.1 u.2.2 _
    rw [hju, hcomp]
    exact this.symm

theorem count_dri {den : Density} {ct : JpegColorType} {apps : List (UInt8 × Bytes)} {m : Mode} {w h : UInt16} {cs : List Component}
    {s0 s1 : List Nat} {t : HuffPair × HuffPair} {ri : Option UInt16} {E : Coefs} :
    (fileDec den ct apps m w h cs s0 s1 t ri E).markers.count 0xDD = if ri.isSome then 1 else 0 := by
  have ha : ((fileApps den ct apps).map fun a => 0xE0 + a.1).count 0xDD = 0 := List.count_eq_zero.mpr (by
    intro hm
    obtain ⟨a, -, ha⟩ := List.mem_map.mp hm
    omega)
  have hd : (List.replicate (m.scans cs).length 0xDA).count 0xDD = 0 := List.count_eq_zero.mpr (by
    intro hm
    have := List.eq_of_mem_replicate hm
    omega)
  show ((((fileApps den ct apps).map fun a : Nat × Bytes => 0xE0 + a.1) ++ ([if m.isProg then 0xC2 else 0xC0, 0xDB, 0xDB, 0xC4, 0xC4] ++
    (if cs.length ≥ 3 then [0xC4, 0xC4] else []) ++ (if ri.isSome then [0xDD] else []))) ++ List.replicate (m.scans cs).length 0xDA).count 0xDD = _
  rw [List.count_append, List.count_append, List.count_append, List.count_append, ha, hd]
  have h1 : ([if m.isProg then 0xC2 else 0xC0, 0xDB, 0xDB, 0xC4, 0xC4] : List Nat).count 0xDD = 0 := by cases m.isProg <;> rfl
  have h2 : (if cs.length ≥ 3 then [0xC4, 0xC4] else [] : List Nat).count 0xDD = 0 := by split <;> rfl
  have h3 : (if ri.isSome then [0xDD] else [] : List Nat).count 0xDD = if ri.isSome then 1 else 0 := by split <;> rfl
  omega

/-- The size of the file. -/
theorem file_exact {den : Density} {ct : JpegColorType} {apps : List (UInt8 × Bytes)} {m : Mode} {w h : UInt16} {cs : List Component}
    {s0 s1 : List Nat} {t : HuffPair × HuffPair} (ht : TabsOk cs.length t) {ri : Option UInt16} {E : Coefs} :
    (fileBytes den ct apps m w h cs s0 s1 t ri E).length = fileSize (fileDec den ct apps m w h cs s0 s1 t ri E) (mkFrame m.isProg w h cs) := by
  have hzz : ZIGZAG.length = 64 := by decide
  have hseg : ∀ mk p, (seg mk p).length = 4 + p.length := by intro mk p; simp only [seg, List.length_cons]; omega
  have hpre : (preBytes den ct apps).length = ((fileApps den ct apps).map fun a => 4 + a.2.length).sum := by
    unfold preBytes fileApps
    rw [List.length_append, List.length_append, hseg, List.map_cons, List.sum_cons, List.map_append, List.sum_append]
    have a2 : (adobeSeg ct).length = ((adobeApp ct).map fun a => 4 + a.2.length).sum := by cases ct <;> rfl
    have a3 : (appsBytes apps).length = ((apps.map fun a => (a.1.toNat, a.2)).map fun a => 4 + a.2.length).sum := by
      unfold appsBytes
      rw [List.length_flatten, List.map_map, List.map_map]
      refine congrArg List.sum (List.map_congr_left fun a _ => ?_)
      rw [Function.comp, hseg]
      rfl
    show 4 + (jfifPayload den).length + _ = 4 + (jfifPayload den).length + _
    omega
  have hdht : ∀ cls dest (tb : HuffmanTable), TableFile tb → (seg 0xC4 (dhtPayload cls dest tb)).length = dhtBytes (some tb.spec) := by
    intro cls dest tb htb
    have h1 := htb.len16
    rw [hseg]
    simp only [dhtPayload, List.length_cons, List.length_append, List.length_map, dhtBytes, HuffmanTable.spec]
    omega
  have hscans : ((m.scans cs).map fun sd => sd.bytes (mkFrame m.isProg w h cs) t E ((ri.map UInt16.toNat).getD 0)).flatten.length =
      ((fileDec den ct apps m w h cs s0 s1 t ri E).scans.map fun s => 8 + 2 * s.scan.comps.length + s.data.length).sum := by
    show _ = (((m.scans cs).map (·.log (mkFrame m.isProg w h cs) t E ((ri.map UInt16.toNat).getD 0))).map _).sum
    rw [List.length_flatten, List.map_map, List.map_map]
    refine congrArg List.sum (List.map_congr_left fun sd _ => ?_)
    show (seg 0xDA (sosPayload sd.cs sd.ss sd.se) ++ (sd.coder t E).scanBytes _ (sd.mcus _)).length =
      8 + 2 * (sd.cs.map Component.scanComp).length + ((sd.coder t E).scanBytes _ (sd.mcus _)).length
    rw [List.length_append, List.length_map]
    simp only [seg, sosPayload, List.length_cons, List.length_append, flatten_const_length sd.cs scanCompBytes 2 (fun x => rfl), List.length_nil]
    omega
  have hmark := count_dri (den := den) (ct := ct) (apps := apps) (m := m) (w := w) (h := h) (cs := cs) (s0 := s0) (s1 := s1) (t := t) (ri := ri) (E := E)
  have hframe : (frameBytes m.isProg w h cs s0 s1 t ri).length = (10 + 3 * (mkFrame m.isProg w h cs).comps.length) + 2 * 69 +
      (dhtBytes ((fileDec den ct apps m w h cs s0 s1 t ri E).dc 0) + dhtBytes ((fileDec den ct apps m w h cs s0 s1 t ri E).ac 0) +
        dhtBytes ((fileDec den ct apps m w h cs s0 s1 t ri E).dc 1) + dhtBytes ((fileDec den ct apps m w h cs s0 s1 t ri E).ac 1)) +
      6 * (fileDec den ct apps m w h cs s0 s1 t ri E).markers.count 0xDD := by
    rw [hmark]
    unfold frameBytes
    have b1 := hdht 0 0 _ ht.dc0
    have b2 := hdht 1 0 _ ht.ac0
    have b3 : (if cs.length ≥ 3 then seg 0xC4 (dhtPayload 0 1 t.2.dc) ++ seg 0xC4 (dhtPayload 1 1 t.2.ac) else []).length =
        if cs.length ≥ 3 then dhtBytes (some t.2.dc.spec) + dhtBytes (some t.2.ac.spec) else 0 := by
      split
      · rename_i h3
        rw [List.length_append, hdht 0 1 _ (ht.dc1 h3), hdht 1 1 _ (ht.ac1 h3)]
      · rfl
    have b5 : ∀ mk, (seg mk (sofPayload w h cs)).length = 10 + 3 * (mkFrame m.isProg w h cs).comps.length := by
      intro mk
      rw [hseg, sofPayload, List.length_append, flatten_const_length cs frameCompBytes 3 (fun x => rfl)]
      show _ = 10 + 3 * (cs.map Component.frame).length
      simp only [List.length_cons, List.length_nil, List.length_map]
      omega
    have b6 : ∀ d s, (seg 0xDB (dqtPayload d s)).length = 69 := by
      intro d s
      rw [hseg]
      simp [dqtPayload, hzz]
    have e : dhtBytes ((fileDec den ct apps m w h cs s0 s1 t ri E).dc 0) + dhtBytes ((fileDec den ct apps m w h cs s0 s1 t ri E).ac 0) +
        dhtBytes ((fileDec den ct apps m w h cs s0 s1 t ri E).dc 1) + dhtBytes ((fileDec den ct apps m w h cs s0 s1 t ri E).ac 1) =
        dhtBytes (some t.1.dc.spec) + dhtBytes (some t.1.ac.spec) + if cs.length ≥ 3 then dhtBytes (some t.2.dc.spec) + dhtBytes (some t.2.ac.spec) else 0 := by
      have e1 : (fileDec den ct apps m w h cs s0 s1 t ri E).dc =
        if cs.length ≥ 3 then upd (upd (fun _ => none) 0 (some t.1.dc.spec)) 1 (some t.2.dc.spec) else upd (fun _ => none) 0 (some t.1.dc.spec) := rfl
      have e2 : (fileDec den ct apps m w h cs s0 s1 t ri E).ac =
        if cs.length ≥ 3 then upd (upd (fun _ => none) 0 (some t.1.ac.spec)) 1 (some t.2.ac.spec) else upd (fun _ => none) 0 (some t.1.ac.spec) := rfl
      rw [e1, e2]
      by_cases h3 : cs.length ≥ 3
      · simp only [if_pos h3, upd]
        simp only [if_true, Nat.zero_ne_one, if_false]
        omega
      · simp only [if_neg h3, upd]
        simp [dhtBytes]
    rw [e]
    simp only [List.length_append, b1, b2, b3, b5, b6]
    cases ri with
    | none => simp only [List.length_nil, Option.isSome_none, Bool.false_eq_true, if_false]; omega
    | some n => simp only [seg, List.length_cons, List.length_nil, Option.isSome_some, if_true]; omega
  unfold fileBytes fileSize
  simp only [List.length_append, List.length_cons, List.length_nil]
  rw [hpre, hframe, hscans]
  show _ = 4 + ((fileApps den ct apps).map fun a => 4 + a.2.length).sum + _ + _ + _ + _ + _
  omega

end Jpeg
