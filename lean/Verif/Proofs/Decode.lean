import Verif.Proofs.Tables
/-! The decoder on the headers and scans of a file. -/
namespace Jpeg
open _root_.Spec

/-! ### Headers -/

/-- The marker segments between the application segments and the first scan. -/
def frameBytes (prog : Bool) (w h : UInt16) (cs : List Component) (s0 s1 : List Nat) (t : HuffPair × HuffPair) (ri : Option UInt16) : Bytes :=
  seg (if prog then 0xC2 else 0xC0) (sofPayload w h cs) ++ (seg 0xDB (dqtPayload 0 s0) ++ (seg 0xDB (dqtPayload 1 s1) ++
    (seg 0xC4 (dhtPayload 0 0 t.1.dc) ++ (seg 0xC4 (dhtPayload 1 0 t.1.ac) ++
      ((if cs.length ≥ 3 then seg 0xC4 (dhtPayload 0 1 t.2.dc) ++ seg 0xC4 (dhtPayload 1 1 t.2.ac) else []) ++
        (match ri with
          | none => []
          | some n => seg 0xDD [u8 (n.toNat / 256), u8 n.toNat]))))))

theorem TableFile.len16 {t : HuffmanTable} (h : TableFile t) : t.length.length = 16 := h.ok.wf.counts_len
theorem TableFile.vals {t : HuffmanTable} (h : TableFile t) : t.values.length ≤ 256 := wf_values_le h.ok.wf

/-- The tables that are written. -/
structure TabsOk (n : Nat) (t : HuffPair × HuffPair) : Prop where
  dc0 : TableFile t.1.dc
  ac0 : TableFile t.1.ac
  dc1 : 3 ≤ n → TableFile t.2.dc
  ac1 : 3 ≤ n → TableFile t.2.ac

theorem frame_emits (pf : Platform) {e : Encoder} {image : ImageBuffer} (hc : CompsOk e.components)
    (hnc : image.colorType.numComponents = e.components.length)
    (ht : TabsOk e.components.length e.huffmanTables) {s0 s1 : List Nat}
    (hl0 : s0.length = 64) (hl1 : s1.length = 64) (hs0 : ∀ v ∈ s0, 1 ≤ v ∧ v ≤ 2048) (hs1 : ∀ v ∈ s1, 1 ≤ v ∧ v ≤ 2048) (s : BitState) :
    Emits (e.writeFrameHeader pf image (mkQ s0, mkQ s1)) s
      (frameBytes e.progressiveScans.isSome image.width image.height e.components s0 s1 e.huffmanTables e.restartInterval) () s := by
  unfold Encoder.writeFrameHeader frameBytes
  refine Emits.bind' (writeFrameHeader_emits pf _ _ _ hc.four (fun c hcm => ⟨(hc.h c hcm).2, (hc.v c hcm).2⟩) _ s) ?_
  refine Emits.bind' (writeQuantizationSegment_emits pf (by omega) s0 hl0 s) ?_
  refine Emits.bind' (writeQuantizationSegment_emits pf (by omega) s1 hl1 s) ?_
  refine Emits.bind' (writeHuffmanSegment_emits pf .dc (by omega) ht.dc0.len16 ht.dc0.vals s) ?_
  refine Emits.bind' (writeHuffmanSegment_emits pf .ac (by omega) ht.ac0.len16 ht.ac0.vals s) ?_
  refine Emits.bind' (a := ()) (s1 := s) ?_ ?_
  · unfold writeChromaHuffman
    rw [hnc]
    split
    · rename_i h3
      exact Emits.bind' (writeHuffmanSegment_emits pf .dc (by omega) (ht.dc1 h3).len16 (ht.dc1 h3).vals s)
        (writeHuffmanSegment_emits pf .ac (by omega) (ht.ac1 h3).len16 (ht.ac1 h3).vals s)
    · exact Emits.pure _ s
  · cases e.restartInterval with
    | none => exact Emits.pure _ s
    | some n => exact writeDri_emits pf _ s

/-- The decoder's knowledge after these segments. -/
def frameDec (d : Dec) (prog : Bool) (w h : UInt16) (cs : List Component) (s0 s1 : List Nat) (t : HuffPair × HuffPair) (ri : Option UInt16) :
    Dec :=
  { d with
    frame := some (mkFrame prog w h cs)
    qts := upd (upd d.qts 0 (some (ZIGZAG.map fun z => s0.getD z 1))) 1 (some (ZIGZAG.map fun z => s1.getD z 1))
    dc := if cs.length ≥ 3 then upd (upd d.dc 0 (some t.1.dc.spec)) 1 (some t.2.dc.spec) else upd d.dc 0 (some t.1.dc.spec)
    ac := if cs.length ≥ 3 then upd (upd d.ac 0 (some t.1.ac.spec)) 1 (some t.2.ac.spec) else upd d.ac 0 (some t.1.ac.spec)
    ri := (ri.map UInt16.toNat).getD d.ri
    markers := d.markers ++ ([if prog then 0xC2 else 0xC0, 0xDB, 0xDB, 0xC4, 0xC4] ++
      (if cs.length ≥ 3 then [0xC4, 0xC4] else []) ++ (if ri.isSome then [0xDD] else [])) }

theorem frame_steps {strict : Bool} (d : Dec) (hd : d.frame = none) (prog : Bool) {w h : UInt16} (hw : w ≠ 0) (hh : h ≠ 0)
    {cs : List Component} (hc : CompsOk cs) {s0 s1 : List Nat} (hl0 : s0.length = 64) (hl1 : s1.length = 64)
    (hs0 : ∀ v ∈ s0, 1 ≤ v ∧ v ≤ 255) (hs1 : ∀ v ∈ s1, 1 ≤ v ∧ v ≤ 255) {t : HuffPair × HuffPair}
    (ht : TabsOk cs.length t) (ri : Option UInt16) :
    Steps strict d (frameBytes prog w h cs s0 s1 t ri) (frameDec d prog w h cs s0 s1 t ri) := by
  unfold frameBytes
  have hri : ∀ d : Dec, Steps strict d (match ri with
      | none => []
      | some n => Jpeg.seg 0xDD [u8 (n.toNat / 256), u8 n.toNat])
      { d with ri := (ri.map UInt16.toNat).getD d.ri, markers := d.markers ++ if ri.isSome then [0xDD] else [] } := by
    intro d
    cases ri with
    | none => simpa using Steps.nil strict d
    | some n => exact Steps.dri d (show n.toNat < 65536 from n.toNat_lt)
  have step := (Steps.sof (strict := strict) d hd prog hw hh hc).trans
    ((Steps.dqt (dest := 0) _ (by omega) hl0 hs0).trans ((Steps.dqt (dest := 1) _ (by omega) hl1 hs1).trans
      ((Steps.dht (cls := 0) (dest := 0) _ (by omega) (by omega) ht.dc0).trans
        (Steps.dht (cls := 1) (dest := 0) _ (by omega) (by omega) ht.ac0))))
  by_cases h3 : cs.length ≥ 3
  · rw [if_pos h3]
    have := step.trans (((Steps.dht (cls := 0) (dest := 1) _ (by omega) (by omega) (ht.dc1 h3)).trans
      (Steps.dht (cls := 1) (dest := 1) _ (by omega) (by omega) (ht.ac1 h3))).trans (hri _))
    simp only [List.append_assoc] at this ⊢
    convert this using 1
    simp only [if_pos, one_ne_zero, if_false]
    unfold frameDec
    simp only [if_pos h3]
    simp only [Dec.mark]
    cases prog <;> simp
  · rw [if_neg h3]
    have := step.trans (hri _)
    simp only [List.append_assoc, List.nil_append] at this ⊢
    convert this using 1
    simp only [if_pos, one_ne_zero, if_false]
    unfold frameDec
    simp only [if_neg h3]
    simp only [Dec.mark]
    cases prog <;> simp

/-- The bytes before the frame header. -/
def preBytes (d : Density) (ct : JpegColorType) (apps : List (UInt8 × Bytes)) : Bytes :=
  seg 0xE0 (jfifPayload d) ++ (adobeSeg ct ++ appsBytes apps)

/-- The Adobe payload. -/
def adobeApp : JpegColorType → List (Nat × Bytes)
  | .cmyk => [(14, [0x41, 0x64, 0x6F, 0x62, 0x65, 0, 0, 0, 0, 0, 0, 0])]
  | .ycck => [(14, [0x41, 0x64, 0x6F, 0x62, 0x65, 0, 0, 0, 0, 0, 0, 2])]
  | _ => []

/-- The application segments of a file. -/
def fileApps (d : Density) (ct : JpegColorType) (apps : List (UInt8 × Bytes)) : List (Nat × Bytes) :=
  (0, jfifPayload d) :: (adobeApp ct ++ apps.map fun a => (a.1.toNat, a.2))

theorem apps_steps {strict : Bool} (d : Dec) (l : List (UInt8 × Bytes)) (h : ∀ a ∈ l, a.1.toNat ≤ 15 ∧ a.2.length ≤ 65533) :
    Steps strict d (appsBytes l) { d with
      apps := d.apps ++ l.map fun a => (a.1.toNat, a.2)
      markers := d.markers ++ l.map fun a => 0xE0 + a.1.toNat } := by
  induction l generalizing d with
  | nil => simpa [appsBytes] using Steps.nil strict d
  | cons a l ih =>
    obtain ⟨h1, h2⟩ := h a (by simp)
    have := (Steps.app (strict := strict) d h1 h2).trans (ih _ fun b hb => h b (by simp [hb]))
    simp only [appsBytes, List.map_cons, List.flatten_cons] at this ⊢
    convert this using 1
    simp only [Dec.mark, List.append_assoc, List.singleton_append, u8_toNat (show 0xE0 + a.1.toNat < 256 by omega)]

theorem pre_steps {strict : Bool} (d : Dec) (den : Density) (ct : JpegColorType) (l : List (UInt8 × Bytes))
    (h : ∀ a ∈ l, a.1.toNat ≤ 15 ∧ a.2.length ≤ 65533) :
    Steps strict d (preBytes den ct l) { d with
      apps := d.apps ++ fileApps den ct l
      markers := d.markers ++ (fileApps den ct l).map fun a => 0xE0 + a.1 } := by
  have h1 := Steps.app (strict := strict) d (n := 0) (by omega) (payload := jfifPayload den) (by cases den <;> simp [jfifPayload])
  have h2 : ∀ d : Dec, Steps strict d (adobeSeg ct) { d with
      apps := d.apps ++ adobeApp ct, markers := d.markers ++ (adobeApp ct).map fun a => 0xE0 + a.1 } := by
    intro d
    cases ct
    · simpa [adobeSeg, adobeApp] using Steps.nil strict d
    · simpa [adobeSeg, adobeApp] using Steps.nil strict d
    · exact Steps.app (strict := strict) d (n := 14) (by omega) (by simp)
    · exact Steps.app (strict := strict) d (n := 14) (by omega) (by simp)
  have := h1.trans ((h2 _).trans (apps_steps _ l h))
  unfold preBytes
  convert this using 1
  · rfl
  · simp only [Dec.mark, fileApps, List.append_assoc, List.map_cons, List.map_append, List.map_map, List.singleton_append]
    rfl

/-! ### Scans -/

/-- A scan: its components and band. -/
structure ScanDesc where
  cs : List Component
  ss : Nat
  se : Nat

def ScanDesc.covers (sd : ScanDesc) (c k : Nat) : Bool := sd.cs.any (·.id == c) && decide (sd.ss ≤ k ∧ k ≤ sd.se)
def ScanDesc.scan (sd : ScanDesc) : Scan := ⟨sd.cs.map Component.scanComp, sd.ss, sd.se⟩

/-- Conditions on a scan header by itself. -/
structure ScanDesc.Ok (strict : Bool) (prog : Bool) (cs : List Component) (sd : ScanDesc) : Prop where
  mem : ∀ c ∈ sd.cs, c ∈ cs
  one : 1 ≤ sd.cs.length
  four : sd.cs.length ≤ 4
  order : (sd.cs.map (·.id)).Pairwise (· < ·)
  ten : sd.cs.length > 1 → (sd.cs.map fun c => c.horizontalSamplingFactor * c.verticalSamplingFactor).sum ≤ 10
  band : if prog then ((sd.ss = 0 ∧ sd.se = 0) ∨
      (1 ≤ sd.ss ∧ (sd.ss ≤ sd.se ∨ (strict = false ∧ sd.ss = sd.se + 1)) ∧ sd.se ≤ 63 ∧ sd.cs.length = 1))
    else sd.ss = 0 ∧ sd.se = 63

/-- Conditions on a sequence of scans after the scans `done`. -/
def ScansOk (strict prog : Bool) (cs : List Component) : List ScanDesc → List ScanDesc → Prop
  | _, [] => True
  | done, sd :: l => sd.Ok strict prog cs ∧
      (∀ c k, sd.covers c k = true → done.any (·.covers c k) = false) ∧
      (sd.ss > 0 → ∀ c ∈ sd.cs, done.any (·.covers c.id 0) = true) ∧
      ScansOk strict prog cs (done ++ [sd]) l

/-- What the decoder must know before a scan. -/
structure Ready (d : Dec) (f : Frame) (cs : List Component) (t : HuffPair × HuffPair) (ri : Nat) : Prop where
  frame : d.frame = some f
  comps : f.comps = cs.map Component.frame
  ri : d.ri = ri
  dc : ∀ c ∈ cs, d.dc c.dcHuffmanTable = some (tabOf t c.dcHuffmanTable).dc.spec
  ac : ∀ c ∈ cs, d.ac c.acHuffmanTable = some (tabOf t c.acHuffmanTable).ac.spec
  q : ∀ c ∈ cs, (d.qts c.quantizationTable).isSome

/-- The MCUs of a scan. -/
def ScanDesc.mcus (f : Frame) (sd : ScanDesc) : List (List DataUnit) := layout f (sd.cs.map Component.frame)

/-- The coder of a scan. -/
def ScanDesc.coder (t : HuffPair × HuffPair) (E : Coefs) (sd : ScanDesc) : Coder := scanCoder t sd.cs sd.ss sd.se E

/-- The bytes of a scan. -/
def ScanDesc.bytes (f : Frame) (t : HuffPair × HuffPair) (E : Coefs) (ri : Nat) (sd : ScanDesc) : Bytes :=
  scanPart t sd.cs sd.ss sd.se E ri (sd.mcus f)

/-- The entry in the decoder's log. -/
def ScanDesc.log (f : Frame) (t : HuffPair × HuffPair) (E : Coefs) (ri : Nat) (sd : ScanDesc) : ScanLog :=
  ⟨sd.scan, (sd.mcus f).length, (sd.coder t E).scanBytes ri (sd.mcus f)⟩

theorem layout_units {f : Frame} {fs : List FrameComp} (h1 : 1 ≤ fs.length) : ∀ mcu ∈ layout f fs, ∀ u ∈ mcu, u.1 < fs.length := by
  intro mcu hm u hu
  unfold layout at hm
  split at hm
  · simp only [layoutSingle, List.mem_map] at hm
    obtain ⟨p, _, rfl⟩ := hm
    simp only [List.mem_singleton] at hu
    subst hu
    simp
  · simp only [layoutInterleaved, List.mem_map] at hm
    obtain ⟨p, _, rfl⟩ := hm
    simp only [interleavedMcu, List.mem_flatMap, List.mem_map] at hu
    obtain ⟨⟨c, j⟩, hcj, q, _, rfl⟩ := hu
    have := List.mem_zipIdx_iff_getElem?.mp hcj
    exact (List.getElem?_eq_some_iff.mp this).1

theorem scan_step {strict : Bool} {d : Dec} {f : Frame} {cs : List Component} {t : HuffPair × HuffPair} {ri : Nat} (hcs : CompsOk cs)
    (hr : Ready d f cs t ri) {done : List ScanDesc} (hcoded : ∀ c k, d.coded c k = done.any (·.covers c k)) {sd : ScanDesc}
    (hok : sd.Ok strict f.progressive cs) (hnew : ∀ c k, sd.covers c k = true → done.any (·.covers c k) = false)
    (hdc : sd.ss > 0 → ∀ c ∈ sd.cs, done.any (·.covers c.id 0) = true) {E : Coefs}
    (hu : ∀ g ∈ intervals ri (sd.mcus f), (sd.coder t E).UnitsOk g.flatten fun _ => 0) :
    Steps strict d (sd.bytes f t E ri) (d.afterScan (sd.coder t E) sd.scan (sd.mcus f) ((sd.coder t E).scanBytes ri (sd.mcus f))) := by
  have hse : sd.ss < 256 ∧ sd.se ≤ 63 ∧ sd.ss ≤ sd.se + 1 := by
    have := hok.band
    split at this
    · rcases this with h | ⟨h1, h2 | ⟨_, h2⟩, h3, _⟩ <;> omega
    · omega
  have hsfc : scanFrameComps f sd.scan = sd.cs.map Component.frame := scanFrameComps_ok hcs hr.comps sd.cs hok.mem sd.ss sd.se
  have hlen : (sosPayload sd.cs sd.ss sd.se).length + 2 < 65536 := by
    rw [sosPayload, List.length_cons, List.length_append, flatten_const_length _ _ 2 (fun _ => rfl)]
    have := hok.four
    simp only [List.length_cons, List.length_nil]
    omega
  have hl : sd.scan.comps.length = sd.cs.length := by simp [ScanDesc.scan]
  have hmem : ∀ sc ∈ sd.scan.comps, ∃ c ∈ sd.cs, sc = c.scanComp := by
    intro sc h
    simp only [ScanDesc.scan, List.mem_map] at h
    obtain ⟨c, h1, h2⟩ := h
    exact ⟨c, h1, h2.symm⟩
  have hmc : layout f (scanFrameComps f sd.scan) = sd.mcus f := by rw [hsfc]; rfl
  have key := Steps.scan (strict := strict) (d := d) (f := f) (s := sd.scan) (payload := sosPayload sd.cs sd.ss sd.se) (sd.coder t E)
    hlen hr.frame (parseScan_ok hcs hr.comps sd.cs hok.mem hok.four hse.1 (by omega)) ?_ ?_ ?_ ?_
  · rw [hmc, hr.ri] at key
    exact key
  · -- valid
    refine ⟨by rw [hl]; exact hok.one, by rw [hl]; exact hok.four, ?_, ?_, ?_, ?_, ?_, ?_, ?_, ?_⟩
    · have : sd.scan.comps.map (·.comp) = sd.cs.map (·.id) := by simp [ScanDesc.scan, Component.scanComp, Function.comp_def]
      rw [this]; exact hok.order
    · rw [hl, hsfc]
      intro h
      have := hok.ten h
      simpa [Component.frame, Function.comp_def] using this
    · have hb := hok.band
      rw [hl]
      cases hp : f.progressive
      · simp only [hp, Bool.false_eq_true, if_false] at hb ⊢
        refine ⟨hb.1, hb.2, ?_⟩
        intro sc hsc
        obtain ⟨c, hc, rfl⟩ := hmem sc hsc
        exact ⟨hcs.dc c (hok.mem c hc), hcs.ac c (hok.mem c hc)⟩
      · simp only [hp, if_true] at hb ⊢
        refine ⟨hb, ?_⟩
        intro sc hsc
        obtain ⟨c, hc, rfl⟩ := hmem sc hsc
        have h1 := hcs.dc c (hok.mem c hc)
        have h2 := hcs.ac c (hok.mem c hc)
        simp only [Component.scanComp]
        omega
    · intro sc hsc k _ h1 h2
      obtain ⟨c, hc, rfl⟩ := hmem sc hsc
      rw [hcoded]
      apply hnew
      simp only [ScanDesc.covers, Bool.and_eq_true, List.any_eq_true, decide_eq_true_eq]
      exact ⟨⟨c, hc, by simp [Component.scanComp]⟩, h1, h2⟩
    · intro sc hsc h
      obtain ⟨c, hc, rfl⟩ := hmem sc hsc
      rw [hcoded]
      exact hdc h c hc
    · intro sc hsc _
      obtain ⟨c, hc, rfl⟩ := hmem sc hsc
      simp only [Component.scanComp, hr.dc c (hok.mem c hc), Option.isSome_some]
    · intro sc hsc _
      obtain ⟨c, hc, rfl⟩ := hmem sc hsc
      simp only [Component.scanComp, hr.ac c (hok.mem c hc), Option.isSome_some]
    · intro fc hfc
      rw [hsfc] at hfc
      simp only [List.mem_map] at hfc
      obtain ⟨c, hc, rfl⟩ := hfc
      exact hr.q c (hok.mem c hc)
  · -- matches
    refine ⟨rfl, rfl, hse.2.1, hse.2.2, ?_⟩
    intro j hj
    rw [hl] at hj
    refine ⟨sd.cs[j].scanComp, ?_, ?_, ?_, ?_⟩
    · simp [ScanDesc.scan, hj]
    · simp [ScanDesc.coder, scanCoder, hj, Component.scanComp]
    · intro _
      have := hr.dc _ (hok.mem _ (List.getElem_mem hj))
      simpa [ScanDesc.coder, scanCoder, hj, Component.scanComp] using this
    · intro _
      have := hr.ac _ (hok.mem _ (List.getElem_mem hj))
      simpa [ScanDesc.coder, scanCoder, hj, Component.scanComp] using this
  · rw [hmc, hl]
    have := layout_units (f := f) (fs := sd.cs.map Component.frame) (by simpa using hok.one)
    simpa [ScanDesc.mcus] using this
  · rw [hmc, hr.ri]
    exact hu

/-- The coefficients after the scans `l`. -/
def coefsAfter (f : Frame) (t : HuffPair × HuffPair) (E : Coefs) (l : List ScanDesc) (m : Coefs) : Coefs :=
  l.foldl (fun m sd => (sd.coder t E).merge m ((sd.mcus f).flatten.map (sd.coder t E).addr)) m

theorem any_afterScan (sd : ScanDesc) (c k : Nat) :
    (sd.scan.comps.any (·.comp == c) && decide (sd.scan.ss ≤ k ∧ k ≤ sd.scan.se)) = sd.covers c k := by
  simp only [ScanDesc.scan, ScanDesc.covers, List.any_map]
  rfl

theorem scans_steps {strict : Bool} {f : Frame} {cs : List Component} {t : HuffPair × HuffPair} {ri : Nat} (hcs : CompsOk cs) {E : Coefs}
    (l : List ScanDesc) (hu : ∀ sd ∈ l, ∀ g ∈ intervals ri (sd.mcus f), (sd.coder t E).UnitsOk g.flatten fun _ => 0)
    (done : List ScanDesc) (d : Dec) (hr : Ready d f cs t ri) (hcoded : ∀ c k, d.coded c k = done.any (·.covers c k))
    (hok : ScansOk strict f.progressive cs done l) :
    Steps strict d (l.map fun sd => sd.bytes f t E ri).flatten
      { d with
        coefs := coefsAfter f t E l d.coefs
        coded := fun c k => (done ++ l).any (·.covers c k)
        scans := d.scans ++ l.map (·.log f t E ri)
        markers := d.markers ++ List.replicate l.length 0xDA } := by
  induction l generalizing done d with
  | nil =>
    have : d.coded = fun c k => done.any (·.covers c k) := by funext c k; exact hcoded c k
    simp only [List.map_nil, List.flatten_nil, coefsAfter, List.foldl_nil, List.append_nil, List.length_nil, List.replicate_zero, ← this]
    exact Steps.nil strict d
  | cons sd l ih =>
    obtain ⟨h1, h2, h3, h4⟩ := hok
    have hs := scan_step hcs hr hcoded h1 h2 h3 (hu sd (by simp))
    have := ih (fun x hx => hu x (by simp [hx])) (done ++ [sd])
      (d.afterScan (sd.coder t E) sd.scan (sd.mcus f) ((sd.coder t E).scanBytes ri (sd.mcus f)))
      ⟨hr.frame, hr.comps, hr.ri, hr.dc, hr.ac, hr.q⟩ (by
        intro c k
        simp only [Dec.afterScan, hcoded, any_afterScan, List.any_append, List.any_cons, List.any_nil, Bool.or_false]) h4
    have := hs.trans this
    rw [List.map_cons, List.flatten_cons]
    convert this using 1
    simp only [Dec.afterScan, Dec.mark, coefsAfter, List.foldl_cons, List.append_assoc, List.singleton_append, List.map_cons,
      List.length_cons, ScanDesc.log, List.replicate_succ]
    rfl

end Jpeg
