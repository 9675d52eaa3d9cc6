import Verif.Proofs.Layout
/-! The whole file: what `encode_image` writes and what the decoder makes of it. -/
namespace Jpeg
open _root_.Spec

/-! ### The decoder after all scans -/

theorem coefsAfter_mem {f : Frame} {t : HuffPair × HuffPair} {E : Coefs} {c y x k : Nat} (l : List ScanDesc) (m : Coefs)
    (h : (∃ sd ∈ l, (c, y, x) ∈ (sd.mcus f).flatten.map (sd.coder t E).addr ∧ sd.ss ≤ k ∧ k ≤ sd.se) ∨ m c y x k = E c y x k) :
    coefsAfter f t E l m c y x k = E c y x k := by
  induction l generalizing m with
  | nil =>
    rcases h with ⟨_, h, _⟩ | h
    · simp at h
    · exact h
  | cons a l ih =>
    unfold coefsAfter
    rw [List.foldl_cons]
    refine ih _ ?_
    have hE : (a.coder t E).E = E := rfl
    by_cases hm : (c, y, x) ∈ (a.mcus f).flatten.map (a.coder t E).addr ∧ a.ss ≤ k ∧ k ≤ a.se
    · right
      exact if_pos hm
    · rcases h with ⟨sd, hsd, h⟩ | h
      · rcases List.mem_cons.mp hsd with rfl | hsd
        · exact absurd h hm
        · exact Or.inl ⟨sd, hsd, h⟩
      · right
        exact (if_neg hm).trans h

section
variable {cs : List Component} {mh mv : Nat} (hg : Grid cs mh mv) (hone : cs.length = 1 → mh = 1 ∧ mv = 1)
include hg hone

omit hg hone in
theorem inside_of_lt {w k m x : Nat} (hm : 1 ≤ m ∧ m ≤ 4) (hk : k = 1 ∨ k = m) (hx : x < nblk w (m / k)) :
    x / k < Spec.ceilDiv w (8 * m) := by
  unfold nblk Spec.ceilDiv at *
  rcases hk with rfl | rfl
  · rcases (show m = 1 ∨ m = 2 ∨ m = 3 ∨ m = 4 by omega) with rfl | rfl | rfl | rfl <;> omega
  · rw [Nat.div_self (by omega)] at hx
    rcases (show k = 1 ∨ k = 2 ∨ k = 3 ∨ k = 4 by omega) with rfl | rfl | rfl | rfl <;> omega

/-- Every block of a component is coded by each of its scans. -/
theorem addr_mem (prog : Bool) (w h : UInt16) (t : HuffPair × HuffPair) (E : Coefs) {c : Component} (hc : c ∈ cs)
    {sd : ScanDesc} (hsd : sd.cs = [c] ∨ sd.cs = cs) {y x : Nat} (hy : y < (mkFrame prog w h cs).blocksHigh c.frame)
    (hx : x < (mkFrame prog w h cs).blocksWide c.frame) :
    (c.id, y, x) ∈ (sd.mcus (mkFrame prog w h cs)).flatten.map (sd.coder t E).addr := by
  rw [blocksHigh_eq hg prog w h hc] at hy
  rw [blocksWide_eq hg prog w h hc] at hx
  rw [List.mem_map]
  rcases hsd with hsd | hsd
  · refine ⟨(0, y, x), ?_, ?_⟩
    · rw [ScanDesc.mcus, hsd, List.map_singleton, layout_single hg prog w h hc, List.mem_flatten]
      exact ⟨unit1 (y, x), List.mem_map.mpr ⟨(y, x), mem_raster.mpr ⟨hy, hx⟩, rfl⟩, by simp [unit1]⟩
    · simp [Coder.addr, ScanDesc.coder, scanCoder, hsd]
  · obtain ⟨j, hj, rfl⟩ := List.mem_iff_getElem.mp hc
    have hid : cs[j].id = j := hg.ok.ids j _ (List.getElem?_eq_getElem hj)
    have h1 := hg.ok.h _ hc
    have h2 := hg.ok.v _ hc
    refine ⟨(j, y, x), ?_, ?_⟩
    · rw [ScanDesc.mcus, hsd, layout_all hg prog w h hone, List.mem_flatten]
      refine ⟨mcuUnits cs (y / cs[j].verticalSamplingFactor, x / cs[j].horizontalSamplingFactor), ?_, ?_⟩
      · exact List.mem_map.mpr ⟨_, mem_raster.mpr ⟨inside_of_lt hg.mv (hg.v _ hc) hy, inside_of_lt hg.mh (hg.h _ hc) hx⟩, rfl⟩
      · simp only [mcuUnits, List.mem_flatMap, List.mem_singleton, List.mem_range]
        refine ⟨(cs[j], j), List.mem_zipIdx_iff_getElem?.mpr (List.getElem?_eq_getElem hj), y % cs[j].verticalSamplingFactor,
          Nat.mod_lt _ (by omega), x % cs[j].horizontalSamplingFactor, Nat.mod_lt _ (by omega), ?_⟩
        dsimp only
        rw [Nat.div_add_mod', Nat.div_add_mod']
    · simp [Coder.addr, ScanDesc.coder, scanCoder, hsd, hj]

end

/-- What the decoder knows at the end. -/
def fileDec (den : Density) (ct : JpegColorType) (apps : List (UInt8 × Bytes)) (m : Mode) (w h : UInt16) (cs : List Component)
    (s0 s1 : List Nat) (t : HuffPair × HuffPair) (ri : Option UInt16) (E : Coefs) : Dec :=
  let f := mkFrame m.isProg w h cs
  let n := (ri.map UInt16.toNat).getD 0
  let d := frameDec { Dec.init with
    apps := fileApps den ct apps
    markers := (fileApps den ct apps).map fun a => 0xE0 + a.1 } m.isProg w h cs s0 s1 t ri
  { d with
    coefs := coefsAfter f t E (m.scans cs) fun _ _ _ _ => 0
    coded := fun c k => (m.scans cs).any (·.covers c k)
    scans := (m.scans cs).map (·.log f t E n)
    markers := d.markers ++ List.replicate (m.scans cs).length 0xDA }

/-- The bytes of the file. -/
def fileBytes (den : Density) (ct : JpegColorType) (apps : List (UInt8 × Bytes)) (m : Mode) (w h : UInt16) (cs : List Component)
    (s0 s1 : List Nat) (t : HuffPair × HuffPair) (ri : Option UInt16) (E : Coefs) : Bytes :=
  [0xFF, 0xD8] ++ ((preBytes den ct apps ++ (frameBytes m.isProg w h cs s0 s1 t ri ++
    ((m.scans cs).map fun sd => sd.bytes (mkFrame m.isProg w h cs) t E ((ri.map UInt16.toNat).getD 0)).flatten)) ++ [0xFF, 0xD9])

/-- Every data unit of every scan can be coded. -/
def AllUnitsOk (m : Mode) (w h : UInt16) (cs : List Component) (t : HuffPair × HuffPair) (ri : Nat) (E : Coefs) : Prop :=
  ∀ sd ∈ m.scans cs, ∀ g ∈ intervals ri (sd.mcus (mkFrame m.isProg w h cs)), (sd.coder t E).UnitsOk g.flatten fun _ => 0

/-- Every data unit of every scan can be written. -/
def AllUnitsCan (ck : Bool) (m : Mode) (w h : UInt16) (cs : List Component) (t : HuffPair × HuffPair) (ri : Nat) (E : Coefs) : Prop :=
  ∀ sd ∈ m.scans cs, ∀ g ∈ intervals ri (sd.mcus (mkFrame m.isProg w h cs)), (sd.coder t E).UnitsCan ck g.flatten fun _ => 0

theorem AllUnitsOk.can {m : Mode} {w h : UInt16} {cs : List Component} {t : HuffPair × HuffPair} {ri : Nat} {E : Coefs}
    (hu : AllUnitsOk m w h cs t ri E) (ck : Bool) : AllUnitsCan ck m w h cs t ri E :=
  fun sd hsd g hg => (hu sd hsd g hg).can ck

/-- The decoder is ready for the scans after the headers. -/
theorem frame_ready {cs : List Component} (hc : CompsOk cs) (hdest : ∀ c ∈ cs, (c.dcHuffmanTable = 0 ∧ c.acHuffmanTable = 0) ∨ 3 ≤ cs.length)
    (d : Dec) (hd : d.ri = 0) (prog : Bool) (w h : UInt16) (s0 s1 : List Nat) (t : HuffPair × HuffPair) (ri : Option UInt16) :
    Ready (frameDec d prog w h cs s0 s1 t ri) (mkFrame prog w h cs) cs t ((ri.map UInt16.toNat).getD 0) := by
  refine ⟨rfl, rfl, by simp [frameDec, hd], ?_, ?_, ?_⟩
  · intro c hcm
    have := hc.dc c hcm
    rcases hdest c hcm with ⟨h0, _⟩ | h3
    · rw [h0]
      simp only [frameDec]
      split <;> simp [upd, tabOf]
    · rcases (show c.dcHuffmanTable = 0 ∨ c.dcHuffmanTable = 1 by omega) with h0 | h0 <;> rw [h0] <;>
        simp [frameDec, upd, tabOf, h3]
  · intro c hcm
    have := hc.ac c hcm
    rcases hdest c hcm with ⟨_, h0⟩ | h3
    · rw [h0]
      simp only [frameDec]
      split <;> simp [upd, tabOf]
    · rcases (show c.acHuffmanTable = 0 ∨ c.acHuffmanTable = 1 by omega) with h0 | h0 <;> rw [h0] <;>
        simp [frameDec, upd, tabOf, h3]
  · intro c hcm
    have := hc.q c hcm
    rcases (show c.quantizationTable = 0 ∨ c.quantizationTable = 1 by omega) with h0 | h0 <;> rw [h0] <;> simp [frameDec, upd]

theorem decode_file {strict : Bool} (den : Density) (ct : JpegColorType) {apps : List (UInt8 × Bytes)}
    (happ : ∀ a ∈ apps, a.1.toNat ≤ 15 ∧ a.2.length ≤ 65533) {m : Mode} {cs : List Component} (hm : m.Ok strict cs) {w h : UInt16}
    (hw : w ≠ 0) (hh : h ≠ 0) (hc : CompsOk cs) (hdest : ∀ c ∈ cs, (c.dcHuffmanTable = 0 ∧ c.acHuffmanTable = 0) ∨ 3 ≤ cs.length)
    {s0 s1 : List Nat} (hl0 : s0.length = 64) (hl1 : s1.length = 64)
    (hs0 : ∀ v ∈ s0, 1 ≤ v ∧ v ≤ 255) (hs1 : ∀ v ∈ s1, 1 ≤ v ∧ v ≤ 255) {t : HuffPair × HuffPair}
    (ht : TabsOk cs.length t) (ri : Option UInt16) {E : Coefs} (hu : AllUnitsOk m w h cs t ((ri.map UInt16.toNat).getD 0) E) :
    decode strict (fileBytes den ct apps m w h cs s0 s1 t ri E) = some (fileDec den ct apps m w h cs s0 s1 t ri E) := by
  refine decode_of_steps ?_ ?_
  · refine (pre_steps Dec.init den ct apps happ).trans ((frame_steps _ rfl m.isProg hw hh hc hl0 hl1 hs0 hs1 ht ri).trans ?_)
    exact scans_steps hc (m.scans cs) hu [] _ (frame_ready hc hdest _ rfl _ _ _ _ _ _ _) (by intro c k; rfl) (Mode.scansOk hc hm)
  · simp only [complete, fileDec, frameDec, List.all_eq_true, List.mem_range]
    intro i hi k hk
    have hi' : i < cs.length := by simpa [mkFrame] using hi
    obtain ⟨sd, h1, h2, h3, h4, _⟩ := Mode.scans_cover hm (List.getElem_mem hi') hk
    rw [List.any_eq_true]
    refine ⟨sd, h1, ?_⟩
    simp only [ScanDesc.covers, Bool.and_eq_true, List.any_eq_true, decide_eq_true_eq]
    refine ⟨⟨_, h2, ?_⟩, h3, h4⟩
    simpa using hc.ids i _ (List.getElem?_eq_getElem hi')

theorem fileDec_coefs {strict : Bool} (den : Density) (ct : JpegColorType) (apps : List (UInt8 × Bytes)) {m : Mode} {cs : List Component}
    (hm : m.Ok strict cs) (w h : UInt16) {mh mv : Nat} (hg : Grid cs mh mv) (hone : cs.length = 1 → mh = 1 ∧ mv = 1)
    (s0 s1 : List Nat) (t : HuffPair × HuffPair) (ri : Option UInt16) (E : Coefs) {c : Component} (hc : c ∈ cs) {y x k : Nat}
    (hy : y < (mkFrame m.isProg w h cs).blocksHigh c.frame) (hx : x < (mkFrame m.isProg w h cs).blocksWide c.frame) (hk : k < 64) :
    (fileDec den ct apps m w h cs s0 s1 t ri E).coefs c.id y x k = E c.id y x k := by
  refine coefsAfter_mem _ _ (Or.inl ?_)
  obtain ⟨sd, h1, _, h3, h4, h5⟩ := Mode.scans_cover hm hc hk
  exact ⟨sd, h1, addr_mem hg hone m.isProg w h t E hc h5 hy hx, h3, h4⟩

/-! ### What the encoder writes -/

section
variable {image : ImageBuffer} {P : Nat → Nat → Nat → UInt8} (hd : Delivers image P)
  (hw : image.width.toNat ≠ 0) (hh : image.height.toNat ≠ 0)
  {pf : Platform} (hpf : pf.Valid) {op : Operations} {F : List Int → List Int} (hop : OpOk op F) {s0 s1 : List Nat}
  (hl0 : s0.length = 64) (hl1 : s1.length = 64) (hs0 : ∀ v ∈ s0, 1 ≤ v ∧ v ≤ 2048) (hs1 : ∀ v ∈ s1, 1 ≤ v ∧ v ≤ 2048)
  {e : Encoder} {mh mv : Nat} (hg : Grid e.components mh mv) (hnc : image.colorType.numComponents = e.components.length)
  (hone : e.components.length = 1 → mh = 1 ∧ mv = 1)

/-- All blocks of an image. -/
def allBlocks (F : List Int → List Int) (s0 s1 : List Nat) (w h : Nat) (P : Nat → Nat → Nat → UInt8) (mh mv : Nat) (cs : List Component) :
    Blocks :=
  cs.zipIdx.map fun ci => (raster (nblk h (mv / ci.1.verticalSamplingFactor)) (nblk w (mh / ci.1.horizontalSamplingFactor))).map fun p =>
    blockAt F s0 s1 w h P mh mv ci.2 ci.1 p.1 p.2

theorem allBlocks_get (F : List Int → List Int) (s0 s1 : List Nat) (w h : Nat) (P : Nat → Nat → Nat → UInt8) (mh mv : Nat)
    {cs : List Component} {i : Nat} {c : Component} (hc : cs[i]? = some c) :
    ∃ bs, (allBlocks F s0 s1 w h P mh mv cs)[i]? = some bs ∧ BlocksOf (coefsOf F s0 s1 w h P mh mv cs) i
      (nblk h (mv / c.verticalSamplingFactor)) (nblk w (mh / c.horizontalSamplingFactor)) bs := by
  refine ⟨(raster (nblk h (mv / c.verticalSamplingFactor)) (nblk w (mh / c.horizontalSamplingFactor))).map fun p =>
    blockAt F s0 s1 w h P mh mv i c p.1 p.2, ?_, ⟨⟨fun y x => blockAt F s0 s1 w h P mh mv i c y x, ?_, ?_⟩⟩⟩
  · simp only [allBlocks, List.getElem?_map, List.getElem?_zipIdx, hc, Option.map_some, Nat.zero_add]
  · with_reducible rfl
  · intro y _ x _
    exact isBlock_coefsOf F s0 s1 w h P mh mv hc y x

/-- An encoder with other Huffman tables. -/
def Encoder.withTables (e : Encoder) (t : HuffPair × HuffPair) : Encoder := { e with huffmanTables := t }

/-- `blocks` holds all blocks of all components. -/
def AllBlocksOf (E : Coefs) (mh mv w h : Nat) (cs : List Component) (blocks : Blocks) : Prop :=
  ∀ i c, cs[i]? = some c → ∃ bs, blocks[i]? = some bs ∧ BlocksOf E i (nblk h (mv / c.verticalSamplingFactor)) (nblk w (mh / c.horizontalSamplingFactor)) bs

theorem allBlocks_of (F : List Int → List Int) (s0 s1 : List Nat) (w h : Nat) (P : Nat → Nat → Nat → UInt8) (mh mv : Nat) (cs : List Component) :
    AllBlocksOf (coefsOf F s0 s1 w h P mh mv cs) mh mv w h cs (allBlocks F s0 s1 w h P mh mv cs) :=
  fun _ _ hc => allBlocks_get F s0 s1 w h P mh mv hc

section
variable {E : Coefs} {blocks : Blocks}

include hpf hg in
/-- The scans of single components. -/
theorem singleScans_emits (hbl : AllBlocksOf E mh mv image.width.toNat image.height.toNat e.components blocks) (t : HuffPair × HuffPair) (hri : e.interval < 65536) (prog : Bool)
    {c : Component} {i : Nat} (hc : e.components[i]? = some c) (kind : Nat × Nat)
    (hk : kind = (0, 63) ∨ kind = (0, 0) ∨ (1 ≤ kind.1 ∧ kind.1 ≤ kind.2 + 1 ∧ kind.2 ≤ 63))
    (hu : ∀ g ∈ intervals e.interval ((ScanDesc.mk [c] kind.1 kind.2).mcus (mkFrame prog image.width image.height e.components)),
      (scanCoder t [c] kind.1 kind.2 E).UnitsCan pf.checked g.flatten
        fun _ => 0) :
    Emits (if kind = (0, 63) then sequentialScan pf (e.withTables t) blocks (c, i)
      else if kind = (0, 0) then dcScan pf (e.withTables t) blocks (c, i)
      else acScan pf (e.withTables t) blocks (kind.1, kind.2 + 1) (c, i))
      (BitState.init pf) ((ScanDesc.mk [c] kind.1 kind.2).bytes (mkFrame prog image.width image.height e.components) t
        E e.interval) () (BitState.init pf) := by
  obtain ⟨bs, hbs, hB⟩ := hbl i c hc
  have hcm : c ∈ e.components := List.mem_of_getElem? hc
  have hid := hg.ok.ids i c hc
  have hdc := hg.ok.dc c hcm
  have hac := hg.ok.ac c hcm
  have hlay : (ScanDesc.mk [c] kind.1 kind.2).mcus (mkFrame prog image.width image.height e.components) =
      (raster (nblk image.height.toNat (mv / c.verticalSamplingFactor)) (nblk image.width.toNat (mh / c.horizontalSamplingFactor))).map unit1 :=
    layout_single hg prog image.width image.height hcm
  rw [hlay, Coder.intervals_map] at hu
  have hu' : ∀ g ∈ intervals e.interval (raster (nblk image.height.toNat (mv / c.verticalSamplingFactor))
      (nblk image.width.toNat (mh / c.horizontalSamplingFactor))),
      (scanCoder t [c] kind.1 kind.2 E).UnitsCan pf.checked (g.flatMap unit1)
        fun _ => 0 := by
    intro g hgm
    exact hu (g.map unit1) (List.mem_map.mpr ⟨g, hgm, rfl⟩)
  unfold ScanDesc.bytes
  rw [hlay]
  rcases hk with rfl | rfl | ⟨k1, k2, k3⟩
  · exact sequentialScan_emits hpf (e := e.withTables t) hri hid hdc hac hbs hB hu'
  · exact dcScan_emits hpf (e := e.withTables t) hri hid hdc hac hbs hB hu'
  · rw [if_neg (by intro h; rw [h] at k1; simp at k1), if_neg (by intro h; rw [h] at k1; simp at k1)]
    exact acScan_emits hpf (e := e.withTables t) (stop := kind.2 + 1) hri hid hdc hac hbs hB k1 k2 (by omega) hu'

theorem interval_lt (e : Encoder) : e.interval < 65536 := by
  unfold Encoder.interval
  cases e.restartInterval with
  | none => simp
  | some n => simpa using n.toNat_lt

theorem mode_isProg' (e : Encoder) : e.progressiveScans.isSome = e.mode.isProg := by
  unfold Encoder.mode
  cases e.progressiveScans with
  | none => simp only; split <;> rfl
  | some n => rfl

/-- One scan of each component. -/
theorem scanEach_emits {pf : Platform} {cs : List Component} (g : Component → Bytes) (body : Component × Nat → WM Unit) {s : BitState}
    (hb : ∀ c i, cs[i]? = some c → Emits (body (c, i)) s (g c) () s) :
    Emits (WM.forEach cs.zipIdx body) s (cs.map g).flatten () s := by
  refine Emits.congr (Emits.forEach (f := fun ci => g ci.1) ?_) ?_
  · rintro ⟨c, i⟩ hci
    exact hb c i (List.mem_zipIdx_iff_getElem?.mp hci)
  · rw [← Function.comp_def g Prod.fst, ← List.map_map, List.zipIdx_map_fst]

section
variable (hnc : image.colorType.numComponents = e.components.length)
include hpf hl0 hl1 hs0 hs1 hg hnc

theorem sequentialRest_emits {t : HuffPair × HuffPair} (hmode : e.mode = .sequential)
    (hbl : AllBlocksOf E mh mv image.width.toNat image.height.toNat e.components blocks) (ht : TabsOk e.components.length t)
    (hu : AllUnitsCan pf.checked e.mode image.width image.height e.components t e.interval E) :
    Emits ((e.withTables t).writeFrameHeader pf image (mkQ s0, mkQ s1) >>= fun _ => WM.forEach (e.withTables t).components.zipIdx (sequentialScan pf (e.withTables t) blocks))
      (BitState.init pf) (frameBytes e.mode.isProg image.width image.height e.components s0 s1 t e.restartInterval ++
        ((e.mode.scans e.components).map fun sd => sd.bytes (mkFrame e.mode.isProg image.width image.height e.components) t E e.interval).flatten)
      () (BitState.init pf) := by
  have hhdr := frame_emits pf (e := e.withTables t) (image := image) hg.ok hnc ht hl0 hl1 hs0 hs1 (BitState.init pf)
  rw [show (e.withTables t).progressiveScans.isSome = e.mode.isProg from mode_isProg' e] at hhdr
  rw [hmode] at hu hhdr ⊢
  refine Emits.bind' hhdr ?_
  simp only [Mode.scans, List.map_map]
  refine scanEach_emits (pf := pf) _ _ ?_
  intro c i hc
  have := singleScans_emits (image := image) hpf hg hbl t (interval_lt e) false hc (0, 63) (by simp) (by
    intro g hgm
    refine hu ⟨[c], 0, 63⟩ ?_ g hgm
    simp only [Mode.scans, List.mem_map]
    exact ⟨c, List.mem_of_getElem? hc, rfl⟩)
  exact this

theorem progressiveRest_emits {t : HuffPair × HuffPair} {n : UInt8} (hmode : e.mode = .progressive n.toNat) (h2 : 2 ≤ n.toNat) (h64 : n.toNat ≤ 64)
    (hbl : AllBlocksOf E mh mv image.width.toNat image.height.toNat e.components blocks) (ht : TabsOk e.components.length t)
    (hu : AllUnitsCan pf.checked e.mode image.width image.height e.components t e.interval E) :
    Emits ((e.withTables t).writeFrameHeader pf image (mkQ s0, mkQ s1) >>= fun _ => WM.forEach (e.withTables t).components.zipIdx (dcScan pf (e.withTables t) blocks) >>= fun _ =>
      WM.lift (acBands pf n.toNat) >>= fun bands => WM.forEach bands fun band => WM.forEach (e.withTables t).components.zipIdx (acScan pf (e.withTables t) blocks band))
      (BitState.init pf) (frameBytes e.mode.isProg image.width image.height e.components s0 s1 t e.restartInterval ++
        ((e.mode.scans e.components).map fun sd => sd.bytes (mkFrame e.mode.isProg image.width image.height e.components) t E e.interval).flatten)
      () (BitState.init pf) := by
  have hhdr := frame_emits pf (e := e.withTables t) (image := image) hg.ok hnc ht hl0 hl1 hs0 hs1 (BitState.init pf)
  rw [show (e.withTables t).progressiveScans.isSome = e.mode.isProg from mode_isProg' e] at hhdr
  rw [hmode] at hu hhdr ⊢
  refine Emits.bind' hhdr ?_
  simp only [Mode.scans, List.map_append, List.flatten_append, List.map_map]
  refine Emits.bind' (scanEach_emits (pf := pf) _ _ ?_) ?_
  · intro c i hc
    have := singleScans_emits (image := image) hpf hg hbl t (interval_lt e) true hc (0, 0) (by simp) (by
      intro g hgm
      refine hu ⟨[c], 0, 0⟩ ?_ g hgm
      simp only [Mode.scans, List.mem_append, List.mem_map]
      exact Or.inl ⟨c, List.mem_of_getElem? hc, rfl⟩)
    exact this
  · refine Emits.lift_bind (acBands_ok hpf h2 h64) ?_
    refine Emits.congr (Emits.forEach (f := fun b => ((e.components.map fun c => ScanDesc.mk [c] b.1 (b.2 - 1)).map fun sd =>
        sd.bytes (mkFrame true image.width image.height e.components) t E e.interval).flatten) ?_) ?_
    · intro b hb
      obtain ⟨s, hs, rfl⟩ := List.mem_map.mp hb
      rw [List.mem_range] at hs
      obtain ⟨b1, b2, b3, _⟩ := band_ok (m := n.toNat - 1) (by omega) (by omega) hs
      rw [List.map_map]
      refine scanEach_emits (pf := pf) _ _ ?_
      intro c i hc
      have := singleScans_emits (image := image) hpf hg hbl t (interval_lt e) true hc
        ((band (n.toNat - 1) s).1, (band (n.toNat - 1) s).2 - 1) (Or.inr (Or.inr ⟨b1, by simp; omega, by simp; omega⟩)) (by
        intro g hgm
        refine hu ⟨[c], (band (n.toNat - 1) s).1, (band (n.toNat - 1) s).2 - 1⟩ ?_ g hgm
        simp only [Mode.scans, List.mem_append, List.mem_flatMap, List.mem_map]
        exact Or.inr ⟨_, hb, c, List.mem_of_getElem? hc, rfl⟩)
      rw [if_neg (by simp; omega), if_neg (by simp; omega)] at this
      rw [show (band (n.toNat - 1) s).2 - 1 + 1 = (band (n.toNat - 1) s).2 by omega] at this
      exact this
    · rw [List.flatMap_def, List.map_flatten, List.map_map, List.flatten_flatten, List.map_map]
      rfl
end
end

include hd hw hh hpf hop hl0 hl1 hs0 hs1 hg hnc hone in
theorem encodeScans_emits {strict : Bool} {t : HuffPair × HuffPair} (hm : e.mode.Ok strict e.components)
    (hfit : Fits pf mh mv image.width.toNat image.height.toNat ∨ e.mode = .interleaved)
    (hopt : e.optimizeIf pf (allBlocks F s0 s1 image.width.toNat image.height.toNat P mh mv e.components) = .ok (e.withTables t))
    (ht : TabsOk e.components.length t)
    (hu : AllUnitsCan pf.checked e.mode image.width image.height e.components t e.interval
      (coefsOf F s0 s1 image.width.toNat image.height.toNat P mh mv e.components)) :
    Emits (e.encodeScans pf op image (mkQ s0, mkQ s1)) (BitState.init pf)
      (frameBytes e.mode.isProg image.width image.height e.components s0 s1 t e.restartInterval ++
        ((e.mode.scans e.components).map fun sd => sd.bytes (mkFrame e.mode.isProg image.width image.height e.components) t
          (coefsOf F s0 s1 image.width.toNat image.height.toNat P mh mv e.components) e.interval).flatten) () (BitState.init pf) := by
  have hri := interval_lt e
  have hbl := encodeBlocks_ok hd hw hh hpf hop hl0 hl1 hs0 hs1 hg hnc
  unfold Encoder.encodeScans
  cases hps : e.progressiveScans with
  | some n =>
    have hmode : e.mode = .progressive n.toNat := by simp [Encoder.mode, hps]
    rw [hmode] at hm hfit
    obtain ⟨h2, h64, _⟩ := hm
    have hfit : Fits pf mh mv image.width.toNat image.height.toNat := hfit.resolve_right (by simp)
    simp only [Encoder.encodeProgressive]
    refine Emits.lift_bind (hbl hfit) ?_
    refine Emits.lift_bind hopt ?_
    exact progressiveRest_emits hpf hl0 hl1 hs0 hs1 hg hnc hmode h2 h64 (allBlocks_of F s0 s1 _ _ P mh mv e.components) ht hu
  | none =>
    by_cases hseq : (e.optimizeHuffmanTable || !e.samplingFactor.supportsInterleaved) = true
    · have hmode : e.mode = .sequential := by simp only [Encoder.mode, hps, if_pos hseq]
      rw [hmode] at hfit
      have hfit : Fits pf mh mv image.width.toNat image.height.toNat := hfit.resolve_right (by simp)
      simp only [if_pos hseq]
      simp only [Encoder.encodeSequential]
      refine Emits.lift_bind (hbl hfit) ?_
      refine Emits.lift_bind hopt ?_
      exact sequentialRest_emits hpf hl0 hl1 hs0 hs1 hg hnc hmode (allBlocks_of F s0 s1 _ _ P mh mv e.components) ht hu
    · have hmode : e.mode = .interleaved := by simp only [Encoder.mode, hps, if_neg hseq]
      have hhdr := frame_emits pf (e := e.withTables t) (image := image) hg.ok hnc ht hl0 hl1 hs0 hs1 (BitState.init pf)
      rw [show (e.withTables t).progressiveScans.isSome = e.mode.isProg from mode_isProg' e] at hhdr
      rw [hmode] at hm hfit hu hhdr ⊢
      simp only [if_neg hseq]
      have hno : e.optimizeHuffmanTable = false := by
        simp only [Bool.or_eq_true, not_or, Bool.not_eq_true] at hseq
        exact hseq.1
      have het : e = e.withTables t := by
        unfold Encoder.optimizeIf at hopt
        rw [hno] at hopt
        simpa using hopt
      have ht' : t = e.huffmanTables := by rw [het]; rfl
      subst ht'
      have hlay := layout_all hg false image.width image.height hone
      simp only [Mode.scans, List.map_cons, List.map_nil, List.flatten_cons, List.flatten_nil, List.append_nil]
      unfold ScanDesc.bytes ScanDesc.mcus
      have hu1 := hu _ (List.mem_singleton.mpr rfl)
      simp only [ScanDesc.mcus, Mode.isProg] at hu1
      simp only [Mode.isProg] at hhdr ⊢
      rw [hlay] at hu1 ⊢
      rw [Coder.intervals_map] at hu1
      refine interleavedScan_emits hd hw hh hpf hop hl0 hl1 hs0 hs1 hg hnc hri ?_ hhdr
      intro g hgm
      exact hu1 (g.map (mcuUnits e.components)) (List.mem_map.mpr ⟨g, hgm, rfl⟩)
end
end Jpeg
