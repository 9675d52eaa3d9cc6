import Verif.Proofs.Blocks
/-! The scans the encoder writes, as instances of the MCU loop. -/
namespace Jpeg
open _root_.Spec

/-- The tables of slot `i`. -/
def tabOf (t : HuffPair × HuffPair) (i : Nat) : HuffPair := if i = 0 then t.1 else t.2

theorem pairIdx_tab (t : HuffPair × HuffPair) {i : Nat} (h : i < 2) : pairIdx t i = .ok (tabOf t i) := by
  rcases (show i = 0 ∨ i = 1 by omega) with rfl | rfl <;> rfl

/-- The coder of a scan over the components `cs`. -/
def scanCoder (t : HuffPair × HuffPair) (cs : List Component) (ss se : Nat) (E : Coefs) : Coder where
  ss := ss
  se := se
  comp j := (cs[j]?.map (·.id)).getD 0
  dcT j := (tabOf t ((cs[j]?.map (·.dcHuffmanTable)).getD 0)).dc
  acT j := (tabOf t ((cs[j]?.map (·.acHuffmanTable)).getD 0)).ac
  E := E

/-- A list of 64 coefficients is the block at `(c, y, x)`. -/
def IsBlock (E : Coefs) (c y x : Nat) (b : List Int) : Prop := b.length = 64 ∧ ∀ k, k < 64 → b.getD k 0 = E c y x k

theorem slice_band {E : Coefs} {c y x : Nat} {b : List Int} (h : IsBlock E c y x b) {start stop : Nat} (h1 : start ≤ stop) (h2 : stop ≤ 64) :
    slice b start stop = .ok ((List.range (stop - start)).map fun i => E c y x (start + i)) := by
  unfold slice
  rw [if_pos ⟨h1, by rw [h.1]; exact h2⟩]
  congr 1
  apply List.ext_getElem
  · simp [h.1]; omega
  · intro i h3 h4
    simp only [List.length_map, List.length_range] at h4
    simp only [List.getElem_take, List.getElem_drop, List.getElem_map, List.getElem_range]
    have := h.2 (start + i) (by omega)
    rw [← this]
    simp [List.getD, show start + i < b.length by rw [h.1]; omega]

namespace Coder
variable (C : Coder)

theorem writeAc_unit {pf : Platform} (hpf : pf.Valid) {u : DataUnit} {p : Nat → Int} (hu : C.UnitCan pf.checked u p)
    (hne : C.n ≠ 0) (hse : C.se ≤ 63) {b : List Int}
    (hb : IsBlock C.E (C.comp u.1) u.2.1 u.2.2 b) :
    EmitsBits pf (writeAcBlock pf b C.first (C.se + 1) (C.acT u.1)) (toksBits (C.acT u.1) (acToks (C.band u) 0)) () := by
  have hf : C.first ≤ C.se + 1 := by unfold n at hne; omega
  have hs := slice_band hb hf (by omega : C.se + 1 ≤ 64)
  refine writeAcBlock_emits hpf (hu.acOk hne) b _ _ _ hs ?_ hu.bandLe hu.bandSyms
  rw [band, List.length_map, List.length_range, n]; omega

theorem writeBlock_unit {pf : Platform} (hpf : pf.Valid) {u : DataUnit} {p : Nat → Int} (hu : C.UnitCan pf.checked u p)
    (h0 : C.ss = 0) (h63 : C.se = 63) {b : List Int} (hb : IsBlock C.E (C.comp u.1) u.2.1 u.2.2 b) :
    EmitsBits pf (writeBlock pf b (p u.1) (C.dcT u.1) (C.acT u.1)) (C.unitBits u p) () := by
  have hfirst : C.first = 1 := by simp [first, h0]
  have hn : C.n = 63 := by simp [n, hfirst, h63]
  unfold writeBlock unitBits
  rw [if_pos h0]
  have hdc : idx b 0 = .ok (C.dc u) := by
    rw [idx_eq_getD 0 (by rw [hb.1]; omega), hb.2 0 (by omega)]; rfl
  refine EmitsBits.lift_bind hdc ?_
  refine EmitsBits.bind' (writeDc_emits hpf (hu.dcOk h0) (by have := hu.diff h0; omega) (hu.diffSym h0)) ?_
  have := C.writeAc_unit hpf hu (by omega) (by omega) hb
  rw [hfirst, h63] at this
  exact this

/-- A complete scan: the loop and the final padding. -/
theorem scan_emits {α σ : Type} {C : Coder} {un : α → List DataUnit} {Rep : σ → (Nat → Int) → Prop} {pf : Platform} (hpf : pf.Valid)
    {n : Nat} (hn : n < 65536) {reset : σ → σ} {body : α → σ → WM σ} (hreset : ∀ s p, Rep s p → Rep (reset s) fun _ => 0)
    (items : List α) (hb : ∀ x ∈ items, BodyOk C un Rep pf body x) {s0 : σ} (hs0 : Rep s0 fun _ => 0)
    (hok : ∀ g ∈ Spec.intervals n items, C.UnitsCan pf.checked (g.flatMap un) fun _ => 0) :
    Emits (do
      let _ ← scanLoop pf n reset body items ((⟨0, n⟩ : Rst), s0)
      finalizeBitBuffer pf) (BitState.init pf) (C.intervalsBytes ((Spec.intervals n items).map fun g => g.flatMap un) 0) ()
      (BitState.init pf) := by
  have hl : LoopSt Rep pf n 0 n (fun _ => 0) [] (BitState.init pf) ((⟨0, n⟩ : Rst), s0) :=
    ⟨rfl, rfl, Nat.le_refl _, hs0, BitRel.init pf⟩
  obtain ⟨out, a', st', r', g', p', pend', e1, e2, e3, e4⟩ := scanLoop_emits hpf hn hreset items hb [] hl
    (by rw [List.append_nil]; exact C.futureOk_start n items hok)
  rw [List.append_nil, future_start] at e4
  have hfin := finalize_emits_pack pf hpf st' pend' e2.bits
  refine Emits.congr (Emits.bind' e1 hfin) ?_
  rw [e4]
  congr 1
  unfold future tailBytes
  split <;> simp [unitsBits]

theorem intervals_map {α β : Type} (n : Nat) (f : α → β) (l : List α) :
    Spec.intervals n (l.map f) = (Spec.intervals n l).map (List.map f) := by
  unfold Spec.intervals
  split
  · rfl
  · exact grp_map (by omega) f l

theorem scanBytes_map {α : Type} (C : Coder) (n : Nat) (un : α → List DataUnit) (items : List α) :
    C.intervalsBytes ((Spec.intervals n items).map fun g => g.flatMap un) 0 = C.scanBytes n (items.map un) := by
  unfold scanBytes
  rw [intervals_map, List.map_map]
  congr 1

end Coder

/-! ### Scans of a single component -/

/-- The representation of the predictions in a scan with one component. -/
def Rep1 (s : Int) (p : Nat → Int) : Prop := s = p 0

/-- Blocks of one component in raster order. -/
structure BlocksOf (E : Coefs) (c rows cols : Nat) (bs : List (List Int)) : Prop where
  eq : ∃ f : Nat → Nat → List Int, bs = (raster rows cols).map (fun p => f p.1 p.2) ∧
    ∀ y, y < rows → ∀ x, x < cols → IsBlock E c y x (f y x)

theorem mem_raster {rows cols : Nat} {p : Nat × Nat} : p ∈ raster rows cols ↔ p.1 < rows ∧ p.2 < cols := by
  obtain ⟨y, x⟩ := p
  simp [raster]

theorem WM_forFold_map {α β γ : Type} (l : List α) (g : α → γ) (s : β) (body : β → γ → WM β) :
    WM.forFold (l.map g) s body = WM.forFold l s fun s x => body s (g x) := by
  induction l generalizing s with
  | nil => rfl
  | cons x xs ih =>
    simp only [List.map_cons, WM.forFold]
    congr 1
    funext s'
    exact ih s'

theorem scanLoop_map {α γ σ : Type} (pf : Platform) (n : Nat) (reset : σ → σ) (body : γ → σ → WM σ) (l : List α) (g : α → γ)
    (st : Rst × σ) : scanLoop pf n reset body (l.map g) st = scanLoop pf n reset (fun x => body (g x)) l st :=
  WM_forFold_map l g st _

variable {pf : Platform} (hpf : pf.Valid) {e : Encoder} (hri : e.interval < 65536)

/-- The bytes of a scan. -/
def scanPart (t : HuffPair × HuffPair) (cs : List Component) (ss se : Nat) (E : Coefs) (ri : Nat) (mcus : List (List DataUnit)) : Bytes :=
  seg 0xDA (sosPayload cs ss se) ++ (scanCoder t cs ss se E).scanBytes ri mcus

/-- One unit per MCU. -/
def unit1 (p : Nat × Nat) : List DataUnit := [(0, p.1, p.2)]

include hpf hri

theorem sequentialScan_emits {blocks : Blocks} {E : Coefs} {c : Component} {i rows cols : Nat} (hid : c.id = i) (hdc : c.dcHuffmanTable < 2)
    (hac : c.acHuffmanTable < 2) {bs : List (List Int)} (hbs : blocks[i]? = some bs) (hB : BlocksOf E i rows cols bs)
    (hok : ∀ g ∈ intervals e.interval (raster rows cols), (scanCoder e.huffmanTables [c] 0 63 E).UnitsCan pf.checked (g.flatMap unit1) fun _ => 0) :
    Emits (sequentialScan pf e blocks (c, i)) (BitState.init pf)
      (scanPart e.huffmanTables [c] 0 63 E e.interval ((raster rows cols).map unit1)) () (BitState.init pf) := by
  obtain ⟨f, rfl, hf⟩ := hB.eq
  unfold sequentialScan scanPart
  have hsh := writeScanHeader_emits pf [c] (by simp) (by
    intro x hx; simp only [List.mem_singleton] at hx; subst hx; exact ⟨by omega, by omega⟩) none (BitState.init pf)
  refine Emits.bind' hsh ?_
  have hidx : idx blocks i = .ok ((raster rows cols).map fun p => f p.1 p.2) := by unfold idx; rw [hbs]
  refine Emits.lift_bind hidx ?_
  dsimp only
  rw [scanLoop_map, ← Coder.scanBytes_map]
  refine Coder.scan_emits (Rep := Rep1) hpf hri (fun _ _ _ => rfl) _ ?_ rfl hok
  intro p hp s pr hrep hu
  obtain ⟨hy, hx⟩ := mem_raster.mp hp
  simp only [unit1, Coder.UnitsCan, and_true] at hu
  have hb := hf p.1 hy p.2 hx
  refine ⟨E i p.1 p.2 0, ?_, ?_⟩
  · refine EmitsBits.congr (EmitsBits.lift_bind (pairIdx_tab e.huffmanTables hdc) (EmitsBits.lift_bind (pairIdx_tab e.huffmanTables hac)
      (EmitsBits.bind' (a := ()) (b2 := []) (b1 := (scanCoder e.huffmanTables [c] 0 63 E).unitBits (0, p.1, p.2) pr) ?_ ?_))) ?_
    · have := (scanCoder e.huffmanTables [c] 0 63 E).writeBlock_unit hpf hu rfl rfl (b := f p.1 p.2) (by
        simpa [scanCoder, hid] using hb)
      rw [hrep]
      exact this
    · refine EmitsBits.lift ?_
      rw [idx_eq_getD 0 (by rw [hb.1]; omega), hb.2 0 (by omega)]
    · simp [Coder.unitsBits, unit1]
  · simp [Rep1, Coder.predsAfter, unit1, Coder.nextPreds, scanCoder, upd, Coder.dc, hid]

theorem dcScan_emits {blocks : Blocks} {E : Coefs} {c : Component} {i rows cols : Nat} (hid : c.id = i) (hdc : c.dcHuffmanTable < 2)
    (hac : c.acHuffmanTable < 2) {bs : List (List Int)} (hbs : blocks[i]? = some bs) (hB : BlocksOf E i rows cols bs)
    (hok : ∀ g ∈ intervals e.interval (raster rows cols), (scanCoder e.huffmanTables [c] 0 0 E).UnitsCan pf.checked (g.flatMap unit1) fun _ => 0) :
    Emits (dcScan pf e blocks (c, i)) (BitState.init pf)
      (scanPart e.huffmanTables [c] 0 0 E e.interval ((raster rows cols).map unit1)) () (BitState.init pf) := by
  obtain ⟨f, rfl, hf⟩ := hB.eq
  unfold dcScan scanPart
  have hsh := writeScanHeader_emits pf [c] (by simp) (by
    intro x hx; simp only [List.mem_singleton] at hx; subst hx; exact ⟨by omega, by omega⟩) (some (0, 0)) (BitState.init pf)
  refine Emits.bind' hsh ?_
  have hidx : idx blocks i = .ok ((raster rows cols).map fun p => f p.1 p.2) := by unfold idx; rw [hbs]
  refine Emits.lift_bind hidx ?_
  dsimp only
  rw [scanLoop_map, ← Coder.scanBytes_map]
  refine Coder.scan_emits (Rep := Rep1) hpf hri (fun _ _ _ => rfl) _ ?_ rfl hok
  intro p hp s pr hrep hu
  obtain ⟨hy, hx⟩ := mem_raster.mp hp
  simp only [unit1, Coder.UnitsCan, and_true] at hu
  have hb := hf p.1 hy p.2 hx
  have hdcv : (scanCoder e.huffmanTables [c] 0 0 E).dc (0, p.1, p.2) = E i p.1 p.2 0 := by simp [scanCoder, Coder.dc, hid]
  refine ⟨E i p.1 p.2 0, ?_, ?_⟩
  · refine EmitsBits.congr (EmitsBits.lift_bind (a := E i p.1 p.2 0) ?_ (EmitsBits.lift_bind (pairIdx_tab e.huffmanTables hdc)
      (EmitsBits.bind' (b2 := []) (writeDc_emits hpf (t := (tabOf e.huffmanTables c.dcHuffmanTable).dc) ?_ ?_ ?_) (EmitsBits.pure pf _)))) ?_
    · rw [idx_eq_getD 0 (by rw [hb.1]; omega), hb.2 0 (by omega)]
    · exact hu.dcOk rfl
    · have := hu.diff rfl
      rw [hdcv] at this
      rw [hrep]
      dsimp only at this
      omega
    · have := hu.diffSym rfl
      rw [hdcv] at this
      rw [hrep]
      exact this
    · have hband : (scanCoder e.huffmanTables [c] 0 0 E).band (0, p.1, p.2) = [] := rfl
      have hs : s = pr 0 := hrep
      simp only [Coder.unitsBits, unit1, List.append_nil, Coder.unitBits, hband, acToks, hdcv, hs]
      simp [scanCoder]
  · simp [Rep1, Coder.predsAfter, unit1, Coder.nextPreds, scanCoder, upd, Coder.dc, hid]

theorem acScan_emits {blocks : Blocks} {E : Coefs} {c : Component} {i rows cols start stop : Nat} (hid : c.id = i) (hdc : c.dcHuffmanTable < 2)
    (hac : c.acHuffmanTable < 2) {bs : List (List Int)} (hbs : blocks[i]? = some bs) (hB : BlocksOf E i rows cols bs)
    (h1 : 1 ≤ start) (h2 : start ≤ stop) (h3 : stop ≤ 64)
    (hok : ∀ g ∈ intervals e.interval (raster rows cols), (scanCoder e.huffmanTables [c] start (stop - 1) E).UnitsCan pf.checked (g.flatMap unit1) fun _ => 0) :
    Emits (acScan pf e blocks (start, stop) (c, i)) (BitState.init pf)
      (scanPart e.huffmanTables [c] start (stop - 1) E e.interval ((raster rows cols).map unit1)) () (BitState.init pf) := by
  obtain ⟨f, rfl, hf⟩ := hB.eq
  unfold acScan scanPart
  refine Emits.lift_bind (a := stop - 1) ?_ ?_
  · rw [ckU8_ok (by omega) (by omega)]; congr 1; omega
  dsimp only
  rw [Nat.mod_eq_of_lt (show start < 256 by omega)]
  have hsh := writeScanHeader_emits pf [c] (by simp) (by
    intro x hx; simp only [List.mem_singleton] at hx; subst hx; exact ⟨by omega, by omega⟩) (some (start, stop - 1)) (BitState.init pf)
  refine Emits.bind' hsh ?_
  have hidx : idx blocks i = .ok ((raster rows cols).map fun p => f p.1 p.2) := by unfold idx; rw [hbs]
  refine Emits.lift_bind hidx ?_
  rw [scanLoop_map, ← Coder.scanBytes_map]
  refine Coder.scan_emits (Rep := fun _ _ => True) hpf hri (fun _ _ _ => trivial) _ ?_ trivial hok
  intro p hp s pr hrep hu
  obtain ⟨hy, hx⟩ := mem_raster.mp hp
  simp only [unit1, Coder.UnitsCan, and_true] at hu
  have hb := hf p.1 hy p.2 hx
  refine ⟨(), ?_, trivial⟩
  have hC1 : (scanCoder e.huffmanTables [c] start (stop - 1) E).first = start := by simp [Coder.first, scanCoder, h1]
  have hC2 : (scanCoder e.huffmanTables [c] start (stop - 1) E).se + 1 = stop := by simp [scanCoder]; omega
  have hbits : (scanCoder e.huffmanTables [c] start (stop - 1) E).unitsBits (unit1 p) pr =
      toksBits (tabOf e.huffmanTables c.acHuffmanTable).ac
        (acToks ((scanCoder e.huffmanTables [c] start (stop - 1) E).band (0, p.1, p.2)) 0) := by
    have h0 : (scanCoder e.huffmanTables [c] start (stop - 1) E).ss ≠ 0 := by simp [scanCoder]; omega
    simp only [Coder.unitsBits, unit1, List.append_nil, Coder.unitBits, if_neg h0, List.nil_append]
    rfl
  rw [hbits]
  refine EmitsBits.lift_bind (pairIdx_tab e.huffmanTables hac) ?_
  have hbb : IsBlock (scanCoder e.huffmanTables [c] start (stop - 1) E).E
      ((scanCoder e.huffmanTables [c] start (stop - 1) E).comp 0) p.1 p.2 (f p.1 p.2) := by
    simpa [scanCoder, hid] using hb
  by_cases hn : (scanCoder e.huffmanTables [c] start (stop - 1) E).n = 0
  · have hss : start = stop := by
      unfold Coder.n at hn
      rw [hC1, hC2] at hn
      omega
    subst hss
    have hband : (scanCoder e.huffmanTables [c] start (start - 1) E).band (0, p.1, p.2) = [] := by
      simp [Coder.band, hn]
    rw [hband]
    have hsl : slice (f p.1 p.2) start start = .ok [] := by
      rw [slice_band hb h2 h3]; simp
    show EmitsBits pf (writeAcBlock pf (f p.1 p.2) start start _) _ _
    unfold writeAcBlock
    refine EmitsBits.lift_bind hsl ?_
    exact EmitsBits.pure pf ()
  · have := (scanCoder e.huffmanTables [c] start (stop - 1) E).writeAc_unit hpf hu hn (by
      show stop - 1 ≤ 63; omega) hbb
    rw [hC1, hC2] at this
    exact this

end Jpeg
