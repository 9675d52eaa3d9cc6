import Verif.Proofs.Scans
/-! The interleaved scan. -/
namespace Jpeg
open _root_.Spec

/-- All quantised coefficients of an image. -/
def coefsOf (F : List Int → List Int) (s0 s1 : List Nat) (w h : Nat) (P : Nat → Nat → Nat → UInt8) (mh mv : Nat) (cs : List Component) :
    Coefs := fun i y x k =>
  match cs[i]? with
  | some c => (blockAt F s0 s1 w h P mh mv i c y x).getD k 0
  | none => 0

theorem isBlock_coefsOf (F : List Int → List Int) (s0 s1 : List Nat) (w h : Nat) (P : Nat → Nat → Nat → UInt8) (mh mv : Nat)
    {cs : List Component} {i : Nat} {c : Component} (hc : cs[i]? = some c) (y x : Nat) :
    IsBlock (coefsOf F s0 s1 w h P mh mv cs) i y x (blockAt F s0 s1 w h P mh mv i c y x) := by
  refine ⟨blockAt_length _ _ _ _ _ _ _ _ _ _ _ _, fun k _ => ?_⟩
  simp [coefsOf, hc]

/-- Predictions of up to four components. -/
def Rep4 (s : List Int) (p : Nat → Int) : Prop := s.length = 4 ∧ ∀ j, j < 4 → s.getD j 0 = p j

theorem rep4_zero : Rep4 [0, 0, 0, 0] fun _ => 0 := by
  refine ⟨rfl, fun j hj => ?_⟩
  rcases (show j = 0 ∨ j = 1 ∨ j = 2 ∨ j = 3 by omega) with rfl | rfl | rfl | rfl <;> rfl

theorem Coder.predsAfter_append (C : Coder) (a b : List DataUnit) (p : Nat → Int) :
    C.predsAfter (a ++ b) p = C.predsAfter b (C.predsAfter a p) := by
  induction a generalizing p with
  | nil => rfl
  | cons u us ih => simp only [List.cons_append, Coder.predsAfter, ih]

theorem forFold_units {α σ : Type} {C : Coder} {Rep : σ → (Nat → Int) → Prop} {pf : Platform} (l : List α) (us : α → List DataUnit)
    (body : σ → α → WM σ) (h : ∀ x ∈ l, Coder.BodyOk C us Rep pf (fun x s => body s x) x) (s : σ) (p : Nat → Int) (hr : Rep s p)
    (hu : C.UnitsCan pf.checked (l.flatMap us) p) :
    ∃ s', EmitsBits pf (WM.forFold l s body) (C.unitsBits (l.flatMap us) p) s' ∧ Rep s' (C.predsAfter (l.flatMap us) p) := by
  induction l generalizing s p with
  | nil => exact ⟨s, EmitsBits.pure pf s, hr⟩
  | cons x xs ih =>
    rw [List.flatMap_cons, Coder.unitsCan_append] at hu
    obtain ⟨s1, h1, h2⟩ := h x (by simp) s p hr hu.1
    obtain ⟨s2, h3, h4⟩ := ih (fun y hy => h y (by simp [hy])) s1 _ h2 hu.2
    refine ⟨s2, ?_, ?_⟩
    · rw [List.flatMap_cons, Coder.unitsBits_append]
      exact EmitsBits.bind h1 h3
    · rw [List.flatMap_cons, Coder.predsAfter_append]
      exact h4

/-- The units of an MCU. -/
def mcuUnits (cs : List Component) (p : Nat × Nat) : List DataUnit :=
  cs.zipIdx.flatMap fun cj => (List.range cj.1.verticalSamplingFactor).flatMap fun v =>
    (List.range cj.1.horizontalSamplingFactor).flatMap fun h =>
      [(cj.2, p.1 * cj.1.verticalSamplingFactor + v, p.2 * cj.1.horizontalSamplingFactor + h)]

theorem mcuUnits_eq (cs : List Component) (p : Nat × Nat) : mcuUnits cs p = interleavedMcu (cs.map Component.frame) p.1 p.2 := by
  unfold mcuUnits interleavedMcu
  rw [List.zipIdx_map, List.flatMap_map]
  congr 1
  funext cj
  simp [raster, List.map_flatMap, List.flatMap_def, Function.comp_def, Component.frame, List.map_map]
  congr 1
  apply List.map_congr_left
  intro v _
  induction (List.range cj.1.horizontalSamplingFactor) with
  | nil => rfl
  | cons a l ih => simp [ih]

section
variable {image : ImageBuffer} {P : Nat → Nat → Nat → UInt8} (hd : Delivers image P)
  (hw : image.width.toNat ≠ 0) (hh : image.height.toNat ≠ 0)
  {pf : Platform} (hpf : pf.Valid) {op : Operations} {F : List Int → List Int} (hop : OpOk op F) {s0 s1 : List Nat}
  (hl0 : s0.length = 64) (hl1 : s1.length = 64) (hs0 : ∀ v ∈ s0, 1 ≤ v ∧ v ≤ 2048) (hs1 : ∀ v ∈ s1, 1 ≤ v ∧ v ≤ 2048)
  {e : Encoder} {mh mv : Nat} (hg : Grid e.components mh mv) (hnc : image.colorType.numComponents = e.components.length)

/-- The lines of MCU row `y`. -/
def mcuLines (mv y : Nat) : List Nat := (List.range (8 * mv)).map fun k => k + y * 8 * mv

include hd hw hh hpf in
theorem fillMcuRow_ok {bw cap : Nat} (hbw : image.width.toNat ≤ bw) (hcap : bw * (8 * mv) ≤ cap) {y : Nat}
    (hy : (y + 1) * (8 * mv) < 2 ^ 32) (D : Nat → Bytes) :
    fillMcuRow pf image mv bw y (mkRows image.colorType.numComponents cap D) =
      .ok (mkRows image.colorType.numComponents cap fun c =>
        ((mcuLines mv y).map (lineOf image.width.toNat image.height.toNat bw P c)).flatten) := by
  unfold fillMcuRow
  have hclear : (mkRows image.colorType.numComponents cap D).map Buf.clear = mkRows image.colorType.numComponents cap fun _ => [] := by
    rw [mkRows, map_ofFn]
    apply ofFn_congr
    intro c _
    split <;> rfl
  have h := fillLines_ok hd hw hh hbw (mcuLines mv y) (cap := cap) (fun _ => []) (by
    intro c _; simp only [mcuLines, List.length_map, List.length_range, List.length_nil]; omega)
  simp only [List.nil_append] at h
  rw [hclear, ← h, mcuLines]
  have gen : ∀ (l : List Nat) (rows : Rows), (∀ k ∈ l, k < 8 * mv) →
      forFoldR l rows (fun rows k => do
        let yy ← ckUsize pf ((k + y * 8 * mv : Nat) : Int)
        fillLine image yy bw rows) =
      forFoldR (l.map fun k => k + y * 8 * mv) rows fun rows y => fillLine image y bw rows := by
    intro l
    induction l with
    | nil => intro rows _; rfl
    | cons k l ih =>
      intro rows hk
      have hk' := hk k (by simp)
      have e1 : y * 8 * mv = y * (8 * mv) := by ring
      have e2 : (y + 1) * (8 * mv) = y * (8 * mv) + 8 * mv := by ring
      simp only [forFoldR, List.map_cons]
      rw [ckUsize_ok hpf (by omega) (by omega), ok_bind]
      congr 1
      funext rows'
      exact ih rows' fun k hk2 => hk k (by simp [hk2])
  exact gen _ _ (fun k hk => List.mem_range.mp hk)

include hpf hg in
/-- An MCU, whatever the rows hold, if its blocks can be read. -/
theorem encodeMcu_blocks {rows : Rows} {E : Coefs} {q : QuantizationTable × QuantizationTable} {bw : Nat} (p : Nat × Nat)
    (hblk : ∀ i c, e.components[i]? = some c → ∀ v, v < c.verticalSamplingFactor → ∀ h, h < c.horizontalSamplingFactor →
      ∃ buf B, rows.get i = .ok buf ∧ processBlock pf op q c buf.data (p.2 * 8 * mh + h * 8) (v * 8) (mh / c.horizontalSamplingFactor)
        (mv / c.verticalSamplingFactor) bw = .ok B ∧ IsBlock E i (p.1 * c.verticalSamplingFactor + v) (p.2 * c.horizontalSamplingFactor + h) B) :
    Coder.BodyOk (scanCoder e.huffmanTables e.components 0 63 E) (mcuUnits e.components) Rep4 pf
      (fun p prev => encodeMcu pf e op q rows mh mv bw p.2 prev) p := by
  intro s pr hrep hu
  have hmh := hg.mh
  have hmv := hg.mv
  unfold encodeMcu
  dsimp only
  generalize hCdef : scanCoder e.huffmanTables e.components 0 63 E = C at hu ⊢
  refine forFold_units _ _ _ ?_ s pr hrep hu
  rintro ⟨c, i⟩ hci s pr hrep hu
  have hmem : e.components[i]? = some c := List.mem_zipIdx_iff_getElem?.mp hci
  have hcm : c ∈ e.components := List.mem_of_getElem? hmem
  have hid := hg.ok.ids i c hmem
  have hi : i < e.components.length := (List.getElem?_eq_some_iff.mp hmem).1
  have hi4 : i < 4 := by have := hg.ok.four; omega
  dsimp only at hu ⊢
  refine forFold_units _ _ _ ?_ s pr hrep hu
  intro v hv s pr hrep hu
  refine forFold_units _ _ _ ?_ s pr hrep hu
  intro h hh s pr hrep hu
  simp only [List.mem_range] at hv hh
  simp only [Coder.UnitsCan, and_true] at hu
  obtain ⟨dh0, dh⟩ := div_one_or hmh.1 (hg.h c hcm)
  obtain ⟨dv0, dv⟩ := div_one_or hmv.1 (hg.v c hcm)
  obtain ⟨buf, B, hget, hpb, hIs⟩ := hblk i c hmem v hv h hh
  have hcomp : C.comp i = i := by rw [← hCdef]; simp [scanCoder, hmem, hid]
  have hdcT : C.dcT i = (tabOf e.huffmanTables c.dcHuffmanTable).dc := by rw [← hCdef]; simp [scanCoder, hmem]
  have hacT : C.acT i = (tabOf e.huffmanTables c.acHuffmanTable).ac := by rw [← hCdef]; simp [scanCoder, hmem]
  have hss : C.ss = 0 := by rw [← hCdef]; rfl
  have hse : C.se = 63 := by rw [← hCdef]; rfl
  have hE : C.E = E := by rw [← hCdef]; rfl
  have hdcv : C.dc (i, p.1 * c.verticalSamplingFactor + v, p.2 * c.horizontalSamplingFactor + h) = B.getD 0 0 := by
    rw [hIs.2 0 (by omega)]; unfold Coder.dc; rw [hcomp, hE]
  refine ⟨s.set i (B.getD 0 0), ?_, ?_⟩
  · unfold encodeMcuBlock
    refine EmitsBits.lift_bind hget ?_
    refine EmitsBits.lift_bind (show divR mh c.horizontalSamplingFactor = .ok (mh / c.horizontalSamplingFactor) by rw [divR, if_neg dh0]) ?_
    refine EmitsBits.lift_bind (show divR mv c.verticalSamplingFactor = .ok (mv / c.verticalSamplingFactor) by rw [divR, if_neg dv0]) ?_
    refine EmitsBits.lift_bind hpb ?_
    refine EmitsBits.lift_bind (idx_eq_getD 0 (by rw [hrep.1]; exact hi4)) ?_
    refine EmitsBits.lift_bind (pairIdx_tab _ (hg.ok.dc c hcm)) ?_
    refine EmitsBits.lift_bind (pairIdx_tab _ (hg.ok.ac c hcm)) ?_
    have hwb := C.writeBlock_unit hpf hu hss hse (b := B) (by rw [hE]; dsimp only; rw [hcomp]; exact hIs)
    dsimp only at hwb
    rw [hdcT, hacT, ← hrep.2 i hi4] at hwb
    refine EmitsBits.congr (EmitsBits.bind' hwb (EmitsBits.lift_bind (b2 := []) (idx_eq_getD 0 (by rw [hIs.1]; omega))
      (EmitsBits.lift (setIdx_ok (by rw [hrep.1]; exact hi4))))) ?_
    simp [Coder.unitsBits]
  · refine ⟨by rw [List.length_set]; exact hrep.1, fun j hj => ?_⟩
    simp only [Coder.predsAfter, Coder.nextPreds, if_pos hss, upd, hdcv]
    by_cases hji : j = i
    · subst hji
      simp [List.getD, hrep.1, hj]
    · rw [if_neg hji, ← hrep.2 j hj]
      simp [List.getD, List.getElem?_set, Ne.symm hji]

include hpf hop hl0 hl1 hs0 hs1 hg hnc in
theorem encodeMcu_ok {bw cap A : Nat} (hbw : bw = A * 8 * mh) (hsz : bw * (8 * mv) < 2 ^ 32) (p : Nat × Nat) (hx : p.2 < A) :
    Coder.BodyOk (scanCoder e.huffmanTables e.components 0 63 (coefsOf F s0 s1 image.width.toNat image.height.toNat P mh mv e.components))
      (mcuUnits e.components) Rep4 pf
      (fun p prev => encodeMcu pf e op (mkQ s0, mkQ s1)
        (mkRows image.colorType.numComponents cap fun c =>
          ((mcuLines mv p.1).map (lineOf image.width.toNat image.height.toNat bw P c)).flatten) mh mv bw p.2 prev) p := by
  refine encodeMcu_blocks hpf hg p ?_
  intro i c hmem v hv h hh
  have hmh := hg.mh
  have hmv := hg.mv
  have hcm : c ∈ e.components := List.mem_of_getElem? hmem
  have hi : i < e.components.length := (List.getElem?_eq_some_iff.mp hmem).1
  -- the block
  have hblk : processBlock pf op (mkQ s0, mkQ s1) c
      (((mcuLines mv p.1).map (lineOf image.width.toNat image.height.toNat bw P i)).flatten)
      (p.2 * 8 * mh + h * 8) (v * 8) (mh / c.horizontalSamplingFactor) (mv / c.verticalSamplingFactor) bw =
      .ok (blockAt F s0 s1 image.width.toNat image.height.toNat P mh mv i c (p.1 * c.verticalSamplingFactor + v)
        (p.2 * c.horizontalSamplingFactor + h)) := by
    have hX : p.2 * 8 * mh + 8 * mh ≤ bw := by
      rw [hbw]
      calc p.2 * 8 * mh + 8 * mh = (p.2 + 1) * (8 * mh) := by ring
        _ ≤ A * (8 * mh) := Nat.mul_le_mul_right _ hx
        _ = _ := by ring
    have hxin : p.2 * 8 * mh + h * 8 + 7 * (mh / c.horizontalSamplingFactor) < bw := by
      rcases hg.h c hcm with h1 | h1 <;> rw [h1] at hh ⊢
      · rw [Nat.div_one]; omega
      · rw [Nat.div_self (by omega)]; omega
    have hyin : v * 8 + 7 * (mv / c.verticalSamplingFactor) < 8 * mv := by
      rcases hg.v c hcm with h1 | h1 <;> rw [h1] at hv ⊢
      · rw [Nat.div_one]; omega
      · rw [Nat.div_self (by omega)]; omega
    have hll : (mcuLines mv p.1).length = 8 * mv := by simp [mcuLines]
    have hw2 : (2 : Nat) ^ 32 ≤ 2 ^ pf.wordBits := by
      apply Nat.pow_le_pow_right (by omega)
      rcases hpf with h | h <;> simp [Platform.wordBits, h]
    have hgb := getBlock_ok pf (w := image.width.toNat) (h := image.height.toNat) (bw := bw) P i (mcuLines mv p.1)
      (p.2 * 8 * mh + h * 8) (v * 8) (mh / c.horizontalSamplingFactor) (mv / c.verticalSamplingFactor) hxin
      (by rw [hll]; exact hyin) (by rw [hll]; omega)
    have hsm : ((List.range 64).map fun k =>
        ((Spec.sampleAt image.width.toNat image.height.toNat P i ((mcuLines mv p.1).getD (v * 8 + k / 8 * (mv / c.verticalSamplingFactor)) 0)
          (p.2 * 8 * mh + h * 8 + k % 8 * (mh / c.horizontalSamplingFactor))).toNat : Int) - 128) =
        Spec.blockSamples image.width.toNat image.height.toNat P i (mv / c.verticalSamplingFactor) (mh / c.horizontalSamplingFactor)
          (p.1 * c.verticalSamplingFactor + v) (p.2 * c.horizontalSamplingFactor + h) := by
      unfold Spec.blockSamples
      apply List.map_congr_left
      intro k hk
      simp only [List.mem_range] at hk
      have hlt : v * 8 + k / 8 * (mv / c.verticalSamplingFactor) < 8 * mv := by
        have : k / 8 * (mv / c.verticalSamplingFactor) ≤ 7 * (mv / c.verticalSamplingFactor) := Nat.mul_le_mul_right _ (by omega)
        omega
      have e1 : (mcuLines mv p.1).getD (v * 8 + k / 8 * (mv / c.verticalSamplingFactor)) 0 =
          v * 8 + k / 8 * (mv / c.verticalSamplingFactor) + p.1 * 8 * mv := by
        simp [mcuLines, List.getD, hlt]
      have e2 : v * 8 + k / 8 * (mv / c.verticalSamplingFactor) + p.1 * 8 * mv =
          (8 * (p.1 * c.verticalSamplingFactor + v) + k / 8) * (mv / c.verticalSamplingFactor) := by
        rcases hg.v c hcm with h1 | h1 <;> rw [h1] at hv ⊢
        · rw [Nat.div_one, show v = 0 by omega]; ring
        · rw [Nat.div_self (by omega)]; ring
      have e3 : p.2 * 8 * mh + h * 8 + k % 8 * (mh / c.horizontalSamplingFactor) =
          (8 * (p.2 * c.horizontalSamplingFactor + h) + k % 8) * (mh / c.horizontalSamplingFactor) := by
        rcases hg.h c hcm with h1 | h1 <;> rw [h1] at hh ⊢
        · rw [Nat.div_one, show h = 0 by omega]; ring
        · rw [Nat.div_self (by omega)]; ring
      rw [e1, e2, e3]
    rw [hsm] at hgb
    rw [processBlock_ok pf hop hl0 hl1 hs0 hs1 (hg.ok.q c hcm) hgb (blockSamples_length _ _ _ _ _ _ _ _)
      (blockSamples_shifted _ _ _ _ _ _ _ _)]
    rfl
  exact ⟨_, _, mkRows_get _ (by omega) (nc_le _), hblk, isBlock_coefsOf F s0 s1 _ _ P mh mv hmem _ _⟩

end

section
variable {image : ImageBuffer} {P : Nat → Nat → Nat → UInt8} (hd : Delivers image P)
  (hw : image.width.toNat ≠ 0) (hh : image.height.toNat ≠ 0)
  {pf : Platform} (hpf : pf.Valid) {op : Operations} {F : List Int → List Int} (hop : OpOk op F) {s0 s1 : List Nat}
  (hl0 : s0.length = 64) (hl1 : s1.length = 64) (hs0 : ∀ v ∈ s0, 1 ≤ v ∧ v ≤ 2048) (hs1 : ∀ v ∈ s1, 1 ≤ v ∧ v ≤ 2048)
  {e : Encoder} {mh mv : Nat} (hg : Grid e.components mh mv) (hnc : image.colorType.numComponents = e.components.length)
  (hri : e.interval < 65536)
include hd hw hh hpf hop hl0 hl1 hs0 hs1 hg hnc hri

/-- The rows of MCUs `l`. -/
theorem rows_emits {bw cap A : Nat} (hbw : bw = A * 8 * mh) (hwb : image.width.toNat ≤ bw) (hsz : bw * (8 * mv) < 2 ^ 32)
    (hcap : bw * (8 * mv) ≤ cap) (l : List Nat) (hl : ∀ y ∈ l, (y + 1) * (8 * mv) < 2 ^ 32)
    (C : Coder) (hC : C = scanCoder e.huffmanTables e.components 0 63 (coefsOf F s0 s1 image.width.toNat image.height.toNat P mh mv
      e.components)) {r g : Nat} {p : Nat → Int} {pend : Bits} {st : BitState} {a : Rst × List Int} (D : Nat → Bytes)
    (hls : Coder.LoopSt Rep4 pf e.interval r g p pend st a)
    (hok : C.FutureOk (mcuUnits e.components) pf.checked e.interval g p (l.flatMap fun y => (List.range A).map fun x => (y, x))) :
    ∃ out D' a' st' r' g' p' pend',
      Emits (WM.forFold l (mkRows image.colorType.numComponents cap D, a) fun st blockY => do
        let rows ← WM.lift (fillMcuRow pf image mv bw blockY st.1)
        let s ← scanLoop pf e.interval (fun _ => [0, 0, 0, 0])
          (fun blockX prevDc => encodeMcu pf e op (mkQ s0, mkQ s1) rows mh mv bw blockX prevDc) (List.range A) st.2
        WM.pure (rows, s)) st out (mkRows image.colorType.numComponents cap D', a') st' ∧
      Coder.LoopSt Rep4 pf e.interval r' g' p' pend' st' a' ∧
      C.future (mcuUnits e.components) e.interval r g p pend (l.flatMap fun y => (List.range A).map fun x => (y, x)) =
        out ++ C.future (mcuUnits e.components) e.interval r' g' p' pend' [] := by
  induction l generalizing r g p pend st a D with
  | nil => exact ⟨[], D, a, st, r, g, p, pend, Emits.pure _ st, hls, rfl⟩
  | cons y l ih =>
    rw [List.flatMap_cons] at hok ⊢
    have hb : ∀ q ∈ (List.range A).map fun x => (y, x), Coder.BodyOk C (mcuUnits e.components) Rep4 pf
        (fun q prev => encodeMcu pf e op (mkQ s0, mkQ s1)
          (mkRows image.colorType.numComponents cap fun c =>
            ((mcuLines mv y).map (lineOf image.width.toNat image.height.toNat bw P c)).flatten) mh mv bw q.2 prev) q := by
      intro q hq
      simp only [List.mem_map, List.mem_range] at hq
      obtain ⟨x, hx, rfl⟩ := hq
      have := encodeMcu_ok (image := image) (P := P) hpf hop hl0 hl1 hs0 hs1 hg hnc (cap := cap) hbw hsz (y, x) hx
      rw [hC]
      intro s pr h1 h2
      exact this s pr h1 h2
    obtain ⟨out1, a1, st1, r1, g1, p1, pend1, e1, e2, e3, e4⟩ :=
      Coder.scanLoop_emits hpf hri (fun _ _ _ => rep4_zero) _ hb _ hls hok
    obtain ⟨out2, D2, a2, st2, r2, g2, p2, pend2, f1, f2, f3⟩ := ih (fun z hz => hl z (by simp [hz])) _ e2 e3
    refine ⟨out1 ++ out2, D2, a2, st2, r2, g2, p2, pend2, ?_, f2, ?_⟩
    · refine Emits.bind (a := (mkRows image.colorType.numComponents cap fun c =>
            ((mcuLines mv y).map (lineOf image.width.toNat image.height.toNat bw P c)).flatten, a1)) ?_ f1
      refine Emits.lift_bind (fillMcuRow_ok hd hw hh hpf hwb hcap (hl y (by simp)) D) ?_
      rw [scanLoop_map] at e1
      exact Emits.congr (Emits.bind' e1 (Emits.pure _ _)) (List.append_nil _)
    · rw [e4, f3, List.append_assoc]

/-- The interleaved scan and its header. -/
theorem interleavedScan_emits
    (hok : ∀ g ∈ intervals e.interval (raster (Spec.ceilDiv image.height.toNat (8 * mv)) (Spec.ceilDiv image.width.toNat (8 * mh))),
      (scanCoder e.huffmanTables e.components 0 63 (coefsOf F s0 s1 image.width.toNat image.height.toNat P mh mv
        e.components)).UnitsCan pf.checked (g.flatMap (mcuUnits e.components)) fun _ => 0)
    {hdr : Bytes} (hhdr : Emits (e.writeFrameHeader pf image (mkQ s0, mkQ s1)) (BitState.init pf) hdr () (BitState.init pf)) :
    Emits (e.encodeInterleaved pf op image (mkQ s0, mkQ s1)) (BitState.init pf)
      (hdr ++ scanPart e.huffmanTables e.components 0 63
        (coefsOf F s0 s1 image.width.toNat image.height.toNat P mh mv e.components) e.interval
        ((raster (Spec.ceilDiv image.height.toNat (8 * mv)) (Spec.ceilDiv image.width.toNat (8 * mh))).map (mcuUnits e.components)))
      () (BitState.init pf) := by
  have hwl : image.width.toNat < 65536 := image.width.toNat_lt
  have hhl : image.height.toNat < 65536 := image.height.toNat_lt
  have hmh := hg.mh
  have hmv := hg.mv
  obtain ⟨wa, wb, wc⟩ := ceil_mul_lt hg.mh.1 hg.mh.2 (show 1 ≤ image.width.toNat by omega)
  obtain ⟨ha, hb, hc⟩ := ceil_mul_lt hg.mv.1 hg.mv.2 (show 1 ≤ image.height.toNat by omega)
  unfold Encoder.encodeInterleaved scanPart
  refine Emits.bind' hhdr ?_
  have hsh := writeScanHeader_emits pf e.components hg.ok.four (fun c hc => ⟨by have := hg.ok.dc c hc; omega,
    by have := hg.ok.ac c hc; omega⟩) none (BitState.init pf)
  refine Emits.bind' hsh ?_
  rw [hg.max]
  dsimp only
  have eW : (image.width.toNat + 8 * mh - 1) / (8 * mh) = _root_.Spec.ceilDiv image.width.toNat (8 * mh) := rfl
  have eH : (image.height.toNat + 8 * mv - 1) / (8 * mv) = _root_.Spec.ceilDiv image.height.toNat (8 * mv) := rfl
  refine Emits.lift_bind (ceilDiv_eq (by omega)) ?_
  rw [eW]
  refine Emits.lift_bind (ceilDiv_eq (by omega)) ?_
  rw [eH]
  generalize hA : _root_.Spec.ceilDiv image.width.toNat (8 * mh) = A at *
  generalize hB : _root_.Spec.ceilDiv image.height.toNat (8 * mv) = B at *
  have eA : A * (8 * mh) = A * 8 * mh := by ring
  rw [eA] at wa wb
  have hbs : A * 8 * mh * 8 * mv = A * 8 * mh * (8 * mv) := by ring
  have hsz : A * 8 * mh * (8 * mv) ≤ 65567 * 32 := Nat.mul_le_mul (by omega) (by omega)
  have hw2 : (2 : Nat) ^ 32 ≤ 2 ^ pf.wordBits := by
    apply Nat.pow_le_pow_right (by omega)
    rcases hpf with h | h <;> simp [Platform.wordBits, h]
  have hw3 : (2 : Nat) ^ 31 ≤ 2 ^ (pf.wordBits - 1) := by
    apply Nat.pow_le_pow_right (by omega)
    rcases hpf with h | h <;> simp [Platform.wordBits, h]
  refine Emits.lift_bind (ckUsize_of_lt (by omega)) ?_
  refine Emits.lift_bind (ckUsize_of_lt (n := A * 8 * mh * 8 * mv) (by omega)) ?_
  refine Emits.lift_bind (initRows_ok pf hg.nc (by omega)) ?_
  rw [← hnc]
  generalize hC : scanCoder e.huffmanTables e.components 0 63 (coefsOf F s0 s1 image.width.toNat image.height.toNat P mh mv
        e.components) = C at hok ⊢
  have hl : Coder.LoopSt Rep4 pf e.interval 0 e.interval (fun _ => 0) [] (BitState.init pf) ((⟨0, e.interval⟩ : Rst), [0, 0, 0, 0]) :=
    ⟨rfl, rfl, Nat.le_refl _, rep4_zero, BitRel.init pf⟩
  obtain ⟨out, D', a', st', r', g', p', pend', e1, e2, e3⟩ := rows_emits hd hw hh hpf hop hl0 hl1 hs0 hs1 hg hnc hri (A := A)
    (cap := A * 8 * mh * 8 * mv) rfl wa (by omega) (by omega) (List.range B) (by
      intro y hy
      simp only [List.mem_range] at hy
      have : (y + 1) * (8 * mv) ≤ B * (8 * mv) := Nat.mul_le_mul_right _ hy
      omega) C hC.symm (fun _ => []) hl (C.futureOk_start e.interval _ hok)
  have hfut := e3
  rw [show ((List.range B).flatMap fun y => (List.range A).map fun x => (y, x)) = raster B A from rfl, Coder.future_start,
    Coder.scanBytes_map] at hfut
  have hfin := finalize_emits_pack pf hpf st' pend' e2.bits
  refine Emits.congr (Emits.bind' e1 hfin) ?_
  rw [hfut]
  congr 1
  unfold Coder.future Coder.tailBytes
  split <;> simp [Coder.unitsBits]
end

end Jpeg
