import Verif.Proofs.OptTables
/-! The AC symbols counted for the optimised tables, in the vocabulary of the specification. -/
namespace Jpeg
open _root_.Spec

theorem acToks_symbols (l : List Int) (z : Nat) : (acToks l z).map Tok.sym = _root_.Spec.acSymbols l z := by
  induction l generalizing z with
  | nil => cases z <;> rfl
  | cons v l ih =>
    rw [acToks, _root_.Spec.acSymbols]
    split
    · exact ih _
    · rw [List.map_append, List.map_replicate, List.map_cons, ih, ← catOf_eq]
      rfl

theorem acBands_eq (e : Encoder) : Spec.acBands e = (acRanges e.progressiveScans).map fun r => (r.1, r.2 - 1) := by
  unfold Spec.acBands
  show (match e.progressiveScans with | none => _ | some n => _) = _
  cases e.progressiveScans with
  | none => rfl
  | some n =>
    simp only [acRanges, bandList, List.map_map]
    refine List.map_congr_left fun i hi => ?_
    rw [List.mem_range] at hi
    simp only [band, Function.comp]
    by_cases h : i = n.toNat - 1 - 1
    · rw [if_pos (by omega), if_pos h, Nat.max_comm]
    · rw [if_neg (by omega), if_neg h, Nat.max_comm]

/-- The coefficients of a block as a list. -/
def listOf (g : Nat → Int) : List Int := (List.range 64).map g

theorem listOf_band (g : Nat → Int) {r : Nat × Nat} (h1 : 1 ≤ r.1) (h2 : r.1 ≤ r.2) (h3 : r.2 ≤ 64) : ((listOf g).drop r.1).take (r.2 - r.1) = bandOf g r.1 (r.2 - 1) := by
  unfold listOf bandOf
  have e1 : max r.1 1 = r.1 := by omega
  have e2 : r.2 - 1 + 1 - r.1 = r.2 - r.1 := by omega
  rw [e1, e2]
  apply List.ext_getElem
  · simp; omega
  · intro k k1 k2
    simp

theorem acCounted_acAll {e : Encoder} (hp : ∀ n, e.progressiveScans = some n → 2 ≤ n.toNat ∧ n.toNat ≤ 64) (f : Frame) (coefs : Coefs) (t : Nat) :
    Spec.acCounted e f coefs t = f.comps.zipIdx.flatMap fun ci => if ci.1.tq = t then
      acAll e.progressiveScans ((raster (f.blocksHigh ci.1) (f.blocksWide ci.1)).map fun p => listOf (coefs ci.2 p.1 p.2)) else [] := by
  unfold Spec.acCounted
  refine List.flatMap_congr fun ci _ => ?_
  split
  · rw [acBands_eq, List.flatMap_map, acAll]
    refine List.flatMap_congr fun r hr => ?_
    obtain ⟨r1, r2, r3⟩ := (acRanges_ok hp).1 r hr
    rw [List.flatMap_map]
    refine List.flatMap_congr fun p _ => ?_
    rw [acSyms, acToks_symbols, listOf_band _ r1 r2 r3]
  · rfl

theorem filter_zipIdx {α β : Type} (l : List α) (q : α → Bool) (n : α → β) : ∀ k, ((l.zipIdx k).filter fun ci => q ci.1).map (fun ci => n ci.1) = (l.filter q).map n := by
  induction l with
  | nil => intros; rfl
  | cons a l ih =>
    intro k
    rw [List.zipIdx_cons, List.filter_cons, List.filter_cons]
    dsimp only
    cases q a
    · simpa using ih (k + 1)
    · simpa using ih (k + 1)

/-- A block has at most 63 AC symbols. -/
theorem acCounted_length {e : Encoder} (hp : ∀ n, e.progressiveScans = some n → 2 ≤ n.toNat ∧ n.toNat ≤ 64) (f : Frame) (coefs : Coefs) (t : Nat) :
    (Spec.acCounted e f coefs t).length ≤ 63 * Spec.codedBlocks f t := by
  rw [acCounted_acAll hp]
  have := flatMap_filter_sum (l := f.comps.zipIdx) (q := fun ci => ci.1.tq == t) (m := 63) (n := fun ci => Spec.blockCount f ci.1)
    (g := fun ci => if ci.1.tq = t then
      acAll e.progressiveScans ((raster (f.blocksHigh ci.1) (f.blocksWide ci.1)).map fun p => listOf (coefs ci.2 p.1 p.2)) else [])
    (by
      intro ci _ hq
      rw [if_pos (by simpa using hq)]
      refine le_trans (acAll_length hp _) (le_of_eq ?_)
      rw [List.length_map, raster_length, Spec.blockCount])
    (by
      intro ci _ hq
      exact if_neg (by simpa using hq))
  refine le_trans this (le_of_eq ?_)
  rw [filter_zipIdx f.comps (fun c => c.tq == t) (Spec.blockCount f) 0]
  rfl

/-- A block has at most one AC symbol for each nonzero AC coefficient and each scan, and three for long runs of zeros. -/
theorem acCounted_length_nz {e : Encoder} (hp : ∀ n, e.progressiveScans = some n → 2 ≤ n.toNat ∧ n.toNat ≤ 64) (f : Frame) (coefs : Coefs) (t : Nat) :
    (Spec.acCounted e f coefs t).length ≤ Spec.nonzeroAc f coefs t + (3 + Spec.acScanCount e) * Spec.codedBlocks f t := by
  rw [acCounted_acAll hp]
  have := flatMap_filter_sum' (l := f.comps.zipIdx) (q := fun ci => ci.1.tq == t)
    (n := fun ci => ((raster (f.blocksHigh ci.1) (f.blocksWide ci.1)).map fun p => (List.range 63).countP fun k => coefs ci.2 p.1 p.2 (k + 1) ≠ 0).sum +
      (3 + Spec.acScanCount e) * Spec.blockCount f ci.1)
    (g := fun ci => if ci.1.tq = t then
      acAll e.progressiveScans ((raster (f.blocksHigh ci.1) (f.blocksWide ci.1)).map fun p => listOf (coefs ci.2 p.1 p.2)) else [])
    (by
      intro ci _ hq
      rw [if_pos (by simpa using hq)]
      refine le_trans (acAll_length_nz hp _) (le_of_eq ?_)
      have hsc : bandCount e.progressiveScans = Spec.acScanCount e := rfl
      rw [List.length_map, raster_length, Spec.blockCount, List.map_map, hsc]
      refine congrArg (· + _) (congrArg List.sum (List.map_congr_left fun p _ => ?_))
      simp only [Function.comp, listOf]
      have : (List.range 64).map (coefs ci.2 p.1 p.2) = coefs ci.2 p.1 p.2 0 :: (List.range 63).map fun k => coefs ci.2 p.1 p.2 (k + 1) := by
        rw [List.range_succ_eq_map, List.map_cons, List.map_map]
        rfl
      rw [this, List.drop_one, List.tail_cons, nz, List.countP_map]
      rfl)
    (by
      intro ci _ hq
      exact if_neg (by simpa using hq))
  refine le_trans this (le_of_eq ?_)
  rw [List.sum_map_add, List.sum_map_mul_left, filter_zipIdx f.comps (fun c => c.tq == t) (Spec.blockCount f) 0]
  rfl

/-- Only the coefficients of the blocks matter. -/
theorem acCounted_congr {e : Encoder} (hp : ∀ n, e.progressiveScans = some n → 2 ≤ n.toNat ∧ n.toNat ≤ 64) (f : Frame) {c1 c2 : Coefs}
    (h : ∀ c fc, f.comps[c]? = some fc → ∀ y x k, y < f.blocksHigh fc → x < f.blocksWide fc → k < 64 → c1 c y x k = c2 c y x k) (t : Nat) :
    Spec.acCounted e f c1 t = Spec.acCounted e f c2 t := by
  rw [acCounted_acAll hp, acCounted_acAll hp]
  refine List.flatMap_congr ?_
  rintro ⟨fc, c⟩ hci
  have hc := List.mem_zipIdx_iff_getElem?.mp hci
  dsimp only
  congr 2
  refine List.map_congr_left ?_
  rintro ⟨y, x⟩ hp
  rw [mem_raster] at hp
  exact List.map_congr_left fun k hk => h c fc hc y x k hp.1 hp.2 (List.mem_range.mp hk)

/-- If every AC coefficient is zero then the only symbol is the end of the band, once per scan and block. -/
theorem acCounted_zero {e : Encoder} (hp : ∀ n, e.progressiveScans = some n → 2 ≤ n.toNat ∧ n.toNat ≤ 64) (f : Frame) {coefs : Coefs}
    (h : ∀ c fc, f.comps[c]? = some fc → ∀ y x k, y < f.blocksHigh fc → x < f.blocksWide fc → 1 ≤ k → k < 64 → coefs c y x k = 0) (t : Nat) :
    (∀ s ∈ Spec.acCounted e f coefs t, s = 0) ∧ (Spec.acCounted e f coefs t).length ≤ Spec.acScanCount e * Spec.codedBlocks f t := by
  have hb : ∀ b ∈ Spec.acBands e, b.2 ≤ 63 := by
    intro b hb
    rw [acBands_eq] at hb
    obtain ⟨r, hr, rfl⟩ := List.mem_map.mp hb
    have := (acRanges_ok hp).1 r hr
    dsimp only
    omega
  have hlen : (Spec.acBands e).length = Spec.acScanCount e := by
    unfold Spec.acBands Spec.acScanCount
    cases e.getProgressiveScans <;> simp
  have hz : ∀ l : List Int, (∀ v ∈ l, v = 0) → ∀ run, _root_.Spec.acSymbols l run = if l.length + run = 0 then [] else [0] := by
    intro l
    induction l with
    | nil => intro _ run; simp [_root_.Spec.acSymbols]
    | cons v l ih =>
      intro hl run
      rw [_root_.Spec.acSymbols, if_pos (hl v (by simp)), ih (fun w hw => hl w (by simp [hw]))]
      rw [if_neg (by omega), if_neg (by simp)]
  have hsym : ∀ c fc, f.comps[c]? = some fc → ∀ b ∈ Spec.acBands e, ∀ p ∈ raster (f.blocksHigh fc) (f.blocksWide fc),
      _root_.Spec.acSymbols (bandOf (coefs c p.1 p.2) b.1 b.2) 0 = [] ∨ _root_.Spec.acSymbols (bandOf (coefs c p.1 p.2) b.1 b.2) 0 = [0] := by
    intro c fc hc b hbm p hp
    rw [hz]
    · split
      · exact Or.inl rfl
      · exact Or.inr rfl
    · intro v hv
      simp only [bandOf, List.mem_map, List.mem_range] at hv
      obtain ⟨i, hi, rfl⟩ := hv
      have hm := mem_raster.mp hp
      have := hb b hbm
      exact h c fc hc p.1 p.2 _ hm.1 hm.2 (by omega) (by omega)
  constructor
  · intro s hs
    unfold Spec.acCounted at hs
    obtain ⟨ci, hci, hs⟩ := List.mem_flatMap.mp hs
    split at hs
    · obtain ⟨b, hbm, hs⟩ := List.mem_flatMap.mp hs
      obtain ⟨p, hp, hs⟩ := List.mem_flatMap.mp hs
      rcases hsym ci.2 ci.1 (List.mem_zipIdx_iff_getElem?.mp hci) b hbm p hp with h | h
      · rw [h] at hs; simp at hs
      · rw [h] at hs; simpa using hs
    · simp at hs
  · have := flatMap_filter_sum (l := f.comps.zipIdx) (q := fun ci => ci.1.tq == t) (m := Spec.acScanCount e) (n := fun ci => Spec.blockCount f ci.1)
      (g := fun ci => if ci.1.tq = t then (Spec.acBands e).flatMap fun b =>
        (raster (f.blocksHigh ci.1) (f.blocksWide ci.1)).flatMap fun p => _root_.Spec.acSymbols (bandOf (coefs ci.2 p.1 p.2) b.1 b.2) 0 else [])
      (by
        intro ci hci hq
        rw [if_pos (by simpa using hq), ← hlen]
        refine flatMap_length_le _ _ _ fun b hbm => ?_
        refine le_trans (flatMap_length_le _ _ 1 fun p hp => ?_) ?_
        · rcases hsym ci.2 ci.1 (List.mem_zipIdx_iff_getElem?.mp hci) b hbm p hp with h | h <;> rw [h] <;> simp
        · rw [Nat.mul_one, raster_length, Spec.blockCount])
      (by
        intro ci _ hq
        exact if_neg (by simpa using hq))
    refine le_trans this (le_of_eq ?_)
    rw [filter_zipIdx f.comps (fun c => c.tq == t) (Spec.blockCount f) 0]
    rfl

/-- The symbols counted for an AC table, for blocks of any coefficients. -/
theorem acCounted_of {e : Encoder} (hwf : e.Wf) {ct : JpegColorType} {iw jh : UInt16} {E : Coefs} {blocks : Blocks} (hE : CoefBounds E)
    (hbl : AllBlocksOf E (maxSamplingSize (initComponents e.samplingFactor ct)).1 (maxSamplingSize (initComponents e.samplingFactor ct)).2
      iw.toNat jh.toNat (initComponents e.samplingFactor ct) blocks) (hw : iw ≠ 0) (hh : jh ≠ 0) (t : Nat) :
    Spec.acCounted e (mkFrame e.mode.isProg iw jh (initComponents e.samplingFactor ct)) E t =
      (initComponents e.samplingFactor ct).zipIdx.flatMap (acOf e.progressiveScans t blocks) := by
  obtain ⟨hg, hnc⟩ := initComponents_grid e.samplingFactor ct
  have hbg := blocksOf_good hE hbl hw hh
  rw [acCounted_acAll hwf.scans]
  have h1 : (mkFrame e.mode.isProg iw jh (initComponents e.samplingFactor ct)).comps = (initComponents e.samplingFactor ct).map Component.frame := rfl
  rw [h1, List.zipIdx_map, List.flatMap_map]
  refine List.flatMap_congr ?_
  rintro ⟨c, i⟩ hci
  have hci' := List.mem_zipIdx_iff_getElem?.mp hci
  have hcm : c ∈ initComponents e.samplingFactor ct := List.mem_of_getElem? hci'
  obtain ⟨bs, h2, _, _, _, h5⟩ := hbg _ hci
  unfold acOf
  show (if c.quantizationTable = t then _ else _) = _
  rw [(init_tables e.samplingFactor ct c hcm).2]
  split
  · rw [List.getD_eq_getElem?_getD, h2, Option.getD_some, h5]
    have e1 := blocksWide_eq hg e.mode.isProg iw jh hcm
    have e2 := blocksHigh_eq hg e.mode.isProg iw jh hcm
    dsimp only [Prod.map, id] at e1 e2 ⊢
    rw [e1, e2]
    refine congrArg _ (List.map_congr_left fun p _ => ?_)
    have hb := canon_block E i p
    apply List.ext_getElem
    · rw [hb.1, listOf, List.length_map, List.length_range]
    · intro k k1 k2
      have := hb.2 k (by rw [hb.1] at k2; exact k2)
      rw [List.getD_eq_getElem?_getD, List.getElem?_eq_getElem k2, Option.getD_some] at this
      rw [this]
      simp only [listOf, List.getElem_map, List.getElem_range]
  · rfl

section
variable {op : Operations} {F : List Int → List Int} (hop : OpOk op F) {e : Encoder} (hwf : e.Wf) {image : ImageBuffer} (P : Nat → Nat → Nat → UInt8) (hw : image.width ≠ 0) (hh : image.height ≠ 0)
include hop hwf hw hh

/-- The symbols counted for an AC table. -/
theorem acCounted_eq (t : Nat) :
    Spec.acCounted e (mkFrame e.mode.isProg image.width image.height (initComponents e.samplingFactor image.colorType)) (e.coefs F image P) t =
      (initComponents e.samplingFactor image.colorType).zipIdx.flatMap (acOf e.progressiveScans t (e.blocks F image P)) :=
  acCounted_of hwf (coefs_bounds hop P) (allBlocks_of F _ _ _ _ P _ _ _) hw hh t

end

end Jpeg
