import Verif.Proofs.Image
import Verif.Proofs.Parse
import Verif.Props.Api
/-! `encode_blocks`: all quantised blocks of an image. -/
namespace Jpeg
open Jpeg.Spec

/-- Components whose sampling factors are 1 or the maximum. -/
structure Grid (cs : List Component) (mh mv : Nat) : Prop where
  ok : CompsOk cs
  max : maxSamplingSize cs = (mh, mv)
  hmax : (cs.map (·.horizontalSamplingFactor)).foldl Nat.max 0 = mh
  vmax : (cs.map (·.verticalSamplingFactor)).foldl Nat.max 0 = mv
  h : ∀ c ∈ cs, c.horizontalSamplingFactor = 1 ∨ c.horizontalSamplingFactor = mh
  v : ∀ c ∈ cs, c.verticalSamplingFactor = 1 ∨ c.verticalSamplingFactor = mv
  mh : 1 ≤ mh ∧ mh ≤ 4
  mv : 1 ≤ mv ∧ mv ≤ 4
  nc : cs.length = 1 ∨ cs.length = 3 ∨ cs.length = 4

/-- The number of blocks in a line or column of a component with scale `s`. -/
def nblk (w s : Nat) : Nat := _root_.Spec.ceilDiv (_root_.Spec.ceilDiv w 8) s

/-- A block of component `i`. -/
def blockAt (F : List Int → List Int) (s0 s1 : List Nat) (w h : Nat) (P : Nat → Nat → Nat → UInt8) (mh mv i : Nat) (c : Component)
    (by_ bx : Nat) : List Int :=
  coefBlock F (if c.quantizationTable = 0 then s0 else s1)
    (blockSamples w h P i (mv / c.verticalSamplingFactor) (mh / c.horizontalSamplingFactor) by_ bx)

theorem blockAt_length (F : List Int → List Int) (s0 s1 : List Nat) (w h : Nat) (P : Nat → Nat → Nat → UInt8) (mh mv i : Nat)
    (c : Component) (y x : Nat) : (blockAt F s0 s1 w h P mh mv i c y x).length = 64 := coefBlock_length _ _ _

theorem blockSamples_length (w h : Nat) (P : Nat → Nat → Nat → UInt8) (c sy sx y x : Nat) : (blockSamples w h P c sy sx y x).length = 64 := by
  simp [blockSamples]

theorem blockSamples_shifted (w h : Nat) (P : Nat → Nat → Nat → UInt8) (c sy sx y x : Nat) : Shifted (blockSamples w h P c sy sx y x) :=
  shifted_samples w h P c (fun i => (8 * y + i / 8) * sy) (fun i => (8 * x + i % 8) * sx)

theorem mapR_raster {β : Type} (rows cols : Nat) (f : Nat → Nat → R β) (g : Nat → Nat → β)
    (h : ∀ y, y < rows → ∀ x, x < cols → f y x = .ok (g y x)) :
    mapR (List.range rows) (fun y => mapR (List.range cols) fun x => f y x) =
      .ok ((List.range rows).map fun y => (List.range cols).map fun x => g y x) := by
  apply mapR_ok
  intro y hy
  apply mapR_ok
  intro x hx
  exact h y (List.mem_range.mp hy) x (List.mem_range.mp hx)

theorem raster_map {β : Type} (rows cols : Nat) (g : Nat → Nat → β) :
    ((List.range rows).map fun y => (List.range cols).map fun x => g y x).flatten = (_root_.Spec.raster rows cols).map fun p => g p.1 p.2 := by
  simp [_root_.Spec.raster, List.map_flatMap, List.flatMap_def, Function.comp_def]

theorem div_one_or {m k : Nat} (hk : 1 ≤ m) (h : k = 1 ∨ k = m) : k ≠ 0 ∧ (m / k = m ∨ m / k = 1) := by
  rcases h with rfl | rfl
  · simp
  · exact ⟨by omega, Or.inr (Nat.div_self (by omega))⟩

/-- A block lies within the lines that have been read. -/
theorem block_inside {w m s x : Nat} (hm : 1 ≤ m) (hm4 : m ≤ 4) (hs : s = m ∨ s = 1) (hx : x < nblk w s) :
    x * 8 * s + 7 * s < _root_.Spec.ceilDiv w (8 * m) * (8 * m) := by
  unfold nblk _root_.Spec.ceilDiv at *
  rcases hs with rfl | rfl
  · rcases (show s = 1 ∨ s = 2 ∨ s = 3 ∨ s = 4 by omega) with rfl | rfl | rfl | rfl <;> omega
  · rcases (show m = 1 ∨ m = 2 ∨ m = 3 ∨ m = 4 by omega) with rfl | rfl | rfl | rfl <;> omega

theorem ceil_mul_lt {w m : Nat} (hm : 1 ≤ m) (hm4 : m ≤ 4) (hw : 1 ≤ w) :
    w ≤ _root_.Spec.ceilDiv w (8 * m) * (8 * m) ∧ _root_.Spec.ceilDiv w (8 * m) * (8 * m) ≤ w + 31 ∧ 1 ≤ _root_.Spec.ceilDiv w (8 * m) := by
  unfold _root_.Spec.ceilDiv
  rcases (show m = 1 ∨ m = 2 ∨ m = 3 ∨ m = 4 by omega) with rfl | rfl | rfl | rfl <;> omega

theorem nblk_pos {w s : Nat} (hw : 1 ≤ w) (hs : 1 ≤ s) : 1 ≤ nblk w s := by
  unfold nblk _root_.Spec.ceilDiv
  have : 1 ≤ (w + 8 - 1) / 8 := by omega
  exact (Nat.le_div_iff_mul_le (by omega)).mpr (by omega)

theorem initRows_ok (pf : Platform) {nc size : Nat} (hn : nc = 1 ∨ nc = 3 ∨ nc = 4) (hs : size < 2 ^ (pf.wordBits - 1)) :
    initRows pf nc size = .ok (mkRows nc size fun _ => []) := by
  unfold initRows withCapacity
  rw [if_pos (by omega), ok_bind]
  rcases hn with rfl | rfl | rfl <;> rfl

/-- The image fits: as many blocks of 128 bytes as one component can have can be allocated. -/
def Fits (pf : Platform) (mh mv w h : Nat) : Prop :=
  _root_.Spec.ceilDiv w (8 * mh) * (8 * mh) * (_root_.Spec.ceilDiv h (8 * mv) * (8 * mv)) * 2 < 2 ^ (pf.wordBits - 1)

theorem Fits.of64 {pf : Platform} (h8 : pf.wordBytes = 8) {mh mv w h : Nat} (hw : w < 65536) (hh : h < 65536) (hw0 : w ≠ 0) (hh0 : h ≠ 0)
    (hmh : 1 ≤ mh ∧ mh ≤ 4) (hmv : 1 ≤ mv ∧ mv ≤ 4) : Fits pf mh mv w h := by
  obtain ⟨-, wb, -⟩ := ceil_mul_lt hmh.1 hmh.2 (show 1 ≤ w by omega)
  obtain ⟨-, hb, -⟩ := ceil_mul_lt hmv.1 hmv.2 (show 1 ≤ h by omega)
  unfold Fits
  have h2 := Nat.mul_le_mul (le_trans wb (show w + 31 ≤ 65567 by omega)) (le_trans hb (show h + 31 ≤ 65567 by omega))
  have : pf.wordBits = 64 := by simp [Platform.wordBits, h8]
  rw [this]
  have : (2 : Nat) ^ (64 - 1) = 9223372036854775808 := by norm_num
  omega

theorem two_pow_pred_le (n : Nat) : 2 ^ (n - 1) ≤ 2 ^ n := Nat.pow_le_pow_right (by omega) (by omega)

section
variable {image : ImageBuffer} {P : Nat → Nat → Nat → UInt8} (hd : Delivers image P)
  (hw : image.width.toNat ≠ 0) (hh : image.height.toNat ≠ 0)
include hd hw hh

theorem encodeBlocks_ok {pf : Platform} (hpf : pf.Valid)
    {op : Operations} {F : List Int → List Int} (hop : OpOk op F) {s0 s1 : List Nat}
    (hl0 : s0.length = 64) (hl1 : s1.length = 64) (hs0 : ∀ v ∈ s0, 1 ≤ v ∧ v ≤ 2048) (hs1 : ∀ v ∈ s1, 1 ≤ v ∧ v ≤ 2048)
    {e : Encoder} {mh mv : Nat} (hg : Grid e.components mh mv) (hnc : image.colorType.numComponents = e.components.length)
    (hfit : Fits pf mh mv image.width.toNat image.height.toNat) :
    encodeBlocks pf e op image (mkQ s0, mkQ s1) = .ok (e.components.zipIdx.map fun ci =>
      (_root_.Spec.raster (nblk image.height.toNat (mv / ci.1.verticalSamplingFactor))
          (nblk image.width.toNat (mh / ci.1.horizontalSamplingFactor))).map fun p =>
        blockAt F s0 s1 image.width.toNat image.height.toNat P mh mv ci.2 ci.1 p.1 p.2) := by
  have hwl : image.width.toNat < 65536 := image.width.toNat_lt
  have hhl : image.height.toNat < 65536 := image.height.toNat_lt
  obtain ⟨wa, wb, wc⟩ := ceil_mul_lt hg.mh.1 hg.mh.2 (show 1 ≤ image.width.toNat by omega)
  obtain ⟨ha, hb, hc⟩ := ceil_mul_lt hg.mv.1 hg.mv.2 (show 1 ≤ image.height.toNat by omega)
  have hmh := hg.mh
  have hmv := hg.mv
  have hfl := hfit
  unfold Fits at hfl
  have h2 := two_pow_pred_le pf.wordBits
  unfold encodeBlocks
  rw [hg.max]
  dsimp only
  rw [ceilDiv_eq (by omega), ok_bind]
  have eW : (image.width.toNat + 8 * mh - 1) / (8 * mh) = _root_.Spec.ceilDiv image.width.toNat (8 * mh) := rfl
  have eH : (image.height.toNat + 8 * mv - 1) / (8 * mv) = _root_.Spec.ceilDiv image.height.toNat (8 * mv) := rfl
  rw [eW]
  generalize hA : _root_.Spec.ceilDiv image.width.toNat (8 * mh) = A at *
  generalize hB : _root_.Spec.ceilDiv image.height.toNat (8 * mv) = B at *
  have eA : A * (8 * mh) = A * mh * 8 := by ring
  have eB : B * (8 * mv) = B * mv * 8 := by ring
  rw [eA] at wa wb hfl
  rw [eB] at ha hb hfl
  have hAm : 1 ≤ A * mh := Nat.mul_pos wc hmh.1
  have hBm : 1 ≤ B * mv := Nat.mul_pos hc hmv.1
  have hAB : A * mh * (B * mv) * 64 = A * mh * 8 * (B * mv * 8) := by ring
  have hABb : A * mh * (B * mv) ≤ A * mh * (B * mv) * 64 := by omega
  have hw2 : (2 : Nat) ^ 31 ≤ 2 ^ pf.wordBits := by
    apply Nat.pow_le_pow_right (by omega)
    rcases hpf with h | h <;> simp [Platform.wordBits, h]
  rw [ckUsize_of_lt (by omega), ok_bind, ceilDiv_eq (by omega), ok_bind, eH, ckUsize_of_lt (by omega), ok_bind,
    show decide (A * mh > 0) = true from decide_eq_true hAm, show decide (B * mv > 0) = true from decide_eq_true hBm,
    debugAssert_true, ok_bind, ok_bind, ckUsize_of_lt (by omega), ok_bind, ckUsize_of_lt (by omega), ok_bind,
    ckUsize_of_lt (by omega), ok_bind, initRows_ok pf hg.nc (by omega), ok_bind, ← hnc,
    fillLines_ok hd hw hh wa (List.range (B * mv * 8)) (fun _ => []) (by
      intro c _; simp only [List.length_nil, List.length_range]; omega), ok_bind,
    ceilDiv_eq (by omega), ok_bind, ceilDiv_eq (by omega), ok_bind]
  have e8w : (image.width.toNat + 8 - 1) / 8 = _root_.Spec.ceilDiv image.width.toNat 8 := rfl
  have e8h : (image.height.toNat + 8 - 1) / 8 = _root_.Spec.ceilDiv image.height.toNat 8 := rfl
  have p8w : 1 ≤ _root_.Spec.ceilDiv image.width.toNat 8 := by unfold _root_.Spec.ceilDiv; omega
  have p8h : 1 ≤ _root_.Spec.ceilDiv image.height.toNat 8 := by unfold _root_.Spec.ceilDiv; omega
  rw [e8w, e8h, show decide (_root_.Spec.ceilDiv image.width.toNat 8 > 0) = true from decide_eq_true p8w,
    show decide (_root_.Spec.ceilDiv image.height.toNat 8 > 0) = true from decide_eq_true p8h,
    debugAssert_true, ok_bind, ok_bind, withCapacity, if_pos (by omega), ok_bind]
  apply mapR_ok
  rintro ⟨c, i⟩ hci
  have hmem : e.components[i]? = some c := by
    rw [List.mem_zipIdx_iff_getElem?] at hci
    exact hci
  have hcm : c ∈ e.components := List.mem_of_getElem? hmem
  have hi : i < image.colorType.numComponents := by
    rw [hnc]
    exact (List.getElem?_eq_some_iff.mp hmem).1
  obtain ⟨dh0, dh⟩ := div_one_or hmh.1 (hg.h c hcm)
  obtain ⟨dv0, dv⟩ := div_one_or hmv.1 (hg.v c hcm)
  have sh1 : 1 ≤ mh / c.horizontalSamplingFactor := by omega
  have sv1 : 1 ≤ mv / c.verticalSamplingFactor := by omega
  have nw : 1 ≤ nblk image.width.toNat (mh / c.horizontalSamplingFactor) := nblk_pos (by omega) sh1
  have nh : 1 ≤ nblk image.height.toNat (mv / c.verticalSamplingFactor) := nblk_pos (by omega) sv1
  unfold componentBlocks
  dsimp only
  rw [divR, if_neg dh0, ok_bind, divR, if_neg dv0, ok_bind]
  generalize hsh : mh / c.horizontalSamplingFactor = sh at *
  generalize hsv : mv / c.verticalSamplingFactor = sv at *
  rw [ceilDiv_eq (by omega), ok_bind, ceilDiv_eq (by omega), ok_bind,
    show (_root_.Spec.ceilDiv image.width.toNat 8 + sh - 1) / sh = nblk image.width.toNat sh from rfl,
    show (_root_.Spec.ceilDiv image.height.toNat 8 + sv - 1) / sv = nblk image.height.toNat sv from rfl,
    show decide (nblk image.width.toNat sh > 0) = true from decide_eq_true nw,
    show decide (nblk image.height.toNat sv > 0) = true from decide_eq_true nh,
    debugAssert_true, ok_bind, ok_bind,
    mapR_raster _ _ _ (fun y x => blockAt F s0 s1 image.width.toNat image.height.toNat P mh mv i c y x), ok_bind, raster_map]
  intro y hy x hx
  rw [mkRows_get _ hi (nc_le _), ok_bind]
  dsimp only
  have ix := block_inside hmh.1 hmh.2 dh hx
  have iy := block_inside hmv.1 hmv.2 dv hy
  rw [hA, eA] at ix
  rw [hB, eB] at iy
  have hgb := getBlock_ok pf (w := image.width.toNat) (h := image.height.toNat) (bw := A * mh * 8) P i (List.range (B * mv * 8))
    (x * 8 * sh) (y * 8 * sv) sh sv ix (by rw [List.length_range]; exact iy) (by rw [List.length_range]; omega)
  have hsm : ((List.range 64).map fun k =>
      ((sampleAt image.width.toNat image.height.toNat P i ((List.range (B * mv * 8)).getD (y * 8 * sv + k / 8 * sv) 0)
        (x * 8 * sh + k % 8 * sh)).toNat : Int) - 128) =
      blockSamples image.width.toNat image.height.toNat P i sv sh y x := by
    unfold blockSamples
    apply List.map_congr_left
    intro k hk
    simp only [List.mem_range] at hk
    have hlt : y * 8 * sv + k / 8 * sv < B * mv * 8 := by
      have : k / 8 * sv ≤ 7 * sv := Nat.mul_le_mul_right _ (by omega)
      omega
    rw [show (List.range (B * mv * 8)).getD (y * 8 * sv + k / 8 * sv) 0 = y * 8 * sv + k / 8 * sv by
      simp [List.getD, hlt]]
    rw [show y * 8 * sv + k / 8 * sv = (8 * y + k / 8) * sv by ring,
      show x * 8 * sh + k % 8 * sh = (8 * x + k % 8) * sh by ring]
  rw [hsm] at hgb
  rw [List.nil_append, processBlock_ok pf hop hl0 hl1 hs0 hs1 (hg.ok.q c hcm) hgb (blockSamples_length _ _ _ _ _ _ _ _)
    (blockSamples_shifted _ _ _ _ _ _ _ _)]
  unfold blockAt
  rw [hsh, hsv]
end

/-- The components of an image. -/
theorem initComponents_grid (sf : SamplingFactor) (ct : JpegColorType) :
    Grid (initComponents sf ct) (maxSamplingSize (initComponents sf ct)).1 (maxSamplingSize (initComponents sf ct)).2 ∧
      (initComponents sf ct).length = ct.numComponents := by
  have key : ∀ cs : List Component, (∀ i, i < cs.length → (cs.map (·.id))[i]? = some i) →
      1 ≤ cs.length → cs.length ≤ 4 →
      (∀ c ∈ cs, (1 ≤ c.horizontalSamplingFactor ∧ c.horizontalSamplingFactor ≤ 4) ∧ (1 ≤ c.verticalSamplingFactor ∧
        c.verticalSamplingFactor ≤ 4) ∧ c.quantizationTable < 2 ∧ c.dcHuffmanTable < 2 ∧ c.acHuffmanTable < 2) → CompsOk cs := by
    intro cs h1 h2 h3 h4
    refine ⟨h2, h3, ?_, fun c hc => (h4 c hc).1, fun c hc => (h4 c hc).2.1, fun c hc => (h4 c hc).2.2.1,
      fun c hc => (h4 c hc).2.2.2.1, fun c hc => (h4 c hc).2.2.2.2⟩
    intro i c hic
    have hi := (List.getElem?_eq_some_iff.mp hic).1
    have := h1 i hi
    rw [List.getElem?_map, hic] at this
    simpa using this
  cases sf <;> cases ct <;>
    exact ⟨⟨key _ (by decide) (by decide) (by decide) (by decide), rfl, by decide, by decide, by decide, by decide,
      by decide, by decide, by decide⟩, by decide⟩

end Jpeg
