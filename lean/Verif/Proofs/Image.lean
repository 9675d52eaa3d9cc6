import Verif.Spec.Image
import Verif.Proofs.Fdct
import Verif.Props.Quant
/-! From the image buffer to quantised blocks. -/
namespace Jpeg
open Jpeg.Spec

/-- A row of the buffers: the image line followed by copies of its last sample. -/
def lineOf (w h bw : Nat) (P : Nat → Nat → Nat → UInt8) (c y : Nat) : Bytes :=
  (List.range bw).map fun x => sampleAt w h P c y x

/-- Buffers with data `D c` for the components, unused ones empty. -/
def mkRows (nc cap : Nat) (D : Nat → Bytes) : Rows := Rows.ofFn fun c => if c < nc then ⟨D c, cap⟩ else ⟨[], 0⟩

theorem buf_ofFn (f : Nat → Buf) {c : Nat} (h : c < 4) : (Rows.ofFn f).buf c = f c := by
  match c, h with
  | 0, _ => rfl
  | 1, _ => rfl
  | 2, _ => rfl
  | 3, _ => rfl

theorem get_ofFn (f : Nat → Buf) {c : Nat} (h : c < 4) : (Rows.ofFn f).get c = .ok (f c) := by
  match c, h with
  | 0, _ => rfl
  | 1, _ => rfl
  | 2, _ => rfl
  | 3, _ => rfl

theorem ofFn_congr {f g : Nat → Buf} (h : ∀ c, c < 4 → f c = g c) : Rows.ofFn f = Rows.ofFn g := by
  simp [Rows.ofFn, h 0, h 1, h 2, h 3]

theorem map_ofFn (g : Buf → Buf) (f : Nat → Buf) : (Rows.ofFn f).map g = Rows.ofFn fun c => g (f c) := rfl

theorem mkRows_congr {nc cap : Nat} {D D' : Nat → Bytes} (h : ∀ c, c < nc → D c = D' c) : mkRows nc cap D = mkRows nc cap D' := by
  apply ofFn_congr
  intro c _
  by_cases hc : c < nc
  · simp [hc, h c hc]
  · simp [hc]

theorem mkRows_get {nc cap : Nat} (D : Nat → Bytes) {c : Nat} (hc : c < nc) (h4 : nc ≤ 4) :
    (mkRows nc cap D).get c = .ok ⟨D c, cap⟩ := by
  rw [mkRows, get_ofFn _ (by omega), if_pos hc]

theorem mkRows_map_push {nc cap : Nat} (D : Nat → Bytes) (x : Nat → UInt8) (h : ∀ c, c < nc → (D c).getLast? = some (x c))
    (hcap : ∀ c, c < nc → (D c).length + 1 ≤ cap) :
    (mkRows nc cap D).map Buf.pushLast = mkRows nc cap fun c => D c ++ [x c] := by
  rw [mkRows, map_ofFn]
  apply ofFn_congr
  intro c _
  by_cases hc : c < nc
  · simp only [if_pos hc, Buf.pushLast, h c hc, Buf.push]
    have := hcap c hc
    rw [Nat.max_eq_left (by omega)]
  · simp [hc, Buf.pushLast]

theorem pushLoop {nc cap : Nat} (D : Nat → Bytes) (x : Nat → UInt8) (l : List Nat) (h : ∀ c, c < nc → (D c).getLast? = some (x c))
    (hcap : ∀ c, c < nc → (D c).length + l.length ≤ cap) :
    forFoldR l (mkRows nc cap D) (fun rows _ => .ok (rows.map Buf.pushLast)) =
      .ok (mkRows nc cap fun c => D c ++ List.replicate l.length (x c)) := by
  induction l generalizing D with
  | nil => simp [forFoldR]
  | cons a l ih =>
    simp only [forFoldR, List.length_cons] at hcap ⊢
    rw [mkRows_map_push D x h (fun c hc => by have := hcap c hc; omega), ok_bind', ih]
    · congr 1
      apply mkRows_congr
      intro c _
      rw [List.append_assoc, List.replicate_succ]
      rfl
    · intro c _; simp
    · intro c hc; have := hcap c hc; simp; omega

theorem lineOf_split {w h bw : Nat} (P : Nat → Nat → Nat → UInt8) (c y : Nat) (hw : 1 ≤ w) (hbw : w ≤ bw) :
    (List.range w).map (P c (min y (h - 1))) ++ List.replicate (bw - w) (P c (min y (h - 1)) (w - 1)) = lineOf w h bw P c y := by
  apply List.ext_getElem
  · simp [lineOf]; omega
  · intro i h1 h2
    simp only [lineOf, List.getElem_map, List.getElem_range, sampleAt]
    by_cases hi : i < w
    · rw [List.getElem_append_left (by simpa using hi)]
      simp only [List.getElem_map, List.getElem_range]
      rw [Nat.min_eq_left (by omega : i ≤ w - 1)]
    · rw [List.getElem_append_right (by simpa using hi)]
      simp only [List.getElem_replicate]
      rw [Nat.min_eq_right (by omega : w - 1 ≤ i)]

theorem nc_le (ct : JpegColorType) : ct.numComponents ≤ 4 := by cases ct <;> decide

section
variable {image : ImageBuffer} {P : Nat → Nat → Nat → UInt8} (hd : Delivers image P)
  (hw : image.width.toNat ≠ 0) (hh : image.height.toNat ≠ 0)
include hd hw hh

theorem fillLine_ok {cap bw : Nat} (hbw : image.width.toNat ≤ bw) (D : Nat → Bytes) (y : Nat)
    (hcap : ∀ c, c < image.colorType.numComponents → (D c).length + bw ≤ cap) :
    fillLine image y bw (mkRows image.colorType.numComponents cap D) =
      .ok (mkRows image.colorType.numComponents cap fun c => D c ++ lineOf image.width.toNat image.height.toNat bw P c y) := by
  have h4 := nc_le image.colorType
  generalize hnc : image.colorType.numComponents = nc at *
  unfold fillLine
  dsimp only
  have hf := hd (min y (image.height.toNat - 1)) (by omega) (mkRows nc cap D) (by
    intro c hc
    rw [hnc] at hc
    rw [mkRows, buf_ofFn _ (by omega), if_pos hc]
    have := hcap c hc
    dsimp only
    omega)
  rw [hf, hnc, ok_bind]
  have e : (Rows.ofFn fun c => if c < nc then
      (⟨((mkRows nc cap D).buf c).data ++ (List.range image.width.toNat).map (P c (min y (image.height.toNat - 1))),
        ((mkRows nc cap D).buf c).cap⟩ : Buf) else (mkRows nc cap D).buf c) =
      mkRows nc cap fun c => D c ++ (List.range image.width.toNat).map (P c (min y (image.height.toNat - 1))) := by
    apply ofFn_congr
    intro c hc
    rw [mkRows, buf_ofFn _ hc]
    by_cases h : c < nc <;> simp [h]
  rw [e, pushLoop _ (fun c => P c (min y (image.height.toNat - 1)) (image.width.toNat - 1))]
  · congr 1
    apply mkRows_congr
    intro c _
    rw [List.append_assoc, List.length_range, lineOf_split P c y (by omega) hbw]
  · intro c _
    obtain ⟨w', hw'⟩ : ∃ w', image.width.toNat = w' + 1 := ⟨image.width.toNat - 1, by omega⟩
    rw [hw', List.range_succ]
    simp
  · intro c hc
    have := hcap c hc
    simp
    omega

/-- Filling the lines `ys`. -/
theorem fillLines_ok {cap bw : Nat} (hbw : image.width.toNat ≤ bw) (ys : List Nat) (D : Nat → Bytes)
    (hcap : ∀ c, c < image.colorType.numComponents → (D c).length + bw * ys.length ≤ cap) :
    forFoldR ys (mkRows image.colorType.numComponents cap D) (fun rows y => fillLine image y bw rows) =
      .ok (mkRows image.colorType.numComponents cap fun c =>
        D c ++ (ys.map (lineOf image.width.toNat image.height.toNat bw P c)).flatten) := by
  induction ys generalizing D with
  | nil => simp [forFoldR]
  | cons y ys ih =>
    simp only [forFoldR, List.length_cons] at hcap ⊢
    have hc' : ∀ c, c < image.colorType.numComponents → (D c).length + bw + bw * ys.length ≤ cap := by
      intro c hc
      have := hcap c hc
      rw [Nat.mul_add] at this
      omega
    rw [fillLine_ok hd hw hh hbw D y (fun c hc => by have := hc' c hc; omega), ok_bind', ih]
    · congr 1
      apply mkRows_congr
      intro c _
      simp
    · intro c hc
      have := hc' c hc
      rw [List.length_append, lineOf, List.length_map, List.length_range]
      omega
end

theorem lines_get {w h bw : Nat} (P : Nat → Nat → Nat → UInt8) (c : Nat) (ys : List Nat) {k x : Nat} (hx : x < bw)
    (hk : k < ys.length) :
    idx ((ys.map (lineOf w h bw P c)).flatten) (k * bw + x) = .ok (sampleAt w h P c (ys.getD k 0) x) := by
  have hlen : ((ys.map (lineOf w h bw P c)).flatten).length = bw * ys.length := by
    rw [List.length_flatten, List.map_map]
    have : (List.length ∘ lineOf w h bw P c) = fun _ => bw := by
      funext y; simp [lineOf]
    rw [this, List.map_const', List.sum_replicate_nat, Nat.mul_comm]
  have hlt : k * bw + x < bw * ys.length := by
    calc k * bw + x < k * bw + bw := by omega
      _ = (k + 1) * bw := by ring
      _ ≤ ys.length * bw := Nat.mul_le_mul_right _ hk
      _ = bw * ys.length := Nat.mul_comm _ _
  rw [idx_eq_getD 0 (by rw [hlen]; exact hlt), Nat.mul_comm k bw, flatten_getD bw 0 _ (by
    intro r hr
    simp only [List.mem_map] at hr
    obtain ⟨y, _, rfl⟩ := hr
    simp [lineOf]) k x hx]
  have h1 : (ys.map (lineOf w h bw P c)).getD k [] = lineOf w h bw P c (ys.getD k 0) := by
    simp [List.getD, hk]
  rw [h1]
  simp [List.getD, lineOf, hx]

theorem ckUsize_of_lt {pf : Platform} {n : Nat} (h : n < 2 ^ pf.wordBits) : ckUsize pf (n : Int) = .ok n := by
  unfold ckUsize
  rw [ckU_ok (by omega) (by exact_mod_cast h)]
  rfl

/-- The samples of a block. -/
theorem getBlock_ok (pf : Platform) {w h bw : Nat} (P : Nat → Nat → Nat → UInt8) (c : Nat) (ys : List Nat)
    (sx0 sy0 cs rs : Nat) (hx : sx0 + 7 * cs < bw) (hy : sy0 + 7 * rs < ys.length) (hsz : bw * ys.length < 2 ^ pf.wordBits) :
    getBlock pf ((ys.map (lineOf w h bw P c)).flatten) sx0 sy0 cs rs bw =
      .ok ((List.range 64).map fun i =>
        ((sampleAt w h P c (ys.getD (sy0 + i / 8 * rs) 0) (sx0 + i % 8 * cs)).toNat : Int) - 128) := by
  unfold getBlock
  apply mapR_ok
  intro i hi
  simp only [List.mem_range] at hi
  have h1 : i % 8 * cs ≤ 7 * cs := Nat.mul_le_mul_right _ (by omega)
  have h2 : i / 8 * rs ≤ 7 * rs := Nat.mul_le_mul_right _ (by omega)
  have hxx : sx0 + i % 8 * cs < bw := by omega
  have hyy : sy0 + i / 8 * rs < ys.length := by omega
  have hp : (sy0 + i / 8 * rs) * bw + (sx0 + i % 8 * cs) < bw * ys.length := by
    calc _ < (sy0 + i / 8 * rs) * bw + bw := by omega
      _ = (sy0 + i / 8 * rs + 1) * bw := by ring
      _ ≤ ys.length * bw := Nat.mul_le_mul_right _ hyy
      _ = _ := Nat.mul_comm _ _
  have hb1 : bw ≤ bw * ys.length := Nat.le_mul_of_pos_right _ (by omega)
  have hb2 : ys.length ≤ bw * ys.length := Nat.le_mul_of_pos_left _ (by omega)
  dsimp only
  rw [ckUsize_of_lt (by omega), ok_bind, ckUsize_of_lt (by omega), ok_bind, ckUsize_of_lt (by omega), ok_bind,
    ckUsize_of_lt (by omega), ok_bind, lines_get P c ys hxx hyy, ok_bind]
  have hs := (sampleAt w h P c (ys.getD (sy0 + i / 8 * rs) 0) (sx0 + i % 8 * cs)).toNat_lt
  exact ckI16_ok (by omega) (by omega)

/-! ### Transform and quantisation -/

/-- The forward transform `op` computes `F`, within the range of the real transform. -/
structure OpOk (op : Operations) (F : List Int → List Int) : Prop where
  run : ∀ pf block, block.length = 64 → Shifted block → op.fdct pf block = .ok (F block)
  len : ∀ block, block.length = 64 → (F block).length = 64
  dc : ∀ block, block.length = 64 → Shifted block → -8192 ≤ (F block).getD 0 0 ∧ (F block).getD 0 0 ≤ 8128
  ac : ∀ block i, block.length = 64 → Shifted block → 1 ≤ i → i < 64 → ((F block).getD i 0).natAbs ≤ 8161

theorem opOk_default : OpOk defaultOperations fdctP where
  run := fun pf block _ h => fdct_eq pf h
  len := fun block _ => fdctP_length block
  dc := fun block _ h => (fdctP_bounds h (show 0 < 64 by omega)).1 rfl
  ac := fun block i _ h h1 h2 => by
    have := (fdctP_bounds h h2).2 (by omega)
    simp only [Bd] at this
    omega

/-- The quantised coefficients of a block in zig-zag order. -/
def coefBlock (F : List Int → List Int) (steps : List Nat) (samples : List Int) : List Int :=
  ZIGZAG.map fun z => quantOf (steps.getD z 1) ((F samples).getD z 0)

theorem coefBlock_length (F : List Int → List Int) (steps : List Nat) (samples : List Int) :
    (coefBlock F steps samples).length = 64 := by
  rw [coefBlock, List.length_map]; rfl

theorem ZIGZAG_getD0 : ZIGZAG.getD 0 0 = 0 := rfl

theorem coefBlock_getD (F : List Int → List Int) (steps : List Nat) (samples : List Int) {k : Nat} (hk : k < 64) :
    (coefBlock F steps samples).getD k 0 =
      quantOf (steps.getD (ZIGZAG.getD k 0) 1) ((F samples).getD (ZIGZAG.getD k 0) 0) := by
  have hl : k < ZIGZAG.length := hk
  simp only [coefBlock, List.getD, List.getElem?_map, List.getElem?_eq_getElem hl, Option.map_some, Option.getD_some]

theorem ZIGZAG_pos : ∀ k, k < 64 → 1 ≤ k → 1 ≤ ZIGZAG.getD k 0 ∧ ZIGZAG.getD k 0 < 64 := by decide

theorem quantAbs_le_of {v x b : Nat} (h1 : 1 ≤ v) (h2 : v ≤ 2048) (hx : x ≤ 8192) (hb : x ≤ 8 * b) : quantAbs v x ≤ b := by
  have h := (quantAbs_error h1 h2 hx).1
  by_contra hc
  have h3 : (b + 1) * v ≤ quantAbs v x * v := Nat.mul_le_mul_right _ (by omega)
  have h4 : b ≤ b * v := Nat.le_mul_of_pos_right _ h1
  have h5 : 8 * v * quantAbs v x = 8 * (quantAbs v x * v) := by ring
  rw [h5] at h
  rw [Nat.add_mul] at h3
  omega

theorem coef_bounds {op : Operations} {F : List Int → List Int} (hop : OpOk op F) {steps : List Nat} (hl : steps.length = 64)
    (hs : ∀ v ∈ steps, 1 ≤ v ∧ v ≤ 2048) {samples : List Int} (h64 : samples.length = 64) (hsh : Shifted samples) :
    (-1024 ≤ (coefBlock F steps samples).getD 0 0 ∧ (coefBlock F steps samples).getD 0 0 ≤ 1016) ∧
    ∀ k, 1 ≤ k → k < 64 → ((coefBlock F steps samples).getD k 0).natAbs ≤ 1021 := by
  have hst : ∀ z, z < 64 → 1 ≤ steps.getD z 1 ∧ steps.getD z 1 ≤ 2048 := by
    intro z hz
    have : steps.getD z 1 = steps[z] := by simp [List.getD, hl, hz]
    rw [this]
    exact hs _ (List.getElem_mem _)
  constructor
  · rw [coefBlock_getD F steps samples (by omega), ZIGZAG_getD0]
    have hdc := hop.dc samples h64 hsh
    have h1 := hst 0 (by omega)
    unfold quantOf
    split
    · have := quantAbs_le_of (b := 1024) h1.1 h1.2 (x := ((F samples).getD 0 0).natAbs) (by omega) (by omega)
      omega
    · have := quantAbs_le_of (b := 1016) h1.1 h1.2 (x := ((F samples).getD 0 0).natAbs) (by omega) (by omega)
      omega
  · intro k h1 h2
    rw [coefBlock_getD F steps samples h2]
    obtain ⟨z1, z2⟩ := ZIGZAG_pos k h2 h1
    have hac := hop.ac samples _ h64 hsh z1 z2
    have h3 := hst _ z2
    rw [quantOf_natAbs]
    exact quantAbs_le_of h3.1 h3.2 (by omega) (by omega)

theorem quantizeBlock_ok (pf : Platform) {block : List Int} (hb : block.length = 64) (hle : ∀ i, i < 64 → (block.getD i 0).natAbs ≤ 32768)
    {steps : List Nat} (hl : steps.length = 64) (hs : ∀ v ∈ steps, 1 ≤ v ∧ v ≤ 2048) :
    quantizeBlock pf block (mkQ steps) = .ok (ZIGZAG.map fun z => quantOf (steps.getD z 1) (block.getD z 0)) := by
  unfold quantizeBlock
  have : ∀ i ∈ List.range 64, (do
      let z ← idx ZIGZAG i
      let z := z &&& 0x3f
      let v ← idx block z
      (mkQ steps).quantize pf v z) = .ok (quantOf (steps.getD (ZIGZAG.getD i 0) 1) (block.getD (ZIGZAG.getD i 0) 0)) := by
    intro i hi
    simp only [List.mem_range] at hi
    have hz : ZIGZAG.getD i 0 < 64 := by
      by_cases h0 : i = 0
      · subst h0; decide
      · exact (ZIGZAG_pos i hi (by omega)).2
    rw [idx_eq_getD 0 (show i < ZIGZAG.length from hi), ok_bind]
    dsimp only
    rw [show ZIGZAG.getD i 0 &&& 0x3f = ZIGZAG.getD i 0 by
      rw [show (0x3f : Nat) = 2 ^ 6 - 1 from rfl, Nat.and_two_pow_sub_one_eq_mod, Nat.mod_eq_of_lt hz]]
    rw [idx_eq_getD 0 (by omega), ok_bind, quantize_eq pf steps hs _ (by omega) _ (hle _ hz)]
  rw [mapR_ok this]
  congr 1

theorem shifted_samples (w h : Nat) (P : Nat → Nat → Nat → UInt8) (c : Nat) (f g : Nat → Nat) :
    Shifted ((List.range 64).map fun i => ((sampleAt w h P c (f i) (g i)).toNat : Int) - 128) := by
  intro v hv
  simp only [List.mem_map] at hv
  obtain ⟨i, _, rfl⟩ := hv
  have := (sampleAt w h P c (f i) (g i)).toNat_lt
  omega

theorem processBlock_ok (pf : Platform) {op : Operations} {F : List Int → List Int} (hop : OpOk op F) {s0 s1 : List Nat}
    (hl0 : s0.length = 64) (hl1 : s1.length = 64) (hs0 : ∀ v ∈ s0, 1 ≤ v ∧ v ≤ 2048) (hs1 : ∀ v ∈ s1, 1 ≤ v ∧ v ≤ 2048)
    {comp : Component} (hq : comp.quantizationTable < 2) {data : Bytes} {sx0 sy0 cs rs bw : Nat} {samples : List Int}
    (hb : getBlock pf data sx0 sy0 cs rs bw = .ok samples) (h64 : samples.length = 64) (hsh : Shifted samples) :
    processBlock pf op (mkQ s0, mkQ s1) comp data sx0 sy0 cs rs bw =
      .ok (coefBlock F (if comp.quantizationTable = 0 then s0 else s1) samples) := by
  unfold processBlock
  rw [hb, ok_bind, hop.run pf samples h64 hsh, ok_bind]
  have hp : pairIdx (mkQ s0, mkQ s1) comp.quantizationTable = .ok (mkQ (if comp.quantizationTable = 0 then s0 else s1)) := by
    rcases (show comp.quantizationTable = 0 ∨ comp.quantizationTable = 1 by omega) with h | h <;> rw [h] <;> rfl
  rw [hp, ok_bind]
  have hle : ∀ i, i < 64 → ((F samples).getD i 0).natAbs ≤ 32768 := by
    intro i hi
    by_cases h0 : i = 0
    · subst h0; have := hop.dc samples h64 hsh; omega
    · have := hop.ac samples i h64 hsh (by omega) hi; omega
  rw [quantizeBlock_ok pf (hop.len samples h64) hle]
  · rfl
  · split <;> assumption
  · split <;> assumption

end Jpeg
