import Verif.Proofs.Basic
/-! Closed form and bounds of the scalar forward DCT. -/
namespace Jpeg

/-- Rounded division by `2^n`. -/
def dsc (x : Int) (n : Nat) : Int := (x + 2 ^ (n - 1)) / 2 ^ n

/-- Numerators of the outputs 1, 2, 3, 5, 6, 7 (scaled by 2^13) and the plain sums for 0 and 4. -/
def num0 (d0 d1 d2 d3 d4 d5 d6 d7 : Int) : Int := d0 + d7 + (d3 + d4) + (d1 + d6 + (d2 + d5))
def num4 (d0 d1 d2 d3 d4 d5 d6 d7 : Int) : Int := d0 + d7 + (d3 + d4) - (d1 + d6 + (d2 + d5))
def num2 (d0 d1 d2 d3 d4 d5 d6 d7 : Int) : Int :=
  (d1 + d6 - (d2 + d5) + (d0 + d7 - (d3 + d4))) * 4433 + (d0 + d7 - (d3 + d4)) * 6270
def num6 (d0 d1 d2 d3 d4 d5 d6 d7 : Int) : Int :=
  (d1 + d6 - (d2 + d5) + (d0 + d7 - (d3 + d4))) * 4433 + (d1 + d6 - (d2 + d5)) * -15137
def num7 (d0 d1 d2 d3 d4 d5 d6 d7 : Int) : Int :=
  (d3 - d4) * 2446 + (d3 - d4 + (d0 - d7)) * -7373 +
    ((d3 - d4 + (d1 - d6)) * -16069 + (d3 - d4 + (d1 - d6) + (d2 - d5 + (d0 - d7))) * 9633)
def num5 (d0 d1 d2 d3 d4 d5 d6 d7 : Int) : Int :=
  (d2 - d5) * 16819 + (d2 - d5 + (d1 - d6)) * -20995 +
    ((d2 - d5 + (d0 - d7)) * -3196 + (d3 - d4 + (d1 - d6) + (d2 - d5 + (d0 - d7))) * 9633)
def num3 (d0 d1 d2 d3 d4 d5 d6 d7 : Int) : Int :=
  (d1 - d6) * 25172 + (d2 - d5 + (d1 - d6)) * -20995 +
    ((d3 - d4 + (d1 - d6)) * -16069 + (d3 - d4 + (d1 - d6) + (d2 - d5 + (d0 - d7))) * 9633)
def num1 (d0 d1 d2 d3 d4 d5 d6 d7 : Int) : Int :=
  (d0 - d7) * 12299 + (d3 - d4 + (d0 - d7)) * -7373 +
    ((d2 - d5 + (d0 - d7)) * -3196 + (d3 - d4 + (d1 - d6) + (d2 - d5 + (d0 - d7))) * 9633)

/-- One 8 point transform without checks. -/
def dct8P (ev : Int → Int) (n : Nat) (d0 d1 d2 d3 d4 d5 d6 d7 : Int) : List Int :=
  [ev (num0 d0 d1 d2 d3 d4 d5 d6 d7), dsc (num1 d0 d1 d2 d3 d4 d5 d6 d7) n, dsc (num2 d0 d1 d2 d3 d4 d5 d6 d7) n,
   dsc (num3 d0 d1 d2 d3 d4 d5 d6 d7) n, ev (num4 d0 d1 d2 d3 d4 d5 d6 d7), dsc (num5 d0 d1 d2 d3 d4 d5 d6 d7) n,
   dsc (num6 d0 d1 d2 d3 d4 d5 d6 d7) n, dsc (num7 d0 d1 d2 d3 d4 d5 d6 d7) n]

/-- `|x| ≤ b` in a form omega likes. -/
def Bd (b x : Int) : Prop := -b ≤ x ∧ x ≤ b

theorem descale_ok (pf : Platform) {x : Int} {n : Nat} (hn : n ≤ 15) (h1 : -2000000000 ≤ x) (h2 : x ≤ 2000000000) :
    descale pf x n = .ok (dsc x n) := by
  unfold descale i32
  have : (2 : Int) ^ (n - 1) ≤ 2 ^ 14 := by
    have := Nat.pow_le_pow_right (show 2 > 0 by omega) (show n - 1 ≤ 14 by omega)
    exact_mod_cast this
  have hp : (0 : Int) < 2 ^ (n - 1) := by positivity
  rw [ckI32_ok (by omega) (by omega)]
  simp only [ok_bind]
  rfl

theorem dct8_ok (pf : Platform) (ev : Int → R Int) (evP : Int → Int) (n : Nat) (hn : n ≤ 15)
    (d0 d1 d2 d3 d4 d5 d6 d7 : Int)
    (h0 : Bd 4100 d0) (h1 : Bd 4100 d1) (h2 : Bd 4100 d2) (h3 : Bd 4100 d3)
    (h4 : Bd 4100 d4) (h5 : Bd 4100 d5) (h6 : Bd 4100 d6) (h7 : Bd 4100 d7)
    (hev : ∀ v, Bd 32800 v → ev v = .ok (evP v)) :
    dct8 pf ev n [d0, d1, d2, d3, d4, d5, d6, d7] = .ok (dct8P evP n d0 d1 d2 d3 d4 d5 d6 d7) := by
  unfold Bd at *
  unfold dct8
  simp only [idx, i32, List.getElem?_cons_zero, List.getElem?_cons_succ, ok_bind, FIX_0_298631336, FIX_0_390180644,
    FIX_0_541196100, FIX_0_765366865, FIX_0_899976223, FIX_1_175875602, FIX_1_501321110, FIX_1_847759065,
    FIX_1_961570560, FIX_2_053119869, FIX_2_562915447, FIX_3_072711026]
  repeat first
    | (rw [ckI32_ok (by omega) (by omega)]; simp only [ok_bind])
    | (rw [hev _ (by omega)]; simp only [ok_bind])
    | (rw [descale_ok pf hn (by omega) (by omega)]; simp only [ok_bind])
  simp only [dct8P, num0, num1, num2, num3, num4, num5, num6, num7]

theorem flatten_getD {α : Type} (m : Nat) (d : α) (l : List (List α)) (hl : ∀ r ∈ l, r.length = m) (k x : Nat)
    (hx : x < m) : l.flatten.getD (m * k + x) d = (l.getD k []).getD x d := by
  induction l generalizing k with
  | nil => simp
  | cons r rs ih =>
    have hr : r.length = m := hl r (by simp)
    cases k with
    | zero =>
      simp only [List.flatten_cons, Nat.mul_zero, Nat.zero_add, List.getD_cons_zero]
      simp only [List.getD]
      rw [List.getElem?_append_left (by omega)]
    | succ k =>
      simp only [List.flatten_cons, List.getD_cons_succ]
      rw [← ih (fun r hr => hl r (by simp [hr])) k]
      simp only [List.getD]
      rw [List.getElem?_append_right (by rw [hr, Nat.mul_succ]; omega)]
      congr 2
      rw [hr, Nat.mul_succ]; omega

/-- First pass, row `y`. -/
def rowP (data : List Int) (y : Nat) : List Int :=
  dct8P (fun v => v * 4) 11 (data.getD (8 * y) 0) (data.getD (8 * y + 1) 0) (data.getD (8 * y + 2) 0)
    (data.getD (8 * y + 3) 0) (data.getD (8 * y + 4) 0) (data.getD (8 * y + 5) 0) (data.getD (8 * y + 6) 0)
    (data.getD (8 * y + 7) 0)

/-- First pass, value in row `y`, column `x`. -/
def rhoP (data : List Int) (y x : Nat) : Int := (rowP data y).getD x 0

/-- Second pass, column `x`. -/
def colP (data : List Int) (x : Nat) : List Int :=
  dct8P (fun v => dsc v 2) 15 (rhoP data 0 x) (rhoP data 1 x) (rhoP data 2 x) (rhoP data 3 x) (rhoP data 4 x)
    (rhoP data 5 x) (rhoP data 6 x) (rhoP data 7 x)

/-- The forward DCT without checks. -/
def fdctP (data : List Int) : List Int := (List.range 64).map fun i => (colP data (i % 8)).getD (i / 8) 0

/-- Samples of a block after the level shift. -/
def Shifted (data : List Int) : Prop := ∀ v ∈ data, -128 ≤ v ∧ v ≤ 127

theorem Shifted.getD {data : List Int} (h : Shifted data) (i : Nat) :
    -128 ≤ data.getD i 0 ∧ data.getD i 0 ≤ 127 := by
  by_cases hi : i < data.length
  · have : data.getD i 0 = data[i] := by simp [List.getD, hi]
    rw [this]; exact h _ (List.getElem_mem hi)
  · simp [List.getD, hi]

theorem row_bounds (d0 d1 d2 d3 d4 d5 d6 d7 : Int) (h0 : -128 ≤ d0 ∧ d0 ≤ 127) (h1 : -128 ≤ d1 ∧ d1 ≤ 127)
    (h2 : -128 ≤ d2 ∧ d2 ≤ 127) (h3 : -128 ≤ d3 ∧ d3 ≤ 127) (h4 : -128 ≤ d4 ∧ d4 ≤ 127)
    (h5 : -128 ≤ d5 ∧ d5 ≤ 127) (h6 : -128 ≤ d6 ∧ d6 ≤ 127) (h7 : -128 ≤ d7 ∧ d7 ≤ 127) :
    (-1024 ≤ num0 d0 d1 d2 d3 d4 d5 d6 d7 ∧ num0 d0 d1 d2 d3 d4 d5 d6 d7 ≤ 1016) ∧
    Bd 1020 (num4 d0 d1 d2 d3 d4 d5 d6 d7) ∧
    Bd 3698 (dsc (num1 d0 d1 d2 d3 d4 d5 d6 d7) 11) ∧ Bd 3770 (dsc (num2 d0 d1 d2 d3 d4 d5 d6 d7) 11) ∧
    Bd 3698 (dsc (num3 d0 d1 d2 d3 d4 d5 d6 d7) 11) ∧ Bd 3698 (dsc (num5 d0 d1 d2 d3 d4 d5 d6 d7) 11) ∧
    Bd 3770 (dsc (num6 d0 d1 d2 d3 d4 d5 d6 d7) 11) ∧ Bd 3698 (dsc (num7 d0 d1 d2 d3 d4 d5 d6 d7) 11) := by
  simp only [Bd, dsc, num0, num1, num2, num3, num4, num5, num6, num7]
  norm_num
  refine ⟨?_, ?_, ?_, ?_, ?_, ?_, ?_, ?_⟩ <;> omega

theorem col_bounds (d0 d1 d2 d3 d4 d5 d6 d7 lo hi : Int) (hlo : lo = -4096 ∧ hi = 4064 ∨ lo = -4080 ∧ hi = 4080)
    (h0 : lo ≤ d0 ∧ d0 ≤ hi) (h1 : lo ≤ d1 ∧ d1 ≤ hi)
    (h2 : lo ≤ d2 ∧ d2 ≤ hi) (h3 : lo ≤ d3 ∧ d3 ≤ hi) (h4 : lo ≤ d4 ∧ d4 ≤ hi)
    (h5 : lo ≤ d5 ∧ d5 ≤ hi) (h6 : lo ≤ d6 ∧ d6 ≤ hi) (h7 : lo ≤ d7 ∧ d7 ≤ hi) :
    (2 * lo ≤ dsc (num0 d0 d1 d2 d3 d4 d5 d6 d7) 2 ∧ dsc (num0 d0 d1 d2 d3 d4 d5 d6 d7) 2 ≤ 2 * hi) ∧
    Bd 8160 (dsc (num4 d0 d1 d2 d3 d4 d5 d6 d7) 2) ∧
    Bd 7400 (dsc (num1 d0 d1 d2 d3 d4 d5 d6 d7) 15) ∧ Bd 7540 (dsc (num2 d0 d1 d2 d3 d4 d5 d6 d7) 15) ∧
    Bd 7400 (dsc (num3 d0 d1 d2 d3 d4 d5 d6 d7) 15) ∧ Bd 7400 (dsc (num5 d0 d1 d2 d3 d4 d5 d6 d7) 15) ∧
    Bd 7540 (dsc (num6 d0 d1 d2 d3 d4 d5 d6 d7) 15) ∧ Bd 7400 (dsc (num7 d0 d1 d2 d3 d4 d5 d6 d7) 15) := by
  simp only [Bd, dsc, num0, num1, num2, num3, num4, num5, num6, num7]
  norm_num
  rcases hlo with ⟨rfl, rfl⟩ | ⟨rfl, rfl⟩ <;>
  refine ⟨?_, ?_, ?_, ?_, ?_, ?_, ?_, ?_⟩ <;> omega

theorem lt8_cases {x : Nat} (h : x < 8) : x = 0 ∨ x = 1 ∨ x = 2 ∨ x = 3 ∨ x = 4 ∨ x = 5 ∨ x = 6 ∨ x = 7 := by omega

theorem rhoP_bounds {data : List Int} (h : Shifted data) (y : Nat) {x : Nat} (hx : x < 8) :
    (x = 0 → -4096 ≤ rhoP data y x ∧ rhoP data y x ≤ 4064) ∧ (x ≠ 0 → -4080 ≤ rhoP data y x ∧ rhoP data y x ≤ 4080) := by
  obtain ⟨a0, a4, a1, a2, a3, a5, a6, a7⟩ := row_bounds _ _ _ _ _ _ _ _ (h.getD (8 * y)) (h.getD (8 * y + 1))
    (h.getD (8 * y + 2)) (h.getD (8 * y + 3)) (h.getD (8 * y + 4)) (h.getD (8 * y + 5)) (h.getD (8 * y + 6))
    (h.getD (8 * y + 7))
  simp only [Bd] at *
  rcases lt8_cases hx with rfl | rfl | rfl | rfl | rfl | rfl | rfl | rfl <;>
    simp only [rhoP, rowP, dct8P, List.getD_cons_zero, List.getD_cons_succ] <;> omega

theorem rhoP_bd {data : List Int} (h : Shifted data) (y : Nat) {x : Nat} (hx : x < 8) : Bd 4100 (rhoP data y x) := by
  obtain ⟨h1, h2⟩ := rhoP_bounds h y hx
  simp only [Bd]
  by_cases hz : x = 0
  · have := h1 hz; omega
  · have := h2 hz; omega

theorem colP_bounds {data : List Int} (h : Shifted data) {x : Nat} (hx : x < 8) {y : Nat} (hy : y < 8) :
    (x = 0 ∧ y = 0 → -8192 ≤ (colP data x).getD y 0 ∧ (colP data x).getD y 0 ≤ 8128) ∧
    (¬ (x = 0 ∧ y = 0) → Bd 8160 ((colP data x).getD y 0)) := by
  by_cases hz : x = 0
  · have r := fun k => (rhoP_bounds h k hx).1 hz
    obtain ⟨a0, a4, a1, a2, a3, a5, a6, a7⟩ := col_bounds _ _ _ _ _ _ _ _ (-4096) 4064 (Or.inl ⟨rfl, rfl⟩)
      (r 0) (r 1) (r 2) (r 3) (r 4) (r 5) (r 6) (r 7)
    simp only [Bd] at *
    rcases lt8_cases hy with rfl | rfl | rfl | rfl | rfl | rfl | rfl | rfl <;>
      simp only [colP, dct8P, List.getD_cons_zero, List.getD_cons_succ] <;>
      refine ⟨fun hxy => ?_, fun hxy => ?_⟩ <;> first | omega | exact absurd ⟨hz, trivial⟩ hxy
  · have r := fun k => (rhoP_bounds h k hx).2 hz
    obtain ⟨a0, a4, a1, a2, a3, a5, a6, a7⟩ := col_bounds _ _ _ _ _ _ _ _ (-4080) 4080 (Or.inr ⟨rfl, rfl⟩)
      (r 0) (r 1) (r 2) (r 3) (r 4) (r 5) (r 6) (r 7)
    simp only [Bd] at *
    rcases lt8_cases hy with rfl | rfl | rfl | rfl | rfl | rfl | rfl | rfl <;>
      simp only [colP, dct8P, List.getD_cons_zero, List.getD_cons_succ] <;>
      refine ⟨fun hxy => ?_, fun hxy => ?_⟩ <;> first | omega | exact absurd ⟨hz, trivial⟩ hxy

theorem dctRow_ok (pf : Platform) {data : List Int} (h : Shifted data) (y : Nat) :
    dctRow pf (blockRow data y) = .ok (rowP data y) := by
  have e : blockRow data y = [data.getD (8 * y) 0, data.getD (8 * y + 1) 0, data.getD (8 * y + 2) 0,
      data.getD (8 * y + 3) 0, data.getD (8 * y + 4) 0, data.getD (8 * y + 5) 0, data.getD (8 * y + 6) 0,
      data.getD (8 * y + 7) 0] := rfl
  have b : ∀ i, Bd 4100 (data.getD i 0) := fun i => by have := h.getD i; simp only [Bd]; omega
  rw [e]
  refine dct8_ok pf _ _ 11 (by omega) _ _ _ _ _ _ _ _ (b _) (b _) (b _) (b _) (b _) (b _) (b _) (b _) ?_
  intro v hv
  simp only [Bd] at hv
  simp only [shlI32, PASS1_BITS]
  rw [Int.bmod_eq_of_le (by omega) (by omega)]
  rfl

theorem dct8P_length (ev : Int → Int) (n : Nat) (d0 d1 d2 d3 d4 d5 d6 d7 : Int) :
    (dct8P ev n d0 d1 d2 d3 d4 d5 d6 d7).length = 8 := rfl

theorem dctCol_ok (pf : Platform) {data : List Int} (h : Shifted data) {x : Nat} (hx : x < 8) :
    dctCol pf (blockCol ((List.range 8).map (rowP data)).flatten x) = .ok (colP data x) := by
  have g : ∀ k, k < 8 → ((List.range 8).map (rowP data)).flatten.getD (8 * k + x) 0 = rhoP data k x := by
    intro k hk
    rw [flatten_getD 8 _ _ (by simp [rowP, dct8P_length]) k x hx]
    simp [List.getD, hk, rhoP]
  have e : blockCol ((List.range 8).map (rowP data)).flatten x = [rhoP data 0 x, rhoP data 1 x, rhoP data 2 x,
      rhoP data 3 x, rhoP data 4 x, rhoP data 5 x, rhoP data 6 x, rhoP data 7 x] := by
    rw [← g 0 (by omega), ← g 1 (by omega), ← g 2 (by omega), ← g 3 (by omega), ← g 4 (by omega), ← g 5 (by omega),
      ← g 6 (by omega), ← g 7 (by omega)]
    rfl
  have b : ∀ i, Bd 4100 (rhoP data i x) := fun i => rhoP_bd h i hx
  rw [e]
  unfold dctCol
  change (dct8 pf (fun v => descale pf v PASS1_BITS) 15 _ >>= _) = _
  rw [dct8_ok pf _ (fun v => dsc v 2) 15 (by omega) _ _ _ _ _ _ _ _ (b _) (b _) (b _) (b _) (b _) (b _) (b _) (b _)
    (fun v hv => by simp only [Bd] at hv; exact descale_ok pf (by simp [PASS1_BITS]) (by omega) (by omega))]
  simp only [ok_bind]
  have hb : ∀ y, y < 8 → ((colP data x).getD y 0).bmod 65536 = (colP data x).getD y 0 := by
    intro y hy
    obtain ⟨h1, h2⟩ := colP_bounds h hx hy
    by_cases hz : x = 0 ∧ y = 0
    · have := h1 hz; exact Int.bmod_eq_of_le (by omega) (by omega)
    · have := h2 hz; simp only [Bd] at this; exact Int.bmod_eq_of_le (by omega) (by omega)
  change Except.ok ((colP data x).map fun v => v.bmod 65536) = _
  congr 1
  apply List.ext_getElem
  · simp
  · intro i h1 h2
    have hl : (colP data x).length = 8 := rfl
    have := hb i (by omega)
    simp only [List.getD, List.getElem?_eq_getElem h2, Option.getD_some] at this
    rw [List.getElem_map, this]

theorem fdct_eq (pf : Platform) {data : List Int} (h : Shifted data) : fdct pf data = .ok (fdctP data) := by
  unfold fdct
  rw [mapR_ok (g := rowP data) (fun y _ => dctRow_ok pf h y)]
  simp only [ok_bind]
  rw [mapR_ok (g := colP data) (fun x hx => dctCol_ok pf h (List.mem_range.mp hx))]
  simp only [ok_bind, fdctP, Except.ok.injEq]
  apply List.map_congr_left
  intro i hi
  have : i % 8 < 8 := Nat.mod_lt _ (by omega)
  simp [List.getD, this]

theorem fdctP_length (data : List Int) : (fdctP data).length = 64 := by simp [fdctP]

theorem fdctP_getD (data : List Int) {i : Nat} (hi : i < 64) :
    (fdctP data).getD i 0 = (colP data (i % 8)).getD (i / 8) 0 := by
  simp [fdctP, List.getD, hi]

theorem fdctP_bounds {data : List Int} (h : Shifted data) {i : Nat} (hi : i < 64) :
    (i = 0 → -8192 ≤ (fdctP data).getD i 0 ∧ (fdctP data).getD i 0 ≤ 8128) ∧
    (i ≠ 0 → Bd 8160 ((fdctP data).getD i 0)) := by
  rw [fdctP_getD data hi]
  obtain ⟨h1, h2⟩ := colP_bounds h (show i % 8 < 8 by omega) (show i / 8 < 8 by omega)
  exact ⟨fun h => h1 (by omega), fun h => h2 (by omega)⟩

theorem list64 {data : List Int} (h : data.length = 64) : data = (List.range 64).map fun i => data.getD i 0 := by
  apply List.ext_getElem
  · simp [h]
  · intro i h1 h2
    simp [List.getD, h1]

theorem fdctP_dc {data : List Int} (hl : data.length = 64) : (fdctP data).getD 0 0 = data.sum := by
  rw [fdctP_getD data (by omega)]
  conv_rhs => rw [list64 hl]
  generalize hf : (fun i => data.getD i 0) = f
  have e : ((List.range 64).map f).sum =
    f 0 + (f 1 + (f 2 + (f 3 + (f 4 + (f 5 + (f 6 + (f 7 + (f 8 + (f 9 + (f 10 + (f 11 + (f 12 + (f 13 + (f 14 + (f 15 +
    (f 16 + (f 17 + (f 18 + (f 19 + (f 20 + (f 21 + (f 22 + (f 23 + (f 24 + (f 25 + (f 26 + (f 27 + (f 28 + (f 29 +
    (f 30 + (f 31 + (f 32 + (f 33 + (f 34 + (f 35 + (f 36 + (f 37 + (f 38 + (f 39 + (f 40 + (f 41 + (f 42 + (f 43 +
    (f 44 + (f 45 + (f 46 + (f 47 + (f 48 + (f 49 + (f 50 + (f 51 + (f 52 + (f 53 + (f 54 + (f 55 + (f 56 + (f 57 +
    (f 58 + (f 59 + (f 60 + (f 61 + (f 62 + (f 63 + 0))))))))))))))))))))))))))))))))))))))))))))))))))))))))))))))) := rfl
  rw [e]
  have g : ∀ i, data.getD i 0 = f i := fun i => by rw [← hf]
  simp only [colP, rhoP, rowP, dct8P, num0, dsc, g, Nat.zero_mod, Nat.zero_div, List.getD_cons_zero]
  norm_num
  omega

end Jpeg
