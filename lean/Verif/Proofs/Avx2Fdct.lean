import Verif.Model.Avx2
import Verif.Proofs.Fdct
/-! Closed form and bounds of the AVX2 forward DCT. -/
namespace Jpeg.Avx2
open Jpeg

/-- A register of 16 lanes given by its low and its high half. -/
def reg (lo hi : Nat → Int) : List Int :=
  [lo 0, lo 1, lo 2, lo 3, lo 4, lo 5, lo 6, lo 7, hi 0, hi 1, hi 2, hi 3, hi 4, hi 5, hi 6, hi 7]

theorem doTranspose_reg (f : Nat → Nat → Int) :
    doTranspose (reg (f 0) (f 4)) (reg (f 1) (f 5)) (reg (f 2) (f 6)) (reg (f 3) (f 7)) =
      (reg (fun i => f i 1) (fun i => f i 0), reg (fun i => f i 3) (fun i => f i 2), reg (fun i => f i 4) (fun i => f i 5),
       reg (fun i => f i 6) (fun i => f i 7)) := rfl

/-- The rounding constant of the second pass in lane `j`. -/
def p2x (j : Nat) : Int := if j % 2 = 0 then 2 else 0

section
variable (d0 d1 d2 d3 d4 d5 d6 d7 : Int)
/-- The two 16 bit sums that become outputs 0 and 4. -/
def s0 : Int := w16 (w16 (w16 (d1 + d6) + w16 (d2 + d5)) + w16 (w16 (d0 + d7) + w16 (d3 + d4)))
def s4 : Int := w16 (w16 (w16 (d0 + d7) + w16 (d3 + d4)) + w16 (-w16 (w16 (d1 + d6) + w16 (d2 + d5))))
def ev (fp : Bool) (j : Nat) (v : Int) : Int := if fp then w16 (v * 2 ^ 2) else w16 (v + p2x j) / 2 ^ 2
def fin (fp : Bool) (v : Int) : Int := sat16 (w32 (v + (if fp then 1024 else 16384)) / 2 ^ descaleP fp)
def t13 : Int := w16 (w16 (d0 + d7) - w16 (d3 + d4))
def t12 : Int := w16 (w16 (d1 + d6) - w16 (d2 + d5))
def z3 : Int := w16 (w16 (d3 - d4) + w16 (d1 - d6))
def z4 : Int := w16 (w16 (d2 - d5) + w16 (d0 - d7))
def e2 : Int := w32 (t13 d0 d3 d4 d7 * (4433 + 6270) + t12 d1 d2 d5 d6 * 4433)
def e6 : Int := w32 (t12 d1 d2 d5 d6 * (4433 - 15137) + t13 d0 d3 d4 d7 * 4433)
def y3 : Int := w32 (z3 d1 d3 d4 d6 * (9633 - 16069) + z4 d0 d2 d5 d7 * 9633)
def y4 : Int := w32 (z4 d0 d2 d5 d7 * (9633 - 3196) + z3 d1 d3 d4 d6 * 9633)
def e7 : Int := w32 (w32 (w16 (d3 - d4) * (2446 - 7373) + w16 (d0 - d7) * -7373) + y3 d0 d1 d2 d3 d4 d5 d6 d7)
def e5 : Int := w32 (w32 (w16 (d2 - d5) * (16819 - 20995) + w16 (d1 - d6) * -20995) + y4 d0 d1 d2 d3 d4 d5 d6 d7)
def e3 : Int := w32 (w32 (w16 (d1 - d6) * (25172 - 20995) + w16 (d2 - d5) * -20995) + y3 d0 d1 d2 d3 d4 d5 d6 d7)
def e1 : Int := w32 (w32 (w16 (d0 - d7) * (12299 - 7373) + w16 (d3 - d4) * -7373) + y4 d0 d1 d2 d3 d4 d5 d6 d7)
end

theorem doDct_reg (fp : Bool) (d0 d1 d2 d3 d4 d5 d6 d7 : Nat → Int) :
    doDct fp (reg d1 d0) (reg d3 d2) (reg d4 d5) (reg d6 d7) =
      let on := fun f : Int → Int → Int → Int → Int → Int → Int → Int → Int =>
        fun j => f (d0 j) (d1 j) (d2 j) (d3 j) (d4 j) (d5 j) (d6 j) (d7 j)
      (reg (fun j => ev fp j (on s0 j)) (fun j => ev fp j (on s4 j)),
       reg (fun j => fin fp (on e3 j)) (fun j => fin fp (on e1 j)),
       reg (fun j => fin fp (on e2 j)) (fun j => fin fp (on e6 j)),
       reg (fun j => fin fp (on e7 j)) (fun j => fin fp (on e5 j))) := by
  cases fp <;> rfl

theorem w16_of {v : Int} (h1 : -32768 ≤ v) (h2 : v ≤ 32767) : w16 v = v := Int.bmod_eq_of_le (by omega) (by omega)
theorem w32_of {v : Int} (h1 : -2147483648 ≤ v) (h2 : v ≤ 2147483647) : w32 v = v := Int.bmod_eq_of_le (by omega) (by omega)

/-- Eight values in the range that occurs. -/
structure In (lo hi : Int) (d0 d1 d2 d3 d4 d5 d6 d7 : Int) : Prop where
  h0 : lo ≤ d0 ∧ d0 ≤ hi
  h1 : lo ≤ d1 ∧ d1 ≤ hi
  h2 : lo ≤ d2 ∧ d2 ≤ hi
  h3 : lo ≤ d3 ∧ d3 ≤ hi
  h4 : lo ≤ d4 ∧ d4 ≤ hi
  h5 : lo ≤ d5 ∧ d5 ≤ hi
  h6 : lo ≤ d6 ∧ d6 ≤ hi
  h7 : lo ≤ d7 ∧ d7 ≤ hi

theorem lanes_eq {lo hi : Int} (hlo : lo = -128 ∧ hi = 127 ∨ lo = -4096 ∧ hi = 4064 ∨ lo = -4080 ∧ hi = 4080)
    {d0 d1 d2 d3 d4 d5 d6 d7 : Int} (h : In lo hi d0 d1 d2 d3 d4 d5 d6 d7) :
    s0 d0 d1 d2 d3 d4 d5 d6 d7 = num0 d0 d1 d2 d3 d4 d5 d6 d7 ∧ s4 d0 d1 d2 d3 d4 d5 d6 d7 = num4 d0 d1 d2 d3 d4 d5 d6 d7 ∧
    e1 d0 d1 d2 d3 d4 d5 d6 d7 = num1 d0 d1 d2 d3 d4 d5 d6 d7 ∧ e2 d0 d1 d2 d3 d4 d5 d6 d7 = num2 d0 d1 d2 d3 d4 d5 d6 d7 ∧
    e3 d0 d1 d2 d3 d4 d5 d6 d7 = num3 d0 d1 d2 d3 d4 d5 d6 d7 ∧ e5 d0 d1 d2 d3 d4 d5 d6 d7 = num5 d0 d1 d2 d3 d4 d5 d6 d7 ∧
    e6 d0 d1 d2 d3 d4 d5 d6 d7 = num6 d0 d1 d2 d3 d4 d5 d6 d7 ∧ e7 d0 d1 d2 d3 d4 d5 d6 d7 = num7 d0 d1 d2 d3 d4 d5 d6 d7 := by
  obtain ⟨h0, h1, h2, h3, h4, h5, h6, h7⟩ := h
  have hb : -4096 ≤ lo ∧ hi ≤ 4080 := by omega
  have a1 : w16 (d1 + d6) = d1 + d6 := w16_of (by omega) (by omega)
  have a2 : w16 (d2 + d5) = d2 + d5 := w16_of (by omega) (by omega)
  have a0 : w16 (d0 + d7) = d0 + d7 := w16_of (by omega) (by omega)
  have a3 : w16 (d3 + d4) = d3 + d4 := w16_of (by omega) (by omega)
  have b1 : w16 (d1 - d6) = d1 - d6 := w16_of (by omega) (by omega)
  have b2 : w16 (d2 - d5) = d2 - d5 := w16_of (by omega) (by omega)
  have b0 : w16 (d0 - d7) = d0 - d7 := w16_of (by omega) (by omega)
  have b3 : w16 (d3 - d4) = d3 - d4 := w16_of (by omega) (by omega)
  have e10 : w16 (d0 + d7 + (d3 + d4)) = d0 + d7 + (d3 + d4) := w16_of (by omega) (by omega)
  have e11 : w16 (d1 + d6 + (d2 + d5)) = d1 + d6 + (d2 + d5) := w16_of (by omega) (by omega)
  have e11n : w16 (-(d1 + d6 + (d2 + d5))) = -(d1 + d6 + (d2 + d5)) := w16_of (by omega) (by omega)
  have e13 : t13 d0 d3 d4 d7 = d0 + d7 - (d3 + d4) := by unfold t13; rw [a0, a3]; exact w16_of (by omega) (by omega)
  have e12 : t12 d1 d2 d5 d6 = d1 + d6 - (d2 + d5) := by unfold t12; rw [a1, a2]; exact w16_of (by omega) (by omega)
  have f3 : z3 d1 d3 d4 d6 = d3 - d4 + (d1 - d6) := by unfold z3; rw [b1, b3]; exact w16_of (by omega) (by omega)
  have f4 : z4 d0 d2 d5 d7 = d2 - d5 + (d0 - d7) := by unfold z4; rw [b0, b2]; exact w16_of (by omega) (by omega)
  have g3 : y3 d0 d1 d2 d3 d4 d5 d6 d7 = (d3 - d4 + (d1 - d6)) * (9633 - 16069) + (d2 - d5 + (d0 - d7)) * 9633 := by
    unfold y3; rw [f3, f4]; exact w32_of (by omega) (by omega)
  have g4 : y4 d0 d1 d2 d3 d4 d5 d6 d7 = (d2 - d5 + (d0 - d7)) * (9633 - 3196) + (d3 - d4 + (d1 - d6)) * 9633 := by
    unfold y4; rw [f3, f4]; exact w32_of (by omega) (by omega)
  refine ⟨?_, ?_, ?_, ?_, ?_, ?_, ?_, ?_⟩
  · unfold s0 num0; rw [a0, a1, a2, a3, e10, e11, w16_of (by omega) (by omega)]; ring
  · unfold s4 num4; rw [a0, a1, a2, a3, e10, e11, e11n, w16_of (by omega) (by omega)]; ring
  · have : w32 ((d0 - d7) * (12299 - 7373) + (d3 - d4) * -7373) = (d0 - d7) * (12299 - 7373) + (d3 - d4) * -7373 := w32_of (by omega) (by omega)
    unfold e1 num1; rw [b0, b3, g4, this, w32_of (by omega) (by omega)]; ring
  · unfold e2 num2; rw [e12, e13, w32_of (by omega) (by omega)]; ring
  · have : w32 ((d1 - d6) * (25172 - 20995) + (d2 - d5) * -20995) = (d1 - d6) * (25172 - 20995) + (d2 - d5) * -20995 := w32_of (by omega) (by omega)
    unfold e3 num3; rw [b1, b2, g3, this, w32_of (by omega) (by omega)]; ring
  · have : w32 ((d2 - d5) * (16819 - 20995) + (d1 - d6) * -20995) = (d2 - d5) * (16819 - 20995) + (d1 - d6) * -20995 := w32_of (by omega) (by omega)
    unfold e5 num5; rw [b1, b2, g4, this, w32_of (by omega) (by omega)]; ring
  · unfold e6 num6; rw [e12, e13, w32_of (by omega) (by omega)]; ring
  · have : w32 ((d3 - d4) * (2446 - 7373) + (d0 - d7) * -7373) = (d3 - d4) * (2446 - 7373) + (d0 - d7) * -7373 := w32_of (by omega) (by omega)
    unfold e7 num7; rw [b0, b3, g3, this, w32_of (by omega) (by omega)]; ring

theorem sat16_of {v : Int} (h : Bd 8160 v) : sat16 v = v := by
  unfold Bd at h
  unfold sat16
  rw [if_neg (by omega), if_neg (by omega)]

theorem fin_row {v : Int} (h : Bd 3770 (dsc v 11)) : fin true v = dsc v 11 := by
  have e : ∀ v, dsc v 11 = (v + 1024) / 2048 := fun v => by unfold dsc; norm_num
  unfold Bd at h
  rw [e] at h
  unfold fin
  rw [show (if true = true then (1024 : Int) else 16384) = 1024 from rfl, w32_of (by omega) (by omega),
    show (2 : Int) ^ descaleP true = 2048 by simp [descaleP, DESCALE_P1], e]
  exact sat16_of (by unfold Bd; omega)

theorem fin_col {v : Int} (h : Bd 7540 (dsc v 15)) : fin false v = dsc v 15 := by
  have e : ∀ v, dsc v 15 = (v + 16384) / 32768 := fun v => by unfold dsc; norm_num
  unfold Bd at h
  rw [e] at h
  unfold fin
  rw [show (if false = true then (1024 : Int) else 16384) = 16384 from rfl, w32_of (by omega) (by omega),
    show (2 : Int) ^ descaleP false = 32768 by simp [descaleP, DESCALE_P2], e]
  exact sat16_of (by unfold Bd; omega)

/-- Second pass, column `x`: outputs 0 and 4 of odd columns are not rounded. -/
def colA (data : List Int) (x : Nat) : List Int :=
  dct8P (fun v => if x % 2 = 0 then dsc v 2 else v / 4) 15 (rhoP data 0 x) (rhoP data 1 x) (rhoP data 2 x) (rhoP data 3 x)
    (rhoP data 4 x) (rhoP data 5 x) (rhoP data 6 x) (rhoP data 7 x)

/-- The AVX2 forward DCT without wrap-around. -/
def fdctA (data : List Int) : List Int := (List.range 64).map fun i => (colA data (i % 8)).getD (i / 8) 0

/-- Column `x` of the samples: first pass of all rows. -/
theorem pass1 {data : List Int} (h : Shifted data) :
    let d := fun x y => data.getD (8 * y + x) 0
    doDct true (reg (d 1) (d 0)) (reg (d 3) (d 2)) (reg (d 4) (d 5)) (reg (d 6) (d 7)) =
      (reg (fun y => rhoP data y 0) (fun y => rhoP data y 4), reg (fun y => rhoP data y 3) (fun y => rhoP data y 1),
       reg (fun y => rhoP data y 2) (fun y => rhoP data y 6), reg (fun y => rhoP data y 7) (fun y => rhoP data y 5)) := by
  intro d
  rw [doDct_reg]
  have hin : ∀ y, In (-128) 127 (d 0 y) (d 1 y) (d 2 y) (d 3 y) (d 4 y) (d 5 y) (d 6 y) (d 7 y) :=
    fun y => ⟨h.getD _, h.getD _, h.getD _, h.getD _, h.getD _, h.getD _, h.getD _, h.getD _⟩
  have key := fun y => lanes_eq (Or.inl ⟨rfl, rfl⟩) (hin y)
  have bd := fun y => row_bounds _ _ _ _ _ _ _ _ (hin y).h0 (hin y).h1 (hin y).h2 (hin y).h3 (hin y).h4 (hin y).h5 (hin y).h6 (hin y).h7
  have wk : ∀ {v}, Bd 3698 v → Bd 3770 v := by unfold Bd; intros; omega
  dsimp only
  have hev : ∀ j v, Bd 1024 v → ev true j v = v * 4 := by
    intro j v hv
    unfold Bd at hv
    simp only [ev, if_true]
    norm_num
    exact w16_of (by omega) (by omega)
  have q0 : (fun y => ev true y (s0 (d 0 y) (d 1 y) (d 2 y) (d 3 y) (d 4 y) (d 5 y) (d 6 y) (d 7 y))) = fun y => rhoP data y 0 := by
    funext y; rw [(key y).1, hev]; · rfl
    · have := (bd y).1; unfold Bd; omega
  have q4 : (fun y => ev true y (s4 (d 0 y) (d 1 y) (d 2 y) (d 3 y) (d 4 y) (d 5 y) (d 6 y) (d 7 y))) = fun y => rhoP data y 4 := by
    funext y; rw [(key y).2.1, hev]; · rfl
    · have := (bd y).2.1; unfold Bd at *; omega
  have q1 : (fun y => fin true (e1 (d 0 y) (d 1 y) (d 2 y) (d 3 y) (d 4 y) (d 5 y) (d 6 y) (d 7 y))) = fun y => rhoP data y 1 := by
    funext y; rw [(key y).2.2.1, fin_row (wk (bd y).2.2.1)]; rfl
  have q2 : (fun y => fin true (e2 (d 0 y) (d 1 y) (d 2 y) (d 3 y) (d 4 y) (d 5 y) (d 6 y) (d 7 y))) = fun y => rhoP data y 2 := by
    funext y; rw [(key y).2.2.2.1, fin_row (bd y).2.2.2.1]; rfl
  have q3 : (fun y => fin true (e3 (d 0 y) (d 1 y) (d 2 y) (d 3 y) (d 4 y) (d 5 y) (d 6 y) (d 7 y))) = fun y => rhoP data y 3 := by
    funext y; rw [(key y).2.2.2.2.1, fin_row (wk (bd y).2.2.2.2.1)]; rfl
  have q5 : (fun y => fin true (e5 (d 0 y) (d 1 y) (d 2 y) (d 3 y) (d 4 y) (d 5 y) (d 6 y) (d 7 y))) = fun y => rhoP data y 5 := by
    funext y; rw [(key y).2.2.2.2.2.1, fin_row (wk (bd y).2.2.2.2.2.1)]; rfl
  have q6 : (fun y => fin true (e6 (d 0 y) (d 1 y) (d 2 y) (d 3 y) (d 4 y) (d 5 y) (d 6 y) (d 7 y))) = fun y => rhoP data y 6 := by
    funext y; rw [(key y).2.2.2.2.2.2.1, fin_row (bd y).2.2.2.2.2.2.1]; rfl
  have q7 : (fun y => fin true (e7 (d 0 y) (d 1 y) (d 2 y) (d 3 y) (d 4 y) (d 5 y) (d 6 y) (d 7 y))) = fun y => rhoP data y 7 := by
    funext y; rw [(key y).2.2.2.2.2.2.2, fin_row (wk (bd y).2.2.2.2.2.2.2)]; rfl
  rw [q0, q1, q2, q3, q4, q5, q6, q7]

theorem reg_congr {a b a' b' : Nat → Int} (h1 : ∀ j, j < 8 → a j = a' j) (h2 : ∀ j, j < 8 → b j = b' j) : reg a b = reg a' b' := by
  unfold reg
  rw [h1 0 (by omega), h1 1 (by omega), h1 2 (by omega), h1 3 (by omega), h1 4 (by omega), h1 5 (by omega), h1 6 (by omega),
    h1 7 (by omega), h2 0 (by omega), h2 1 (by omega), h2 2 (by omega), h2 3 (by omega), h2 4 (by omega), h2 5 (by omega),
    h2 6 (by omega), h2 7 (by omega)]

theorem pass2 {data : List Int} (h : Shifted data) :
    let r := fun y x => rhoP data y x
    doDct false (reg (r 1) (r 0)) (reg (r 3) (r 2)) (reg (r 4) (r 5)) (reg (r 6) (r 7)) =
      (reg (fun x => (colA data x).getD 0 0) (fun x => (colA data x).getD 4 0),
       reg (fun x => (colA data x).getD 3 0) (fun x => (colA data x).getD 1 0),
       reg (fun x => (colA data x).getD 2 0) (fun x => (colA data x).getD 6 0),
       reg (fun x => (colA data x).getD 7 0) (fun x => (colA data x).getD 5 0)) := by
  intro d
  rw [doDct_reg]
  dsimp only
  have hlane : ∀ x, x < 8 → ∃ lo hi : Int, (lo = -4096 ∧ hi = 4064 ∨ lo = -4080 ∧ hi = 4080) ∧
      In lo hi (d 0 x) (d 1 x) (d 2 x) (d 3 x) (d 4 x) (d 5 x) (d 6 x) (d 7 x) := by
    intro x hx
    by_cases hz : x = 0
    · have r := fun k => (rhoP_bounds h k hx).1 hz
      exact ⟨_, _, Or.inl ⟨rfl, rfl⟩, r 0, r 1, r 2, r 3, r 4, r 5, r 6, r 7⟩
    · have r := fun k => (rhoP_bounds h k hx).2 hz
      exact ⟨_, _, Or.inr ⟨rfl, rfl⟩, r 0, r 1, r 2, r 3, r 4, r 5, r 6, r 7⟩
  choose lo hi hlo hin using hlane
  have key := fun x (hx : x < 8) => lanes_eq (Or.inr (hlo x hx)) (hin x hx)
  have bd := fun x (hx : x < 8) => col_bounds _ _ _ _ _ _ _ _ _ _ (hlo x hx) (hin x hx).h0 (hin x hx).h1 (hin x hx).h2 (hin x hx).h3
    (hin x hx).h4 (hin x hx).h5 (hin x hx).h6 (hin x hx).h7
  have wk : ∀ {v}, Bd 7400 v → Bd 7540 v := by unfold Bd; intros; omega
  have hev : ∀ j v, -32768 ≤ v → v ≤ 32765 → ev false j v = if j % 2 = 0 then dsc v 2 else v / 4 := by
    intro j v h1 h2
    have ht : ¬ (false = true) := by simp
    unfold ev p2x dsc
    rw [if_neg ht]
    split
    · rw [w16_of (by omega) (by omega)]; norm_num
    · rw [w16_of (by omega) (by omega)]; norm_num
  have b04 : ∀ x, x < 8 → (-32768 ≤ num0 (d 0 x) (d 1 x) (d 2 x) (d 3 x) (d 4 x) (d 5 x) (d 6 x) (d 7 x) ∧
      num0 (d 0 x) (d 1 x) (d 2 x) (d 3 x) (d 4 x) (d 5 x) (d 6 x) (d 7 x) ≤ 32765) ∧
      (-32768 ≤ num4 (d 0 x) (d 1 x) (d 2 x) (d 3 x) (d 4 x) (d 5 x) (d 6 x) (d 7 x) ∧
      num4 (d 0 x) (d 1 x) (d 2 x) (d 3 x) (d 4 x) (d 5 x) (d 6 x) (d 7 x) ≤ 32765) := by
    intro x hx
    obtain ⟨h0, h1, h2, h3, h4, h5, h6, h7⟩ := hin x hx
    have hb := hlo x hx
    generalize lo x hx = l at *
    generalize hi x hx = u at *
    unfold num0 num4
    rcases hb with ⟨rfl, rfl⟩ | ⟨rfl, rfl⟩ <;> omega
  refine Prod.ext ?_ (Prod.ext ?_ (Prod.ext ?_ ?_))
  · dsimp only
    refine reg_congr (fun x hx => ?_) fun x hx => ?_
    · rw [(key x hx).1, hev _ _ (b04 x hx).1.1 (b04 x hx).1.2]; rfl
    · rw [(key x hx).2.1, hev _ _ (b04 x hx).2.1 (b04 x hx).2.2]; rfl
  · dsimp only
    refine reg_congr (fun x hx => ?_) fun x hx => ?_
    · rw [(key x hx).2.2.2.2.1, fin_col (wk (bd x hx).2.2.2.2.1)]; rfl
    · rw [(key x hx).2.2.1, fin_col (wk (bd x hx).2.2.1)]; rfl
  · dsimp only
    refine reg_congr (fun x hx => ?_) fun x hx => ?_
    · rw [(key x hx).2.2.2.1, fin_col (bd x hx).2.2.2.1]; rfl
    · rw [(key x hx).2.2.2.2.2.2.1, fin_col (bd x hx).2.2.2.2.2.2.1]; rfl
  · dsimp only
    refine reg_congr (fun x hx => ?_) fun x hx => ?_
    · rw [(key x hx).2.2.2.2.2.2.2, fin_col (wk (bd x hx).2.2.2.2.2.2.2)]; rfl
    · rw [(key x hx).2.2.2.2.2.1, fin_col (wk (bd x hx).2.2.2.2.2.1)]; rfl

theorem fdctAvx2_eq {data : List Int} (hl : data.length = 64) (h : Shifted data) : fdctAvx2 data = fdctA data := by
  have hdata : data = (List.range 64).map fun i => data.getD i 0 := list64 hl
  have e0 : permute2x128 (data.take 16) ((data.drop 32).take 16) 0x20 = reg (fun x => data.getD (8 * 0 + x) 0) (fun x => data.getD (8 * 4 + x) 0) := by
    conv_lhs => rw [hdata]
    rfl
  have e1 : permute2x128 (data.take 16) ((data.drop 32).take 16) 0x31 = reg (fun x => data.getD (8 * 1 + x) 0) (fun x => data.getD (8 * 5 + x) 0) := by
    conv_lhs => rw [hdata]
    rfl
  have e2 : permute2x128 ((data.drop 16).take 16) ((data.drop 48).take 16) 0x20 = reg (fun x => data.getD (8 * 2 + x) 0) (fun x => data.getD (8 * 6 + x) 0) := by
    conv_lhs => rw [hdata]
    rfl
  have e3 : permute2x128 ((data.drop 16).take 16) ((data.drop 48).take 16) 0x31 = reg (fun x => data.getD (8 * 3 + x) 0) (fun x => data.getD (8 * 7 + x) 0) := by
    conv_lhs => rw [hdata]
    rfl
  unfold fdctAvx2
  dsimp only
  rw [e0, e1, e2, e3, doTranspose_reg fun y x => data.getD (8 * y + x) 0]
  dsimp only
  rw [pass1 h]
  dsimp only
  have f1 : ∀ a b c d : Nat → Int, permute2x128 (reg a b) (reg c d) 0x20 = reg a c := fun _ _ _ _ => rfl
  have f2 : ∀ a b c d : Nat → Int, permute2x128 (reg a b) (reg c d) 0x31 = reg b d := fun _ _ _ _ => rfl
  have f3 : ∀ a b c d : Nat → Int, permute2x128 (reg a b) (reg c d) 0x30 = reg a d := fun _ _ _ _ => rfl
  have f4 : ∀ a b c d : Nat → Int, permute2x128 (reg a b) (reg c d) 0x21 = reg b c := fun _ _ _ _ => rfl
  rw [f1, f2, doTranspose_reg fun x y => rhoP data y x]
  dsimp only
  rw [pass2 h]
  dsimp only
  rw [f3, f1, f2, f4]
  rfl

theorem colA_getD {data : List Int} {x y : Nat} (h : ¬ (x % 2 = 1 ∧ (y = 0 ∨ y = 4))) : (colA data x).getD y 0 = (colP data x).getD y 0 := by
  by_cases hy : y < 8
  · rcases lt8_cases hy with rfl | rfl | rfl | rfl | rfl | rfl | rfl | rfl <;>
      simp only [colA, colP, dct8P, List.getD_cons_zero, List.getD_cons_succ]
    · rw [if_pos (by omega)]
    · rw [if_pos (by omega)]
  · have h1 : (colA data x).length = 8 := rfl
    have h2 : (colP data x).length = 8 := rfl
    simp [List.getD, List.getElem?_eq_none (show (colA data x).length ≤ y by omega),
      List.getElem?_eq_none (show (colP data x).length ≤ y by omega)]

theorem colA_le (data : List Int) {x y : Nat} : (colA data x).getD y 0 ≤ (colP data x).getD y 0 ∧
    (colP data x).getD y 0 - 1 ≤ (colA data x).getD y 0 := by
  by_cases h : x % 2 = 1 ∧ (y = 0 ∨ y = 4)
  · have key : ∀ v : Int, (if x % 2 = 0 then dsc v 2 else v / 4) ≤ dsc v 2 ∧ dsc v 2 - 1 ≤ (if x % 2 = 0 then dsc v 2 else v / 4) := by
      intro v
      rw [if_neg (by omega), show dsc v 2 = (v + 2) / 4 by unfold dsc; norm_num]
      omega
    rcases h.2 with rfl | rfl <;> simp only [colA, colP, dct8P, List.getD_cons_zero, List.getD_cons_succ] <;> exact key _
  · rw [colA_getD h]; omega

theorem fdctA_getD (data : List Int) {i : Nat} (hi : i < 64) : (fdctA data).getD i 0 = (colA data (i % 8)).getD (i / 8) 0 := by
  simp [fdctA, List.getD, hi]

theorem fdctA_length (data : List Int) : (fdctA data).length = 64 := by simp [fdctA]

/-- Where the AVX2 transform agrees with the scalar one, and how far it is off elsewhere. -/
theorem fdctA_spec (data : List Int) {i : Nat} (hi : i < 64) :
    (fdctA data).getD i 0 ≤ (fdctP data).getD i 0 ∧ (fdctP data).getD i 0 - 1 ≤ (fdctA data).getD i 0 ∧
    (¬ (i % 2 = 1 ∧ (i < 8 ∨ 32 ≤ i ∧ i < 40)) → (fdctA data).getD i 0 = (fdctP data).getD i 0) := by
  rw [fdctA_getD data hi, fdctP_getD data hi]
  exact ⟨(colA_le data).1, (colA_le data).2, fun h => colA_getD (by omega)⟩

end Jpeg.Avx2
