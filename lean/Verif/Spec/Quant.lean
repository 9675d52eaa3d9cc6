/-! Specification vocabulary for C20-C23, C39, C40: written from the libjpeg quality rule, ITU-T T.81 Annex K
(tables K.1, K.2), Figure F.12 (EXTEND), Table F.1 (categories) and Figure A.6 (zig-zag). Uses no model definition. -/
namespace Spec

/-- Force `v` into `lo..hi`. -/
def clamp (lo hi v : Nat) : Nat := max lo (min hi v)

/-- The quality rule of the Independent JPEG Group (libjpeg `jpeg_quality_scaling`): percentage to scale by. -/
def ijgPercent (quality : Nat) : Nat :=
  let q := clamp 1 100 quality
  if q < 50 then 5000 / q else 200 - 2 * q

/-- libjpeg `jpeg_add_quant_table` with `force_baseline`: scaled entry, rounded, in 1..255. -/
def ijgStep (quality base : Nat) : Nat := clamp 1 255 ((base * ijgPercent quality + 50) / 100)

/-- Table K.1, luminance. -/
def annexKLuma : List Nat :=
  [16, 11, 10, 16,  24,  40,  51,  61,
   12, 12, 14, 19,  26,  58,  60,  55,
   14, 13, 16, 24,  40,  57,  69,  56,
   14, 17, 22, 29,  51,  87,  80,  62,
   18, 22, 37, 56,  68, 109, 103,  77,
   24, 35, 55, 64,  81, 104, 113,  92,
   49, 64, 78, 87, 103, 121, 120, 101,
   72, 92, 95, 98, 112, 100, 103,  99]

/-- Table K.2, chrominance. -/
def annexKChroma : List Nat :=
  [17, 18, 24, 47, 99, 99, 99, 99,
   18, 21, 26, 66, 99, 99, 99, 99,
   24, 26, 56, 99, 99, 99, 99, 99,
   47, 66, 99, 99, 99, 99, 99, 99,
   99, 99, 99, 99, 99, 99, 99, 99,
   99, 99, 99, 99, 99, 99, 99, 99,
   99, 99, 99, 99, 99, 99, 99, 99,
   99, 99, 99, 99, 99, 99, 99, 99]

/-- Figure A.6 by geometry: the cells `(row, column)` of the anti-diagonal `row + column = d`, upwards
(towards row 0) when `d` is even and downwards when it is odd. -/
def diagonal (d : Nat) : List (Nat × Nat) :=
  let cells := ((List.range 8).filter fun r => r ≤ d ∧ d - r < 8).map fun r => (r, d - r)
  if d % 2 = 0 then cells.reverse else cells

/-- All 64 cells in zig-zag order, as indices `8 * row + column`. -/
def zigzag : List Nat := ((List.range 15).map diagonal).flatten.map fun rc => 8 * rc.1 + rc.2

/-- Table F.1/F.2: `v` has magnitude category `s`. -/
def IsCategory (v : Int) (s : Nat) : Prop :=
  (v = 0 ∧ s = 0) ∨ (0 < s ∧ 2 ^ (s - 1) ≤ v.natAbs ∧ v.natAbs < 2 ^ s)

/-- Figure F.12 EXTEND: the value of `t` additional bits `v`. -/
def extend (v t : Nat) : Int :=
  if v < 2 ^ (t - 1) then (v : Int) - 2 ^ t + 1 else v

end Spec
