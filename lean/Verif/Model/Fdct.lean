import Verif.Model.Basic
/-! Model of src/fdct.rs. -/
namespace Jpeg

/-- src/fdct.rs:77 -/
def FIX_0_298631336 : Int := 2446
/-- src/fdct.rs:78 -/
def FIX_0_390180644 : Int := 3196
/-- src/fdct.rs:79 -/
def FIX_0_541196100 : Int := 4433
/-- src/fdct.rs:80 -/
def FIX_0_765366865 : Int := 6270
/-- src/fdct.rs:81 -/
def FIX_0_899976223 : Int := 7373
/-- src/fdct.rs:82 -/
def FIX_1_175875602 : Int := 9633
/-- src/fdct.rs:83 -/
def FIX_1_501321110 : Int := 12299
/-- src/fdct.rs:84 -/
def FIX_1_847759065 : Int := 15137
/-- src/fdct.rs:85 -/
def FIX_1_961570560 : Int := 16069
/-- src/fdct.rs:86 -/
def FIX_2_053119869 : Int := 16819
/-- src/fdct.rs:87 -/
def FIX_2_562915447 : Int := 20995
/-- src/fdct.rs:88 -/
def FIX_3_072711026 : Int := 25172

/-- src/fdct.rs:74-75 -/
def CONST_BITS : Nat := 13
/-- src/fdct.rs:75 -/
def PASS1_BITS : Nat := 2

/-- Overflow check of one `i32` operation.
Rust semantics of the arithmetic in src/fdct.rs:113-285. -/
def i32 (pf : Platform) (v : Int) : R Int := ckI pf 32 v

/-- src/fdct.rs:92-96 `descale`: `(x + (1 << (n - 1))) >> n` (arithmetic shift = floor division). -/
def descale (pf : Platform) (x : Int) (n : Nat) : R Int := do
  let s ← i32 pf (x + 2 ^ (n - 1))
  .ok (s / 2 ^ n)

/-- `v << s` on `i32`: shifted-out bits are lost (no overflow check on values in Rust).
src/fdct.rs:132-133 -/
def shlI32 (v : Int) (s : Nat) : Int := (v * 2 ^ s).bmod (2 ^ 32)

/-- The common body of both passes, src/fdct.rs:115-172 and 181-238: one 8 point transform. `even04` is how
outputs 0 and 4 are scaled, `n` the descale amount of the other six. Result in order 0..7. Each addition,
subtraction and multiplication is an `i32` operation. -/
def dct8 (pf : Platform) (even04 : Int → R Int) (n : Nat) (d : List Int) : R (List Int) := do
  let d0 ← idx d 0
  let d1 ← idx d 1
  let d2 ← idx d 2
  let d3 ← idx d 3
  let d4 ← idx d 4
  let d5 ← idx d 5
  let d6 ← idx d 6
  let d7 ← idx d 7
  let tmp0 ← i32 pf (d0 + d7)
  let tmp7 ← i32 pf (d0 - d7)
  let tmp1 ← i32 pf (d1 + d6)
  let tmp6 ← i32 pf (d1 - d6)
  let tmp2 ← i32 pf (d2 + d5)
  let tmp5 ← i32 pf (d2 - d5)
  let tmp3 ← i32 pf (d3 + d4)
  let tmp4 ← i32 pf (d3 - d4)
  -- even part
  let tmp10 ← i32 pf (tmp0 + tmp3)
  let tmp13 ← i32 pf (tmp0 - tmp3)
  let tmp11 ← i32 pf (tmp1 + tmp2)
  let tmp12 ← i32 pf (tmp1 - tmp2)
  let s ← i32 pf (tmp10 + tmp11)
  let out0 ← even04 s
  let s ← i32 pf (tmp10 - tmp11)
  let out4 ← even04 s
  let s ← i32 pf (tmp12 + tmp13)
  let z1 ← i32 pf (s * FIX_0_541196100)
  let t ← i32 pf (tmp13 * FIX_0_765366865)
  let s ← i32 pf (z1 + t)
  let out2 ← descale pf s n
  let t ← i32 pf (tmp12 * -FIX_1_847759065)
  let s ← i32 pf (z1 + t)
  let out6 ← descale pf s n
  -- odd part
  let z1 ← i32 pf (tmp4 + tmp7)
  let z2 ← i32 pf (tmp5 + tmp6)
  let z3 ← i32 pf (tmp4 + tmp6)
  let z4 ← i32 pf (tmp5 + tmp7)
  let s ← i32 pf (z3 + z4)
  let z5 ← i32 pf (s * FIX_1_175875602)
  let tmp4 ← i32 pf (tmp4 * FIX_0_298631336)
  let tmp5 ← i32 pf (tmp5 * FIX_2_053119869)
  let tmp6 ← i32 pf (tmp6 * FIX_3_072711026)
  let tmp7 ← i32 pf (tmp7 * FIX_1_501321110)
  let z1 ← i32 pf (z1 * -FIX_0_899976223)
  let z2 ← i32 pf (z2 * -FIX_2_562915447)
  let z3 ← i32 pf (z3 * -FIX_1_961570560)
  let z4 ← i32 pf (z4 * -FIX_0_390180644)
  let z3 ← i32 pf (z3 + z5)
  let z4 ← i32 pf (z4 + z5)
  let s ← i32 pf (tmp4 + z1)
  let s ← i32 pf (s + z3)
  let out7 ← descale pf s n
  let s ← i32 pf (tmp5 + z2)
  let s ← i32 pf (s + z4)
  let out5 ← descale pf s n
  let s ← i32 pf (tmp6 + z2)
  let s ← i32 pf (s + z3)
  let out3 ← descale pf s n
  let s ← i32 pf (tmp7 + z1)
  let s ← i32 pf (s + z4)
  let out1 ← descale pf s n
  .ok [out0, out1, out2, out3, out4, out5, out6, out7]

/-- src/fdct.rs:112-173, pass 1 on one row: outputs 0 and 4 are `<< PASS1_BITS`. -/
def dctRow (pf : Platform) (d : List Int) : R (List Int) :=
  dct8 pf (fun v => .ok (shlI32 v PASS1_BITS)) (CONST_BITS - PASS1_BITS) d

/-- src/fdct.rs:180-239, pass 2 on one column: outputs 0 and 4 are `descale(_, PASS1_BITS)`, and every
output goes through `into_el` (src/fdct.rs:98-101, `as i16`). -/
def dctCol (pf : Platform) (d : List Int) : R (List Int) := do
  let o ← dct8 pf (fun v => descale pf v PASS1_BITS) (CONST_BITS + PASS1_BITS) d
  .ok (o.map fun v => v.bmod 65536)

/-- Row `y` of an 8x8 block stored row by row. src/fdct.rs:112-122 -/
def blockRow (b : List Int) (y : Nat) : List Int := (List.range 8).map fun k => b.getD (8 * y + k) 0
/-- Column `x` of an 8x8 block stored row by row. src/fdct.rs:180-188 -/
def blockCol (b : List Int) (x : Nat) : List Int := (List.range 8).map fun k => b.getD (8 * k + x) 0

/-- src/fdct.rs:105-240 `fdct`: rows into `data2`, then columns back into `data`. `data : [i16; 64]`
(constant indices below 64 on a 64 element array cannot fail, `getD`'s default is never used). -/
def fdct (pf : Platform) (data : List Int) : R (List Int) := do
  let rows ← mapR (List.range 8) fun y => dctRow pf (blockRow data y)
  let data2 := rows.flatten
  let cols ← mapR (List.range 8) fun x => dctCol pf (blockCol data2 x)
  .ok ((List.range 64).map fun i => (cols.getD (i % 8) []).getD (i / 8) 0)

end Jpeg
