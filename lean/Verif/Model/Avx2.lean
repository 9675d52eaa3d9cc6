import Verif.Model.ImageBuffer
/-! Model of src/avx2/fdct.rs and src/avx2/ycbcr.rs.

A 256 bit register is a list of lanes, lane 0 (least significant) first: 16 signed 16 bit lanes or 8 signed
32 bit lanes. The intrinsics follow Intel's description; wrapping is `Int.bmod`. -/
namespace Jpeg.Avx2

/-- Rearrangement of lanes: result lane `i` is lane `is[i]` of `a`.
Shared by the shuffles used in src/avx2/fdct.rs. -/
def gather (a : List Int) (is : List Nat) : List Int := is.map fun i => a.getD i 0

/-- 16 bit wrap-around. Lane arithmetic of src/avx2/fdct.rs. -/
def w16 (v : Int) : Int := v.bmod 65536
/-- 32 bit wrap-around. Lane arithmetic of src/avx2/fdct.rs and src/avx2/ycbcr.rs. -/
def w32 (v : Int) : Int := v.bmod 4294967296
/-- Signed saturation to 16 bits. Used by `packs32`, src/avx2/fdct.rs:311. -/
def sat16 (v : Int) : Int := if v < -32768 then -32768 else if v > 32767 then 32767 else v

/-- `_mm256_add_epi16` — src/avx2/fdct.rs:256 -/
def add16 (a b : List Int) : List Int := List.zipWith (fun x y => w16 (x + y)) a b
/-- `_mm256_sub_epi16` — src/avx2/fdct.rs:255 -/
def sub16 (a b : List Int) : List Int := List.zipWith (fun x y => w16 (x - y)) a b
/-- `_mm256_add_epi32` — src/avx2/fdct.rs:297, src/avx2/ycbcr.rs:72 -/
def add32 (a b : List Int) : List Int := List.zipWith (fun x y => w32 (x + y)) a b
/-- `_mm256_sub_epi32` — src/avx2/ycbcr.rs:81 -/
def sub32 (a b : List Int) : List Int := List.zipWith (fun x y => w32 (x - y)) a b
/-- `_mm256_mullo_epi32` — src/avx2/ycbcr.rs:68 -/
def mullo32 (a b : List Int) : List Int := List.zipWith (fun x y => w32 (x * y)) a b
/-- `_mm256_slli_epi16` — src/avx2/fdct.rs:275 -/
def slli16 (a : List Int) (n : Nat) : List Int := a.map fun x => w16 (x * 2 ^ n)
/-- `_mm256_srai_epi16` — src/avx2/fdct.rs:278 -/
def srai16 (a : List Int) (n : Nat) : List Int := a.map fun x => x / 2 ^ n
/-- `_mm256_srai_epi32` — src/avx2/fdct.rs:301 -/
def srai32 (a : List Int) (n : Nat) : List Int := a.map fun x => x / 2 ^ n
/-- `_mm256_srli_epi32` (logical shift of the unsigned representation; `n > 0`).
src/avx2/ycbcr.rs:74 -/
def srli32 (a : List Int) (n : Nat) : List Int := a.map fun x => (x % 4294967296) / 2 ^ n
/-- `_mm256_sign_epi16` — src/avx2/fdct.rs:267 -/
def sign16 (a b : List Int) : List Int :=
  List.zipWith (fun x y => if y < 0 then w16 (-x) else if y = 0 then 0 else x) a b
/-- `_mm256_madd_epi16`: products of adjacent 16 bit lanes, summed in 32 bits.
src/avx2/fdct.rs:294 -/
def madd16 : List Int → List Int → List Int
  | a0 :: a1 :: as, b0 :: b1 :: bs => w32 (a0 * b0 + a1 * b1) :: madd16 as bs
  | _, _ => []
/-- `_mm256_packs_epi32`: saturating, per 128 bit half. src/avx2/fdct.rs:311 -/
def packs32 (a b : List Int) : List Int :=
  ((gather a [0, 1, 2, 3]) ++ (gather b [0, 1, 2, 3]) ++ (gather a [4, 5, 6, 7]) ++ (gather b [4, 5, 6, 7])).map sat16
/-- `_mm256_unpacklo_epi16`: interleave the low halves of each 128 bit half. src/avx2/fdct.rs:216 -/
def unpacklo16 (a b : List Int) : List Int :=
  gather (a ++ b) [0, 16, 1, 17, 2, 18, 3, 19, 8, 24, 9, 25, 10, 26, 11, 27]
/-- `_mm256_unpackhi_epi16` — src/avx2/fdct.rs:217 -/
def unpackhi16 (a b : List Int) : List Int :=
  gather (a ++ b) [4, 20, 5, 21, 6, 22, 7, 23, 12, 28, 13, 29, 14, 30, 15, 31]
/-- `_mm256_unpacklo_epi32` on 16 bit lanes (pairs of lanes move together). src/avx2/fdct.rs:227 -/
def unpacklo32 (a b : List Int) : List Int :=
  gather (a ++ b) [0, 1, 16, 17, 2, 3, 18, 19, 8, 9, 24, 25, 10, 11, 26, 27]
/-- `_mm256_unpackhi_epi32` on 16 bit lanes. src/avx2/fdct.rs:228 -/
def unpackhi32 (a b : List Int) : List Int :=
  gather (a ++ b) [4, 5, 20, 21, 6, 7, 22, 23, 12, 13, 28, 29, 14, 15, 30, 31]
/-- `_mm256_permute4x64_epi64(a, imm)`: quad `i` of the result is quad `imm[2i+1:2i]` of `a`.
src/avx2/fdct.rs:239 -/
def permute4x64 (a : List Int) (imm : Nat) : List Int :=
  gather a ((List.range 16).map fun i => (imm / 4 ^ (i / 4)) % 4 * 4 + i % 4)
/-- `_mm256_permute2x128_si256(a, b, imm)`: halves selected from `a.lo, a.hi, b.lo, b.hi`
(bits 3 and 7 of `imm`, which zero a half, are never set in this code). src/avx2/fdct.rs:262 -/
def permute2x128 (a b : List Int) (imm : Nat) : List Int :=
  gather (a ++ b) ((List.range 16).map fun i => (imm / 16 ^ (i / 8)) % 4 * 8 + i % 8)
/-- `_mm256_set_epi16(e15, .., e0)`: the last argument is lane 0. src/avx2/fdct.rs:71 -/
def set16 (l : List Int) : List Int := l.reverse
/-- `_mm256_set_epi32(e7, .., e0)` — src/avx2/fdct.rs:164, src/avx2/ycbcr.rs:25 -/
def set32 (l : List Int) : List Int := l.reverse
/-- `_mm256_set1_epi32` — src/avx2/ycbcr.rs:44 -/
def set1_32 (v : Int) : List Int := List.replicate 8 v
/-- Reinterpretation of 32 bit lanes as 16 bit lanes.
Between 32 and 16 bit operations on one register, src/avx2/fdct.rs:294-311. -/
def cast16 : List Int → List Int
  | [] => []
  | x :: xs => w16 x :: w16 (x / 65536) :: cast16 xs

/-- src/avx2/fdct.rs:70-89 -/
def PW_F130_F054_MF130_F054 : List Int := set16
  [4433, 4433 - 15137, 4433, 4433 - 15137, 4433, 4433 - 15137, 4433, 4433 - 15137,
   4433, 4433 + 6270, 4433, 4433 + 6270, 4433, 4433 + 6270, 4433, 4433 + 6270]
/-- src/avx2/fdct.rs:93-112 -/
def PW_MF078_F117_F078_F117 : List Int := set16
  [9633, 9633 - 3196, 9633, 9633 - 3196, 9633, 9633 - 3196, 9633, 9633 - 3196,
   9633, 9633 - 16069, 9633, 9633 - 16069, 9633, 9633 - 16069, 9633, 9633 - 16069]
/-- src/avx2/fdct.rs:116-135 -/
def PW_MF060_MF089_MF050_MF256 : List Int := set16
  [-20995, 16819 - 20995, -20995, 16819 - 20995, -20995, 16819 - 20995, -20995, 16819 - 20995,
   -7373, 2446 - 7373, -7373, 2446 - 7373, -7373, 2446 - 7373, -7373, 2446 - 7373]
/-- src/avx2/fdct.rs:139-158 -/
def PW_F050_MF256_F060_MF089 : List Int := set16
  [-7373, 12299 - 7373, -7373, 12299 - 7373, -7373, 12299 - 7373, -7373, 12299 - 7373,
   -20995, 25172 - 20995, -20995, 25172 - 20995, -20995, 25172 - 20995, -20995, 25172 - 20995]

/-- src/avx2/fdct.rs:56-57 -/
def DESCALE_P1 : Nat := 13 - 2
/-- src/avx2/fdct.rs:57 -/
def DESCALE_P2 : Nat := 13 + 2
/-- src/avx2/fdct.rs:56-57 selected by pass, as at each use. -/
def descaleP (firstPass : Bool) : Nat := if firstPass then DESCALE_P1 else DESCALE_P2

/-- src/avx2/fdct.rs:162-186 -/
def PD_DESCALE_P (firstPass : Bool) : List Int :=
  if firstPass then set32 (List.replicate 8 (2 ^ (DESCALE_P1 - 1)))
  else set32 (List.replicate 8 (2 ^ (DESCALE_P2 - 1)))

/-- src/avx2/fdct.rs:190-201: eight 32 bit values `1 << (PASS1_BITS - 1)`, later used as 16 bit lanes. -/
def PW_DESCALE_P2X : List Int := cast16 (set32 (List.replicate 8 (2 ^ (2 - 1))))

/-- src/avx2/fdct.rs:204-244 `do_transpose`. -/
def doTranspose (i1 i2 i3 i4 : List Int) : List Int × List Int × List Int × List Int :=
  let t5 := unpacklo16 i1 i2
  let t6 := unpackhi16 i1 i2
  let t7 := unpacklo16 i3 i4
  let t8 := unpackhi16 i3 i4
  let t1 := unpacklo32 t5 t7
  let t2 := unpackhi32 t5 t7
  let t3 := unpacklo32 t6 t8
  let t4 := unpackhi32 t6 t8
  (permute4x64 t1 0x8D, permute4x64 t2 0x8D, permute4x64 t3 0xD8, permute4x64 t4 0xD8)

/-- src/avx2/fdct.rs:247-413 `do_dct`. -/
def doDct (firstPass : Bool) (i1 i2 i3 i4 : List Int) : List Int × List Int × List Int × List Int :=
  let t5 := sub16 i1 i4
  let t6 := add16 i1 i4
  let t7 := add16 i2 i3
  let t8 := sub16 i2 i3
  -- even part
  let t6 := permute2x128 t6 t6 0x01
  let t1 := add16 t6 t7
  let t6 := sub16 t6 t7
  let t7 := permute2x128 t1 t1 0x01
  let t1 := sign16 t1 (set16 [-1, -1, -1, -1, -1, -1, -1, -1, 1, 1, 1, 1, 1, 1, 1, 1])
  let t7 := add16 t7 t1
  let t1 := if firstPass then slli16 t7 2 else srai16 (add16 t7 PW_DESCALE_P2X) 2
  let t7 := permute2x128 t6 t6 0x01
  let t2 := unpacklo16 t6 t7
  let t6 := unpackhi16 t6 t7
  let t2 := madd16 t2 PW_F130_F054_MF130_F054
  let t6 := madd16 t6 PW_F130_F054_MF130_F054
  let t2 := add32 t2 (PD_DESCALE_P firstPass)
  let t6 := add32 t6 (PD_DESCALE_P firstPass)
  let t2 := srai32 t2 (descaleP firstPass)
  let t6 := srai32 t6 (descaleP firstPass)
  let t3 := packs32 t2 t6
  -- odd part
  let t7 := add16 t8 t5
  let t2 := permute2x128 t7 t7 0x01
  let t6 := unpacklo16 t7 t2
  let t7 := unpackhi16 t7 t2
  let t6 := madd16 t6 PW_MF078_F117_F078_F117
  let t7 := madd16 t7 PW_MF078_F117_F078_F117
  let t4 := permute2x128 t5 t5 0x01
  let t2 := unpacklo16 t8 t4
  let t4 := unpackhi16 t8 t4
  let t2 := madd16 t2 PW_MF060_MF089_MF050_MF256
  let t4 := madd16 t4 PW_MF060_MF089_MF050_MF256
  let t2 := add32 t2 t6
  let t4 := add32 t4 t7
  let t2 := add32 t2 (PD_DESCALE_P firstPass)
  let t4 := add32 t4 (PD_DESCALE_P firstPass)
  let t2 := srai32 t2 (descaleP firstPass)
  let t4 := srai32 t4 (descaleP firstPass)
  let t4 := packs32 t2 t4
  let t2 := permute2x128 t8 t8 0x01
  let t8 := unpacklo16 t5 t2
  let t5 := unpackhi16 t5 t2
  let t8 := madd16 t8 PW_F050_MF256_F060_MF089
  let t5 := madd16 t5 PW_F050_MF256_F060_MF089
  let t8 := add32 t8 t6
  let t5 := add32 t5 t7
  let t8 := add32 t8 (PD_DESCALE_P firstPass)
  let t5 := add32 t5 (PD_DESCALE_P firstPass)
  let t8 := srai32 t8 (descaleP firstPass)
  let t5 := srai32 t5 (descaleP firstPass)
  let t2 := packs32 t8 t5
  (t1, t2, t3, t4)

/-- src/avx2/fdct.rs:60-64, 67, 415-460 `fdct_avx2`. `data : [i16; 64]`. -/
def fdctAvx2 (data : List Int) : List Int :=
  let ymm4 := data.take 16
  let ymm5 := (data.drop 16).take 16
  let ymm6 := (data.drop 32).take 16
  let ymm7 := (data.drop 48).take 16
  let ymm0 := permute2x128 ymm4 ymm6 0x20
  let ymm1 := permute2x128 ymm4 ymm6 0x31
  let ymm2 := permute2x128 ymm5 ymm7 0x20
  let ymm3 := permute2x128 ymm5 ymm7 0x31
  let (ymm0, ymm1, ymm2, ymm3) := doTranspose ymm0 ymm1 ymm2 ymm3
  let (ymm0, ymm1, ymm2, ymm3) := doDct true ymm0 ymm1 ymm2 ymm3
  let ymm4 := permute2x128 ymm1 ymm3 0x20
  let ymm1 := permute2x128 ymm1 ymm3 0x31
  let (ymm0, ymm1, ymm2, ymm4) := doTranspose ymm0 ymm1 ymm2 ymm4
  let (ymm0, ymm1, ymm2, ymm4) := doDct false ymm0 ymm1 ymm2 ymm4
  let ymm3 := permute2x128 ymm0 ymm1 0x30
  let ymm5 := permute2x128 ymm2 ymm1 0x20
  let ymm6 := permute2x128 ymm0 ymm4 0x31
  let ymm7 := permute2x128 ymm2 ymm4 0x21
  ymm3 ++ ymm5 ++ ymm6 ++ ymm7

/-- Dereferencing `data.as_ptr().offset(i)`: outside the slice it is undefined behaviour.
src/avx2/ycbcr.rs:25-33 -/
def rd (data : Bytes) (i : Nat) : R UInt8 :=
  match data[i]? with
  | some b => .ok b
  | none => .error (.panic .ub)

/-- src/avx2/ycbcr.rs:24-35 `load3`: pixel 0 goes to the highest lane. -/
def load3 (numColors : Nat) (data : Bytes) (p : Nat) : R (List Int) := do
  let l ← mapR (List.range 8) fun i => rd data (p + i * numColors)
  .ok (set32 (l.map fun b => (b.toNat : Int)))

/-- src/avx2/ycbcr.rs:71-75 (`cmul*` as below): the luma lanes of 8 pixels. -/
def yLanes (r g b : List Int) : List Int :=
  let yr := mullo32 (set1_32 19595) r
  let yg := mullo32 (set1_32 38470) g
  let yb := mullo32 (set1_32 7471) b
  let y := add32 (add32 yr yg) yb
  let y := add32 y (set1_32 0x7FFF)
  srli32 y 16

/-- src/avx2/ycbcr.rs:78-85 -/
def cbLanes (r g b : List Int) : List Int :=
  let cbr := mullo32 (set1_32 (-11059)) r
  let cbg := mullo32 (set1_32 21709) g
  let cbb := mullo32 (set1_32 32768) b
  let cb := add32 (sub32 cbr cbg) cbb
  let cb := add32 cb (set1_32 (128 * 65536))
  let cb := add32 cb (set1_32 0x7FFF)
  srli32 cb 16

/-- src/avx2/ycbcr.rs:88-95 -/
def crLanes (r g b : List Int) : List Int :=
  let crr := mullo32 (set1_32 32768) r
  let crg := mullo32 (set1_32 27439) g
  let crb := mullo32 (set1_32 5329) b
  let cr := sub32 (sub32 crr crg) crb
  let cr := add32 cr (set1_32 (128 * 65536))
  let cr := add32 cr (set1_32 0x7FFF)
  srli32 cr 16

/-- src/avx2/ycbcr.rs:98-111: `for v in lanes.iter().rev() { *buffer = *v as u8; ... }` -/
def storeLanes (lanes : List Int) : Bytes := lanes.reverse.map fun v => UInt8.ofInt v

/-- src/avx2/ycbcr.rs:61-112: the loop over groups of 8 pixels; `p` is the data pointer. Result: new
pointer and the bytes written through the three buffer pointers. -/
def avxLoop (numColors o1 o2 o3 : Nat) (data : Bytes) : Nat → Nat → R (Nat × Bytes × Bytes × Bytes)
  | 0, p => .ok (p, [], [], [])
  | n + 1, p => do
    let r ← load3 numColors data (p + o1)
    let g ← load3 numColors data (p + o2)
    let b ← load3 numColors data (p + o3)
    let (p', ys, cbs, crs) ← avxLoop numColors o1 o2 o3 data n (p + numColors * 8)
    .ok (p', storeLanes (yLanes r g b) ++ ys, storeLanes (cbLanes r g b) ++ cbs,
      storeLanes (crLanes r g b) ++ crs)

/-- src/avx2/ycbcr.rs:114-128: the remaining `width % 8` pixels. -/
def tailLoop (pf : Platform) (numColors o1 o2 o3 : Nat) (data : Bytes) : Nat → Nat → R (Bytes × Bytes × Bytes)
  | 0, _ => .ok ([], [], [])
  | n + 1, p => do
    let r ← rd data (p + o1)
    let g ← rd data (p + o2)
    let b ← rd data (p + o3)
    let (y, cb, cr) ← rgbToYcbcr pf r g b
    let (ys, cbs, crs) ← tailLoop pf numColors o1 o2 o3 data n (p + numColors)
    .ok (y :: ys, cb :: cbs, cr :: crs)

/-- `buffer.set_len(len + n)` followed by writing `n` bytes `l` through the pointer: requires
`len + n ≤ capacity` (else undefined behaviour) and that exactly `n` bytes are initialised.
src/avx2/ycbcr.rs:37-42, 97-105 -/
def extendUnchecked (b : Buf) (n : Nat) (l : Bytes) : R Buf :=
  if b.data.length + n ≤ b.cap ∧ l.length = n then .ok ⟨b.data ++ l, b.cap⟩ else .error (.panic .ub)

/-- src/avx2/ycbcr.rs:21-130 `fill_buffers_avx2`. The start offset is computed in `isize`. -/
def fillRgbAvx2 (pf : Platform) (numColors o1 o2 o3 : Nat) (data : Bytes) (width : UInt16) (y : UInt16)
    (rows : Rows) : R Rows := do
  let a ← ckI pf pf.wordBits ((y.toNat * width.toNat : Nat) : Int)
  let start ← ckI pf pf.wordBits (a * numColors)
  let _ ← if start < 0 then .error (.panic .ub) else .ok ()
  let (p, ys, cbs, crs) ← avxLoop numColors o1 o2 o3 data (width.toNat / 8) start.toNat
  let (ys', cbs', crs') ← tailLoop pf numColors o1 o2 o3 data (width.toNat % 8) p
  let b0 ← extendUnchecked rows.b0 width.toNat (ys ++ ys')
  let b1 ← extendUnchecked rows.b1 width.toNat (cbs ++ cbs')
  let b2 ← extendUnchecked rows.b2 width.toNat (crs ++ crs')
  .ok { rows with b0 := b0, b1 := b1, b2 := b2 }

/-- src/avx2/ycbcr.rs:154 `ycbcr_image_avx2!(RgbImageAVX2, 3, 0, 1, 2)` -/
def rgbImageAvx2 (pf : Platform) (data : Bytes) (w h : UInt16) : ImageBuffer :=
  ⟨.ycbcr, w, h, fillRgbAvx2 pf 3 0 1 2 data w⟩
/-- src/avx2/ycbcr.rs:155 `ycbcr_image_avx2!(RgbaImageAVX2, 4, 0, 1, 2)` -/
def rgbaImageAvx2 (pf : Platform) (data : Bytes) (w h : UInt16) : ImageBuffer :=
  ⟨.ycbcr, w, h, fillRgbAvx2 pf 4 0 1 2 data w⟩
/-- src/avx2/ycbcr.rs:156 `ycbcr_image_avx2!(BgrImageAVX2, 3, 2, 1, 0)` -/
def bgrImageAvx2 (pf : Platform) (data : Bytes) (w h : UInt16) : ImageBuffer :=
  ⟨.ycbcr, w, h, fillRgbAvx2 pf 3 2 1 0 data w⟩
/-- src/avx2/ycbcr.rs:157 `ycbcr_image_avx2!(BgraImageAVX2, 4, 2, 1, 0)` -/
def bgraImageAvx2 (pf : Platform) (data : Bytes) (w h : UInt16) : ImageBuffer :=
  ⟨.ycbcr, w, h, fillRgbAvx2 pf 4 2 1 0 data w⟩

end Jpeg.Avx2
