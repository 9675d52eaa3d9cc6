import Verif.Model.Writer
/-! Model of src/image_buffer.rs. -/
namespace Jpeg

/-- src/encoder.rs:23-35 `JpegColorType`. -/
inductive JpegColorType where
  | luma | ycbcr | cmyk | ycck
deriving DecidableEq, Repr

/-- src/encoder.rs:38-46 `get_num_components`. -/
def JpegColorType.numComponents : JpegColorType → Nat
  | .luma => 1
  | .ycbcr => 3
  | .cmyk => 4
  | .ycck => 4

/-- A `Vec<u8>` row buffer: contents and reserved capacity. The capacity only matters for the `unsafe`
code of src/avx2/ycbcr.rs. `Vec::with_capacity(n)` guarantees a capacity of at least `n`; the model
uses exactly this guaranteed value. -/
structure Buf where
  data : Bytes
  cap : Nat
deriving DecidableEq, Repr

/-- `Vec::push`. A growing push guarantees only the capacity for the new length (simplification: the
amortised growth strategy of `Vec` and allocation failure are not modelled).
Rust std, used at src/image_buffer.rs:119. -/
def Buf.push (b : Buf) (x : UInt8) : Buf := ⟨b.data ++ [x], max b.cap (b.data.length + 1)⟩

/-- `Vec::clear` keeps the capacity. Rust std, used at src/encoder.rs:695. -/
def Buf.clear (b : Buf) : Buf := ⟨[], b.cap⟩

/-- `[Vec<u8>; 4]`. src/image_buffer.rs:97 -/
structure Rows where
  b0 : Buf
  b1 : Buf
  b2 : Buf
  b3 : Buf
deriving DecidableEq, Repr

/-- `for r in &mut row { ... }` — src/encoder.rs:694-696 -/
def Rows.map (f : Buf → Buf) (r : Rows) : Rows := ⟨f r.b0, f r.b1, f r.b2, f r.b3⟩

/-- `row[i]` — src/encoder.rs:729, 1001 -/
def Rows.get (r : Rows) (i : Nat) : R Buf := idx [r.b0, r.b1, r.b2, r.b3] i

/-- src/image_buffer.rs:86-98 the trait `ImageBuffer`: any implementation. `fillBuffers` may fail
(user code may panic). -/
structure ImageBuffer where
  colorType : JpegColorType
  width : UInt16
  height : UInt16
  fillBuffers : UInt16 → Rows → R Rows

/-- src/image_buffer.rs:8-31 `rgb_to_ycbcr`, every operation on `i32`, the result truncated to `u8`. -/
def rgbToYcbcr (pf : Platform) (r g b : UInt8) : R (UInt8 × UInt8 × UInt8) := do
  let r : Int := r.toNat
  let g : Int := g.toNat
  let b : Int := b.toNat
  let m1 ← ckI pf 32 (19595 * r)
  let m2 ← ckI pf 32 (38470 * g)
  let m3 ← ckI pf 32 (7471 * b)
  let s ← ckI pf 32 (m1 + m2)
  let y ← ckI pf 32 (s + m3)
  let m1 ← ckI pf 32 (-11059 * r)
  let m2 ← ckI pf 32 (21709 * g)
  let m3 ← ckI pf 32 (32768 * b)
  let s ← ckI pf 32 (m1 - m2)
  let s ← ckI pf 32 (s + m3)
  let cb ← ckI pf 32 (s + 128 * 65536)
  let m1 ← ckI pf 32 (32768 * r)
  let m2 ← ckI pf 32 (27439 * g)
  let m3 ← ckI pf 32 (5329 * b)
  let s ← ckI pf 32 (m1 - m2)
  let s ← ckI pf 32 (s - m3)
  let cr ← ckI pf 32 (s + 128 * 65536)
  let y ← ckI pf 32 (y + 0x7FFF)
  let cb ← ckI pf 32 (cb + 0x7FFF)
  let cr ← ckI pf 32 (cr + 0x7FFF)
  .ok (UInt8.ofInt (y / 65536), UInt8.ofInt (cb / 65536), UInt8.ofInt (cr / 65536))

/-- `255 - k` on `u8`. src/image_buffer.rs:37, 222-225 -/
def inv8 (pf : Platform) (k : UInt8) : R UInt8 := do
  let n ← ckU pf 8 (255 - (k.toNat : Int))
  .ok (u8 n)

/-- src/image_buffer.rs:35-38 `cmyk_to_ycck`. -/
def cmykToYcck (pf : Platform) (c m y k : UInt8) : R (UInt8 × UInt8 × UInt8 × UInt8) := do
  let (y, cb, cr) ← rgbToYcbcr pf c m y
  let k ← inv8 pf k
  .ok (y, cb, cr, k)

/-- src/image_buffer.rs:124-133 `get_line` (`usize` arithmetic). -/
def getLine (pf : Platform) (data : Bytes) (y width : UInt16) (numColors : Nat) : R Bytes := do
  let a ← ckUsize pf ((y.toNat * width.toNat : Nat) : Int)
  let start ← ckUsize pf ((a * numColors : Nat) : Int)
  let n ← ckUsize pf ((width.toNat * numColors : Nat) : Int)
  let stop ← ckUsize pf ((start + n : Nat) : Int)
  slice data start stop

/-- `slice::chunks_exact(n)`. Rust std, used at src/image_buffer.rs:156, 195, 221, 248, 283. -/
def chunksExact {α : Type} (n : Nat) (l : List α) : List (List α) :=
  (List.range (l.length / n)).map fun i => (l.drop (i * n)).take n

/-- src/image_buffer.rs:115-121 `GrayImage::fill_buffers`. -/
def fillGray (pf : Platform) (data : Bytes) (width : UInt16) (y : UInt16) (rows : Rows) : R Rows := do
  let line ← getLine pf data y width 1
  forFoldR line rows fun rows pixel => .ok { rows with b0 := rows.b0.push pixel }

/-- src/image_buffer.rs:153-167 `fill_buffers` of the macro `ycbcr_image!`. -/
def fillRgb (pf : Platform) (numColors o1 o2 o3 : Nat) (data : Bytes) (width : UInt16) (y : UInt16)
    (rows : Rows) : R Rows := do
  let line ← getLine pf data y width numColors
  forFoldR (chunksExact numColors line) rows fun rows pixel => do
    let p1 ← idx pixel o1
    let p2 ← idx pixel o2
    let p3 ← idx pixel o3
    let (y, cb, cr) ← rgbToYcbcr pf p1 p2 p3
    .ok { rows with b0 := rows.b0.push y, b1 := rows.b1.push cb, b2 := rows.b2.push cr }

/-- src/image_buffer.rs:192-200 `YCbCrImage::fill_buffers`. -/
def fillYcbcr (pf : Platform) (data : Bytes) (width : UInt16) (y : UInt16) (rows : Rows) : R Rows := do
  let line ← getLine pf data y width 3
  forFoldR (chunksExact 3 line) rows fun rows pixel => do
    let p0 ← idx pixel 0
    let p1 ← idx pixel 1
    let p2 ← idx pixel 2
    .ok { rows with b0 := rows.b0.push p0, b1 := rows.b1.push p1, b2 := rows.b2.push p2 }

/-- src/image_buffer.rs:218-227 `CmykImage::fill_buffers`. -/
def fillCmyk (pf : Platform) (data : Bytes) (width : UInt16) (y : UInt16) (rows : Rows) : R Rows := do
  let line ← getLine pf data y width 4
  forFoldR (chunksExact 4 line) rows fun rows pixel => do
    let p0 ← idx pixel 0
    let p1 ← idx pixel 1
    let p2 ← idx pixel 2
    let p3 ← idx pixel 3
    let c ← inv8 pf p0
    let m ← inv8 pf p1
    let y ← inv8 pf p2
    let k ← inv8 pf p3
    .ok ⟨rows.b0.push c, rows.b1.push m, rows.b2.push y, rows.b3.push k⟩

/-- src/image_buffer.rs:245-262 `CmykAsYcckImage::fill_buffers`. -/
def fillCmykAsYcck (pf : Platform) (data : Bytes) (width : UInt16) (y : UInt16) (rows : Rows) : R Rows := do
  let line ← getLine pf data y width 4
  forFoldR (chunksExact 4 line) rows fun rows pixel => do
    let p0 ← idx pixel 0
    let p1 ← idx pixel 1
    let p2 ← idx pixel 2
    let p3 ← idx pixel 3
    let (y, cb, cr, k) ← cmykToYcck pf p0 p1 p2 p3
    .ok ⟨rows.b0.push y, rows.b1.push cb, rows.b2.push cr, rows.b3.push k⟩

/-- src/image_buffer.rs:280-290 `YcckImage::fill_buffers`. -/
def fillYcck (pf : Platform) (data : Bytes) (width : UInt16) (y : UInt16) (rows : Rows) : R Rows := do
  let line ← getLine pf data y width 4
  forFoldR (chunksExact 4 line) rows fun rows pixel => do
    let p0 ← idx pixel 0
    let p1 ← idx pixel 1
    let p2 ← idx pixel 2
    let p3 ← idx pixel 3
    .ok ⟨rows.b0.push p0, rows.b1.push p1, rows.b2.push p2, rows.b3.push p3⟩

/-- src/image_buffer.rs:100-122 -/
def grayImage (pf : Platform) (data : Bytes) (w h : UInt16) : ImageBuffer :=
  ⟨.luma, w, h, fillGray pf data w⟩
/-- src/image_buffer.rs:172 `ycbcr_image!(RgbImage, 3, 0, 1, 2)` -/
def rgbImage (pf : Platform) (data : Bytes) (w h : UInt16) : ImageBuffer :=
  ⟨.ycbcr, w, h, fillRgb pf 3 0 1 2 data w⟩
/-- src/image_buffer.rs:173 `ycbcr_image!(RgbaImage, 4, 0, 1, 2)` -/
def rgbaImage (pf : Platform) (data : Bytes) (w h : UInt16) : ImageBuffer :=
  ⟨.ycbcr, w, h, fillRgb pf 4 0 1 2 data w⟩
/-- src/image_buffer.rs:174 `ycbcr_image!(BgrImage, 3, 2, 1, 0)` -/
def bgrImage (pf : Platform) (data : Bytes) (w h : UInt16) : ImageBuffer :=
  ⟨.ycbcr, w, h, fillRgb pf 3 2 1 0 data w⟩
/-- src/image_buffer.rs:175 `ycbcr_image!(BgraImage, 4, 2, 1, 0)` -/
def bgraImage (pf : Platform) (data : Bytes) (w h : UInt16) : ImageBuffer :=
  ⟨.ycbcr, w, h, fillRgb pf 4 2 1 0 data w⟩
/-- src/image_buffer.rs:177-201 -/
def ycbcrImage (pf : Platform) (data : Bytes) (w h : UInt16) : ImageBuffer :=
  ⟨.ycbcr, w, h, fillYcbcr pf data w⟩
/-- src/image_buffer.rs:203-228 -/
def cmykImage (pf : Platform) (data : Bytes) (w h : UInt16) : ImageBuffer :=
  ⟨.cmyk, w, h, fillCmyk pf data w⟩
/-- src/image_buffer.rs:230-263 -/
def cmykAsYcckImage (pf : Platform) (data : Bytes) (w h : UInt16) : ImageBuffer :=
  ⟨.ycck, w, h, fillCmykAsYcck pf data w⟩
/-- src/image_buffer.rs:265-291 -/
def ycckImage (pf : Platform) (data : Bytes) (w h : UInt16) : ImageBuffer :=
  ⟨.ycck, w, h, fillYcck pf data w⟩

end Jpeg
