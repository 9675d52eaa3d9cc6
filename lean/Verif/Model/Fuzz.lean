import Mathlib.Data.Nat.Sqrt
import Verif.Model.Encoder
/-! Model of the project's fuzz targets (fuzz/fuzz_targets/*.rs). Each takes the bytes chosen by the fuzzer; its result is the file it made (`none` if
the input is skipped), or the panic the fuzzer would report. -/
namespace Jpeg

/-- `(pixels as f64).sqrt() as u16`, e.g. fuzz/fuzz_targets/encode_rgb.rs:11. Below 2^32 the argument is exact, and so is the truncated result (`sqrt` is
correctly rounded, and a square root between two integers below 2^16 is farther from the upper one than an f64 rounding error); above, the cast saturates. -/
def fuzzSide (pixels : Nat) : UInt16 := UInt16.ofNat (min 65535 (Nat.sqrt pixels))

/-- `.unwrap()` on the result of `encode`, e.g. fuzz/fuzz_targets/encode_rgb.rs:17; here together with the vector `out`. -/
def unwrapFile : Bytes × R Unit → R (Option Bytes)
  | (out, .ok ()) => .ok (some out)
  | (_, .error (.err _)) => .error (.panic .unwrap)
  | (_, .error f) => .error f

/-- What all targets have in common, e.g. fuzz/fuzz_targets/encode_rgb.rs:9-18: a square image, with `bytes` bytes per pixel, of colour type `ct`, encoded
into an empty vector by `Encoder::new(&mut out, quality)` after the calls `configure`. -/
def fuzzWith (pf : Platform) (simd : Bool) (quality : UInt8) (configure : Encoder → Encoder) (bytes : Nat) (ct : ColorType) (data : Bytes) :
    R (Option Bytes) :=
  let pixels := data.length / bytes
  let width := fuzzSide pixels
  let height := width
  if width > 0 ∧ width < 65535 ∧ height > 0 ∧ height < 65535 then do
    let encoder ← Encoder.new pf quality
    unwrapFile (((configure encoder).encode pf simd data width height ct).run vecSink [])
  else .ok none

/-- fuzz/fuzz_targets/encode_rgb.rs:7-19 -/
def fuzzRgb (pf : Platform) (simd : Bool) (data : Bytes) : R (Option Bytes) := fuzzWith pf simd 100 id 3 .rgb data

/-- fuzz/fuzz_targets/encode_rgb_subsampled.rs:7-20 -/
def fuzzSubsampled (pf : Platform) (simd : Bool) (data : Bytes) : R (Option Bytes) :=
  fuzzWith pf simd 80 (·.setSamplingFactor .F_4_2) 3 .rgb data

/-- fuzz/fuzz_targets/encode_rgb_progressive.rs:7-21 -/
def fuzzProgressive (pf : Platform) (simd : Bool) (data : Bytes) : R (Option Bytes) :=
  fuzzWith pf simd 80 (fun e => (e.setSamplingFactor .F_2_2).setProgressive true) 3 .rgb data

/-- fuzz/fuzz_targets/encode_ycck_progressive.rs:7-20 -/
def fuzzYcck (pf : Platform) (simd : Bool) (data : Bytes) : R (Option Bytes) := fuzzWith pf simd 100 (·.setProgressive true) 4 .ycck data

/-- fuzz/fuzz_targets/encode_rgb_optimized.rs:7-20 -/
def fuzzOptimized (pf : Platform) (simd : Bool) (data : Bytes) : R (Option Bytes) := fuzzWith pf simd 1 (·.setOptimizedHuffmanTables true) 3 .rgb data

/-- fuzz/fuzz_targets/encode_rgb_custom_q_table.rs:19-22: entry `i`. In Rust `a + b << 8` is `(a + b) << 8`. -/
def fuzzEntry (pf : Platform) (qTable : Bytes) (i : Nat) : R UInt16 := do
  let a ← idx qTable (i * 2)
  let b ← idx qTable (i * 2 + 1)
  let s ← ckU pf 16 ((a.toNat + b.toNat : Nat) : Int)
  let v ← shlU pf 16 s 8
  .ok (UInt16.ofNat (max v 1))

/-- fuzz/fuzz_targets/encode_rgb_custom_q_table.rs:18-22: the loop that fills the table. -/
def fuzzTable (pf : Platform) (qTable : Bytes) : R (Vector UInt16 64) :=
  (List.range 64).foldlM (fun t i => do
    let v ← fuzzEntry pf qTable i
    .ok (t.setIfInBounds i v)) (Vector.replicate 64 0)

/-- fuzz/fuzz_targets/encode_rgb_custom_q_table.rs:6-34. The table is filled only if the image is not skipped; `table.clone()` is the same table. -/
def fuzzCustomTable (pf : Platform) (simd : Bool) (data : Bytes) : R (Option Bytes) :=
  if data.length ≥ 128 + 3 then
    let qTable := data.take 128
    let data := data.drop 128
    let width := fuzzSide (data.length / 3)
    if width > 0 ∧ width < 65535 then do
      let table ← fuzzTable pf qTable
      fuzzWith pf simd 100 (·.setQuantizationTables (.custom table) (.custom table)) 3 .rgb data
    else .ok none
  else .ok none

end Jpeg
