import Verif.Model.Tables
/-! Model of src/quantization.rs. -/
namespace Jpeg

/-- src/quantization.rs:7-40 `QuantizationTableType`; `custom t` carries the 64 user values (`u16`). -/
inductive QuantizationTableType where
  | default | flat | customMsSsim | customPsnrHvs | imageMagick | kleinSilversteinCarney
  | dentalXRays | visualDetectionModel | improvedDetectionModel
  | custom (table : Vector UInt16 64)
deriving DecidableEq

/-- src/quantization.rs:43-58 `index` (`panic!` for `Custom`, never called on it). -/
def QuantizationTableType.index : QuantizationTableType → R Nat
  | .default => .ok 0
  | .flat => .ok 1
  | .customMsSsim => .ok 2
  | .customPsnrHvs => .ok 3
  | .imageMagick => .ok 4
  | .kleinSilversteinCarney => .ok 5
  | .dentalXRays => .ok 6
  | .visualDetectionModel => .ok 7
  | .improvedDetectionModel => .ok 8
  | .custom _ => .error (.panic .assert)

/-- src/quantization.rs:185 `SHIFT`. -/
def SHIFT : Nat := 2 * 8 - 1

/-- src/quantization.rs:187-207 `compute_reciprocal`: `u32` arithmetic on `divisor ≤ 16384`, results
`(reciprocal, correction)` as `i32`. No operation can overflow (`1 << 15`, quotients, `+ 1`). -/
def computeReciprocal (divisor : Nat) : Nat × Nat :=
  if divisor ≤ 1 then (1, 0)
  else
    let reciprocals := 2 ^ SHIFT / divisor
    let fractional := 2 ^ SHIFT % divisor
    let correction := divisor / 2
    if fractional ≠ 0 then
      if fractional ≤ correction then (reciprocals, correction + 1)
      else (reciprocals + 1, correction)
    else (reciprocals, correction)

/-- src/quantization.rs:209-213 `QuantizationTable` (64 entries each). -/
structure QuantizationTable where
  table : List Nat
  reciprocals : List Nat
  corrections : List Nat
deriving DecidableEq, Repr

/-- `v.clamp(lo, hi)` — src/quantization.rs:253, 262, 277 -/
def clampN (v lo hi : Nat) : Nat := if v < lo then lo else if v > hi then hi else v

/-- `NonZeroU16::new(v << 3)` and `unwrap`/`panic!` on zero; `v : u16`, the shift loses high bits.
src/quantization.rs:253, 280 -/
def nonZeroShl3 (v : Nat) : R Nat :=
  if v * 8 % 65536 = 0 then .error (.panic .unwrap) else .ok (v * 8 % 65536)

/-- src/quantization.rs:250-259 `get_user_table`. -/
def getUserTable (table : List Nat) : R (List Nat) :=
  mapR table fun v => nonZeroShl3 (clampN v 1 (2 * 2 ^ 10))

/-- src/quantization.rs:262-268: the scale factor (`u32`, quality clamped to 1..100). -/
def qualityScale (quality : Nat) : Nat :=
  let q := clampN quality 1 100
  if q < 50 then 5000 / q else 200 - q * 2

/-- src/quantization.rs:261-283 `get_with_quality` (`u32` arithmetic, values at most 419*5000+50). -/
def getWithQuality (table : List Nat) (quality : Nat) : R (List Nat) :=
  mapR table fun v => nonZeroShl3 (clampN ((v * qualityScale quality + 50) / 100) 1 255)

/-- src/quantization.rs:216-248 `new_with_quality`. -/
def QuantizationTable.newWithQuality (type : QuantizationTableType) (quality : Nat) (luma : Bool) :
    R QuantizationTable := do
  let table ← match type with
    | .custom t => getUserTable (t.toList.map UInt16.toNat)
    | type => do
      let i ← type.index
      let base ← idx (if luma then lumaTables else chromaTables) i
      getWithQuality base quality
  let rc := table.map computeReciprocal
  .ok ⟨table, rc.map (·.1), rc.map (·.2)⟩

/-- src/quantization.rs:285-288 `get`: `(table[index] >> 3) as u8`. -/
def QuantizationTable.get (q : QuantizationTable) (index : Nat) : R Nat := do
  let v ← idx q.table index
  .ok (v / 8 % 256)

/-- src/quantization.rs:290-307 `quantize` (`in_value : i16`, `i32` arithmetic, `product as i16`). -/
def QuantizationTable.quantize (pf : Platform) (q : QuantizationTable) (inValue : Int) (index : Nat) : R Int := do
  let reciprocal ← idx q.reciprocals index
  let corrections ← idx q.corrections index
  let absValue ← ckI pf 32 (if inValue < 0 then -inValue else inValue)
  let sum ← ckI pf 32 (absValue + corrections)
  let product ← ckI pf 32 (sum * reciprocal)
  let product := product / 2 ^ SHIFT
  let product ← if inValue ≠ absValue then ckI pf 32 (product * (-1)) else .ok product
  .ok (product.bmod 65536)

end Jpeg
