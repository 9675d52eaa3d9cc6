import Verif.Model.Encoder
/-! Specifications for the API level properties. They use only the public vocabulary (calls, settings,
segments), none of the encoder's internals. -/
namespace Jpeg.Spec

/-- The configuration calls a user can make on an `Encoder`. -/
inductive Call where
  | setDensity (d : Density)
  | setSamplingFactor (s : SamplingFactor)
  | setQuantizationTables (luma chroma : QuantizationTableType)
  | setProgressive (b : Bool)
  | setProgressiveScans (n : UInt8)
  | setRestartInterval (n : UInt16)
  | setOptimizedHuffmanTables (b : Bool)
  | addAppSegment (nr : UInt8) (data : Bytes)
  | addIccProfile (data : Bytes)

/-- What the latest call relevant for a setting says (`f c = some v` if call `c` sets it to `v`),
or the default. The history is in chronological order. -/
def latest {α : Type} (f : Call → Option α) (dflt : α) (h : List Call) : α :=
  ((h.reverse.filterMap f).head?).getD dflt

def wantDensity : Call → Option Density
  | .setDensity d => some d
  | _ => none
def wantSampling : Call → Option SamplingFactor
  | .setSamplingFactor s => some s
  | _ => none
def wantQuant : Call → Option (QuantizationTableType × QuantizationTableType)
  | .setQuantizationTables l c => some (l, c)
  | _ => none
def wantScans : Call → Option (Option UInt8)
  | .setProgressive true => some (some 4)
  | .setProgressive false => some none
  | .setProgressiveScans n => some (some n)
  | _ => none
def wantRestart : Call → Option (Option UInt16)
  | .setRestartInterval n => some (if n = 0 then none else some n)
  | _ => none
def wantOptimized : Call → Option Bool
  | .setOptimizedHuffmanTables b => some b
  | _ => none

/-- Calls that are documented to panic. -/
def Call.panics : Call → Bool
  | .setProgressiveScans n => !(decide (2 ≤ n.toNat) && decide (n.toNat ≤ 64))
  | _ => false

/-- The bytes `ICC_PROFILE` and a zero byte. -/
def iccSignature : Bytes := [0x49, 0x43, 0x43, 0x5F, 0x50, 0x52, 0x4F, 0x46, 0x49, 0x4C, 0x45, 0x00]

/-- ICC chunk contained in an application segment, if it is one: `(sequence number, count, data)`
(ICC specification, B.4: APP2, signature, sequence number from 1, number of chunks, data). -/
def iccChunk (seg : UInt8 × Bytes) : Option (UInt8 × UInt8 × Bytes) :=
  if seg.1 = 2 ∧ seg.2.take 12 = iccSignature then
    match seg.2.drop 12 with
    | s :: n :: d => some (s, n, d)
    | _ => none
  else none

/-- Reassemble an ICC profile from the application segments of a file: all ICC chunks must agree on
the count, the count must be their number, and they must be numbered 1, 2, ... -/
def iccProfile (segs : List (UInt8 × Bytes)) : Option Bytes :=
  let cs := segs.filterMap iccChunk
  if cs ≠ [] ∧ cs.map (fun c => (c.1.toNat, c.2.1.toNat)) = (List.range cs.length).map (fun i => (i + 1, cs.length)) then
    some (cs.map (fun c => c.2.2)).flatten
  else none

end Jpeg.Spec
