import Verif.Model.Marker
import Verif.Model.Huffman
import Verif.Model.Quantization
/-! Model of src/writer.rs. -/
namespace Jpeg
open WM

/-- src/writer.rs:7-18 `Density`. -/
inductive Density where
  | none
  | inch (x y : UInt16)
  | centimeter (x y : UInt16)
deriving DecidableEq, Repr

/-- src/encoder.rs:172-179 `Component` (all fields `u8`). -/
structure Component where
  id : Nat
  quantizationTable : Nat
  dcHuffmanTable : Nat
  acHuffmanTable : Nat
  horizontalSamplingFactor : Nat
  verticalSamplingFactor : Nat
deriving DecidableEq, Repr

/-- src/huffman.rs:8-12 `CodingClass`. -/
inductive CodingClass where
  | dc | ac
deriving DecidableEq, Repr

/-- src/huffman.rs:9-12, the discriminant. -/
def CodingClass.toNat : CodingClass → Nat
  | .dc => 0
  | .ac => 1

/-- src/writer.rs:74-80 `JfifWriter::new`. -/
def BitState.init (pf : Platform) : BitState := ⟨0, pf.wordBits⟩

/-- src/writer.rs:83-85 `write`. -/
def write (buf : Bytes) : WM Unit := writeAll buf

/-- src/writer.rs:88-90 `write_u8`. -/
def writeU8 (value : Nat) : WM Unit := writeAll [u8 value]

/-- src/writer.rs:93-95 `write_u16` (big endian). -/
def writeU16 (value : Nat) : WM Unit := writeAll [u8 (value / 256), u8 value]

/-- src/writer.rs:116-126 `flush_byte_from_bit_buffer`. -/
def flushByteFromBitBuffer (pf : Platform) (freeBits : Int) : WM Unit := do
  let s ← WM.get
  let sh ← lift (ckI pf 8 ((pf.wordBits : Int) - 8))
  let sh ← lift (ckI pf 8 (sh - freeBits))
  let v ← lift (shrU pf pf.wordBits s.buffer sh)
  let value := v &&& 0xFF
  writeU8 value
  if value = 0xFF then writeU8 0x00 else WM.pure ()

/-- src/writer.rs:106-113 `flush_bit_buffer`: the loop runs at most once per buffered byte. -/
def flushBitBuffer (pf : Platform) : Nat → WM Unit
  | 0 => lift (.error .diverge)
  | fuel + 1 => do
    let s ← WM.get
    if s.free ≤ (pf.wordBits : Int) - 8 then do
      flushByteFromBitBuffer pf s.free
      let s ← WM.get
      let f ← lift (ckI pf 8 (s.free + 8))
      WM.set { s with free := f }
      flushBitBuffer pf fuel
    else WM.pure ()
termination_by structural fuel => fuel

/-- `usize::to_be_bytes`. Rust std, used at src/writer.rs:141. -/
def toBeBytes (pf : Platform) (v : Nat) : Bytes :=
  (List.range pf.wordBytes).map fun i => u8 (v / 256 ^ (pf.wordBytes - 1 - i))

/-- src/writer.rs:131-134: the test whether some byte of the buffer may be 0xFF. The literals are
truncated to the word (`allow(overflowing_literals)`), `!x` is the bitwise complement in the word. -/
def mayContainFF (pf : Platform) (buffer : Nat) : Bool :=
  let m := 2 ^ pf.wordBits
  let hi := 0x8080808080808080 % m
  let lo := 0x0101010101010101 % m
  let inv := m - 1 - (buffer + lo) % m
  buffer &&& hi &&& inv != 0

/-- src/writer.rs:128-143 `write_bit_buffer`. -/
def writeBitBuffer (pf : Platform) : WM Unit := do
  let s ← WM.get
  if mayContainFF pf s.buffer then
    WM.forEach (List.range (pf.wordBits / 8)) fun i => flushByteFromBitBuffer pf ((i * 8 : Nat) : Int)
  else writeAll (toBeBytes pf s.buffer)

/-- src/writer.rs:145-161 `write_bits`. `size as i8` of a `u8`; `value as usize` of a `u32` is exact. -/
def writeBits (pf : Platform) (value : Nat) (size : Nat) : WM Unit := do
  let size : Int := (size : Int).bmod 256
  let s ← WM.get
  let freeBits ← lift (ckI pf 8 (s.free - size))
  if freeBits < 0 then do
    let a ← lift (ckI pf 8 (size + freeBits))
    let b ← lift (ckI pf 8 (-freeBits))
    let hi ← lift (shlU pf pf.wordBits s.buffer a)
    let lo ← lift (shrU pf pf.wordBits value b)
    WM.set { s with buffer := hi ||| lo }
    writeBitBuffer pf
    let f ← lift (ckI pf 8 (freeBits + pf.wordBits))
    WM.set ⟨value, f⟩
  else do
    let hi ← lift (shlU pf pf.wordBits s.buffer size)
    WM.set ⟨hi ||| value, freeBits⟩

/-- src/writer.rs:97-104 `finalize_bit_buffer`. (Fuel: `free_bits` is an `i8`, so the loop runs at most 24 times, see C54.) -/
def finalizeBitBuffer (pf : Platform) : WM Unit := do
  writeBits pf 0x7F 7
  flushBitBuffer pf 33
  WM.set ⟨0, pf.wordBits⟩

/-- src/writer.rs:163-165 `write_marker`. -/
def writeMarker (pf : Platform) (marker : Marker) : WM Unit := do
  let m ← lift (marker.toU8 pf)
  write [u8 0xFF, u8 m]

/-- src/writer.rs:167-173 `write_segment`: `data.len() as u16 + 2`. -/
def writeSegment (pf : Platform) (marker : Marker) (data : Bytes) : WM Unit := do
  writeMarker pf marker
  let n ← lift (ckU pf 16 ((data.length % 65536 : Nat) + 2))
  writeU16 n
  write data

/-- The bytes of an ASCII string literal `b"..."`.
src/writer.rs:179, src/encoder.rs:378, 508, 513 -/
def ascii (l : List Nat) : Bytes := l.map u8

/-- src/writer.rs:182-198: unit byte and the two density words. -/
def writeDensity : Density → WM Unit
  | .none => do writeU8 0x00; writeU16 1; writeU16 1
  | .inch x y => do writeU8 0x01; writeU16 x.toNat; writeU16 y.toNat
  | .centimeter x y => do writeU8 0x02; writeU16 x.toNat; writeU16 y.toNat

/-- src/writer.rs:175-201 `write_header`. -/
def writeHeader (pf : Platform) (density : Density) : WM Unit := do
  writeMarker pf (.app 0)
  writeU16 16
  write (ascii [0x4A, 0x46, 0x49, 0x46, 0])   -- b"JFIF\0"
  write [u8 0x01, u8 0x02]
  writeDensity density
  write [u8 0x00, u8 0x00]

/-- src/writer.rs:215-231 `write_huffman_segment`. -/
def writeHuffmanSegment (pf : Platform) (cls : CodingClass) (destination : Nat) (table : HuffmanTable) :
    WM Unit := do
  lift (assert' (decide (destination < 4)))
  writeMarker pf .dht
  let n ← lift (ckU pf 16 (2 + 1 + 16 + (table.values.length % 65536 : Nat)))
  writeU16 n
  writeU8 ((cls.toNat * 16 % 256) ||| destination)
  write (table.length.map u8)
  write (table.values.map u8)

/-- src/writer.rs:245-262 `write_quantization_segment`. -/
def writeQuantizationSegment (pf : Platform) (destination : Nat) (table : QuantizationTable) : WM Unit := do
  lift (assert' (decide (destination < 4)))
  writeMarker pf .dqt
  writeU16 (2 + 1 + 64)
  writeU8 destination
  WM.forEach ZIGZAG fun v => do
    let b ← lift (table.get v)
    writeU8 b

/-- src/writer.rs:264-268 `write_dri`. -/
def writeDri (pf : Platform) (restartInterval : Nat) : WM Unit := do
  writeMarker pf .dri
  writeU16 4
  writeU16 restartInterval

/-- src/writer.rs:271-274 `huffman_encode`. -/
def huffmanEncode (pf : Platform) (val : Nat) (table : HuffmanTable) : WM Unit := do
  let (size, code) ← lift (table.getForValue pf val)
  writeBits pf code size

/-- src/writer.rs:277-291 `huffman_encode_value`: `temp : u32`, `size : u8`. -/
def huffmanEncodeValue (pf : Platform) (size symbol value : Nat) (table : HuffmanTable) : WM Unit := do
  let (numBits, code) ← lift (table.getForValue pf symbol)
  let shifted ← lift (shlU pf 32 code size)
  let temp := value ||| shifted
  let total ← lift (ckU pf 8 (size + numBits))
  writeBits pf temp total

/-- Number of leading zero bits of a 16 bit value (`i16::leading_zeros`), on its unsigned representation.
src/writer.rs:427 -/
def leadingZeros16 (v : Nat) : Nat := 16 - (if v = 0 then 0 else v.log2 + 1)

/-- Two's complement representation of an `i16` as unsigned 16 bit number. src/writer.rs:420-431 -/
def repr16 (v : Int) : Nat := (v % 65536).toNat

/-- src/writer.rs:418-432 `get_code`: all operations on `i16`, `num_bits : u16`. `temp2 << 1 | 1` loses the
top bit; `15 - leading_zeros` and `(1 << num_bits) - 1` are checked; `&` on two's complement. -/
def getCode (pf : Platform) (value : Int) : R (Nat × Nat) := do
  let temp ← ckI pf 16 (value - (if value < 0 then 1 else 0))
  let temp2 ← ckI pf 16 (if value < 0 then -value else value)
  let lz := leadingZeros16 (repr16 (temp2 * 2) ||| 1)
  let numBits ← ckU pf 16 (15 - lz)
  let sh ← ckShift pf 16 numBits
  let mask ← ckI pf 16 (((2 : Int) ^ sh).bmod 65536 - 1)
  let coefficient := repr16 temp &&& repr16 mask
  .ok (numBits % 256, coefficient)

/-- src/writer.rs:304-316 `write_dc`. -/
def writeDc (pf : Platform) (value prevDc : Int) (dcTable : HuffmanTable) : WM Unit := do
  let diff ← lift (ckI pf 16 (value - prevDc))
  let (size, value) ← lift (getCode pf diff)
  huffmanEncodeValue pf size size value dcTable

/-- src/writer.rs:331-334 `while zero_run > 15 { huffman_encode(0xF0); zero_run -= 16 }` (`zero_run : u8`);
returns the remaining run. -/
def writeZrl (pf : Platform) (acTable : HuffmanTable) : Nat → Nat → WM Nat
  | 0, _ => lift (.error .diverge)
  | fuel + 1, zeroRun =>
    if zeroRun > 15 then do
      huffmanEncode pf 0xF0 acTable
      let z ← lift (ckU pf 8 ((zeroRun : Int) - 16))
      writeZrl pf acTable fuel z
    else WM.pure zeroRun
termination_by structural fuel => fuel

/-- src/writer.rs:327-343, the loop of `write_ac_block`; returns the final zero run. -/
def writeAcLoop (pf : Platform) (acTable : HuffmanTable) : List Int → Nat → WM Nat
  | [], zeroRun => WM.pure zeroRun
  | value :: rest, zeroRun =>
    if value = 0 then do
      let z ← lift (ckU pf 8 ((zeroRun : Int) + 1))
      writeAcLoop pf acTable rest z
    else do
      let z ← writeZrl pf acTable 17 zeroRun
      let (size, v) ← lift (getCode pf value)
      let hi ← lift (shlU pf 8 z 4)
      huffmanEncodeValue pf size (hi ||| size) v acTable
      writeAcLoop pf acTable rest 0

/-- Slicing `&block[start..end]`. src/writer.rs:327, src/encoder.rs:1109 -/
def slice {α : Type} (l : List α) (start stop : Nat) : R (List α) :=
  if start ≤ stop ∧ stop ≤ l.length then .ok ((l.drop start).take (stop - start))
  else .error (.panic .index)

/-- src/writer.rs:318-350 `write_ac_block`. -/
def writeAcBlock (pf : Platform) (block : List Int) (start stop : Nat) (acTable : HuffmanTable) : WM Unit := do
  let l ← lift (slice block start stop)
  let z ← writeAcLoop pf acTable l 0
  if z > 0 then huffmanEncode pf 0x00 acTable else WM.pure ()

/-- src/writer.rs:293-302 `write_block`. -/
def writeBlock (pf : Platform) (block : List Int) (prevDc : Int) (dcTable acTable : HuffmanTable) : WM Unit := do
  let dc ← lift (idx block 0)
  writeDc pf dc prevDc dcTable
  writeAcBlock pf block 1 64 acTable

/-- src/writer.rs:352-384 `write_frame_header`. -/
def writeFrameHeader (pf : Platform) (width height : UInt16) (components : List Component) (progressive : Bool) :
    WM Unit := do
  writeMarker pf (if progressive then .sofProgressive else .sofBaseline)
  let m ← lift (ckU pf 16 ((components.length % 65536 : Nat) * 3))
  let n ← lift (ckU pf 16 (2 + 1 + 2 + 2 + 1 + m))
  writeU16 n
  writeU8 8
  writeU16 height.toNat
  writeU16 width.toNat
  writeU8 components.length
  WM.forEach components fun c => do
    writeU8 c.id
    let hi ← lift (shlU pf 8 c.horizontalSamplingFactor 4)
    writeU8 (hi ||| c.verticalSamplingFactor)
    writeU8 c.quantizationTable

/-- src/writer.rs:386-414 `write_scan_header`. -/
def writeScanHeader (pf : Platform) (components : List Component) (spectral : Option (Nat × Nat)) : WM Unit := do
  writeMarker pf .sos
  let m ← lift (ckU pf 16 ((components.length % 65536 : Nat) * 2))
  let n ← lift (ckU pf 16 (2 + 1 + m + 3))
  writeU16 n
  writeU8 components.length
  WM.forEach components fun c => do
    writeU8 c.id
    let hi ← lift (shlU pf 8 c.dcHuffmanTable 4)
    writeU8 (hi ||| c.acHuffmanTable)
  writeU8 (spectral.getD (0, 63)).1
  writeU8 (spectral.getD (0, 63)).2
  writeU8 0

end Jpeg
