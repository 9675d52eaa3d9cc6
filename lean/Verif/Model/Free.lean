import Verif.Model.Live
/-! The encoder over an image buffer that may answer anything at any call: not only `fill_buffers` (Model/Live.lean), but also `width`, `height` and
`get_jpeg_color_type` are effects of the program, asked exactly where the code asks. `Model/Live.lean` is the special case of constant answers
(`C79_constant`). -/
namespace Jpeg

/-- A program over an abstract writer and an abstract image buffer: it finishes, calls `write_all(c)` (src/writer.rs:35-42) or one of the methods of the image
buffer (src/image_buffer.rs:83-98) and continues with the answer, or the panic of that method. -/
inductive FProg (α : Type) where
  | done (a : α)
  | write (c : Bytes) (k : Option EncodingError → FProg α)
  | width (k : R UInt16 → FProg α)
  | height (k : R UInt16 → FProg α)
  | color (k : R JpegColorType → FProg α)
  | fill (y : UInt16) (rows : Rows) (k : R Rows → FProg α)

namespace FProg
/-- Sequencing. Rust semantics, no single line in src/*.rs. -/
def bind {α β : Type} : FProg α → (α → FProg β) → FProg β
  | .done a, f => f a
  | .write c k, f => .write c fun r => (k r).bind f
  | .width k, f => .width fun r => (k r).bind f
  | .height k, f => .height fun r => (k r).bind f
  | .color k, f => .color fun r => (k r).bind f
  | .fill y rows k, f => .fill y rows fun r => (k r).bind f

/-- A program that only fills rows. -/
def ofL {α : Type} : LProg α → FProg α
  | .done a => .done a
  | .write c k => .write c fun r => ofL (k r)
  | .fill y rows k => .fill y rows fun r => ofL (k r)
end FProg

/-- An image buffer with state `τ`: what its methods answer and how they change the state. src/image_buffer.rs:83-98. -/
structure FreeImage (τ : Type) where
  color : τ → τ × R JpegColorType
  width : τ → τ × R UInt16
  height : τ → τ × R UInt16
  fill : τ → UInt16 → Rows → τ × R Rows

/-- Run a program against a writer and an image buffer.
Rust semantics: calls of src/writer.rs:40 and src/image_buffer.rs:83-98. -/
def FProg.run {σ τ α : Type} (S : Sink σ) (B : FreeImage τ) : FProg α → σ → τ → σ × τ × α
  | .done a, w, t => (w, t, a)
  | .write c k, w, t => (k (S.writeAll w c).2).run S B (S.writeAll w c).1 t
  | .width k, w, t => (k (B.width t).2).run S B w (B.width t).1
  | .height k, w, t => (k (B.height t).2).run S B w (B.height t).1
  | .color k, w, t => (k (B.color t).2).run S B w (B.color t).1
  | .fill y rows k, w, t => (k (B.fill t y rows).2).run S B w (B.fill t y rows).1

/-- A method of the encoder, as `LM`, with all calls of the image buffer. src/writer.rs:67-71, 73-90. -/
def FM (α : Type) := BitState → FProg (R (α × BitState))

namespace FM
def pure {α : Type} (a : α) : FM α := fun s => .done (.ok (a, s))

/-- Sequencing with `?`: an error ends the computation. -/
def bind {α β : Type} (m : FM α) (f : α → FM β) : FM β := fun s =>
  (m s).bind fun
    | .error e => .done (.error e)
    | .ok (a, s') => f a s'

instance : Monad FM where
  pure := FM.pure
  bind := FM.bind

/-- A computation that asks for rows only. -/
def lm {α : Type} (m : LM α) : FM α := fun s => FProg.ofL (m s)
/-- A computation that calls the writer only. -/
def wm {α : Type} (m : WM α) : FM α := lm (LM.wm m)
/-- A computation that calls neither. -/
def lift {α : Type} (r : R α) : FM α := lm (LM.lift r)

/-- The answer of a method: its value, or its panic ends the computation. -/
def answer {α : Type} (s : BitState) : R α → FProg (R (α × BitState))
  | .ok r => .done (.ok (r, s))
  | .error e => .done (.error e)

/-- `image.width()` — e.g. src/encoder.rs:487. -/
def width : FM UInt16 := fun s => .width (answer s)
/-- `image.height()` — e.g. src/encoder.rs:487. -/
def height : FM UInt16 := fun s => .height (answer s)
/-- `image.get_jpeg_color_type()` — src/encoder.rs:499 and 620. -/
def color : FM JpegColorType := fun s => .color (answer s)
end FM

/-- src/encoder.rs:599-631 `write_frame_header`: width, height and (later) the color type are asked again. -/
def Encoder.writeFrameHeaderF (pf : Platform) (e : Encoder) (q : QuantizationTable × QuantizationTable) : FM Unit := do
  let w ← FM.width
  let h ← FM.height
  FM.wm (Jpeg.writeFrameHeader pf w h e.components e.progressiveScans.isSome)
  FM.wm (writeQuantizationSegment pf 0 q.1)
  FM.wm (writeQuantizationSegment pf 1 q.2)
  FM.wm (writeHuffmanSegment pf .dc 0 e.huffmanTables.1.dc)
  FM.wm (writeHuffmanSegment pf .ac 0 e.huffmanTables.1.ac)
  let ct ← FM.color
  FM.wm (writeChromaHuffman pf ct.numComponents e.huffmanTables.2)
  FM.wm (writeDriOpt pf e.restartInterval)

/-- src/encoder.rs:679-773: `encode_image_interleaved` after width and height are known. -/
def Encoder.interleavedRowsL (pf : Platform) (e : Encoder) (op : Operations) (w h : UInt16) (q : QuantizationTable × QuantizationTable) : LM Unit := do
  let (maxH, maxV) := maxSamplingSize e.components
  let numCols ← LM.lift (ceilDiv w.toNat (8 * maxH))
  let numRows ← LM.lift (ceilDiv h.toNat (8 * maxV))
  let bufferWidth ← LM.lift (ckUsize pf ((numCols * 8 * maxH : Nat) : Int))
  let bufferSize ← LM.lift (ckUsize pf ((bufferWidth * 8 * maxV : Nat) : Int))
  let rows ← LM.lift (initRows pf e.components.length bufferSize)
  let _ ← LM.forFold (List.range numRows) (rows, (⟨0, e.interval⟩ : Rst), ([0, 0, 0, 0] : List Int))
    fun st blockY => do
      let rows ← fillMcuRowL pf w h maxV bufferWidth blockY st.1
      let s ← LM.wm (scanLoop pf e.interval (fun _ => [0, 0, 0, 0])
        (fun blockX prevDc => encodeMcu pf e op q rows maxH maxV bufferWidth blockX prevDc)
        (List.range numCols) st.2)
      LM.pure (rows, s)
  LM.wm (finalizeBitBuffer pf)

/-- src/encoder.rs:665-773 `encode_image_interleaved`: width and height are asked after the headers (lines 676-677). -/
def Encoder.encodeInterleavedF (pf : Platform) (e : Encoder) (op : Operations) (q : QuantizationTable × QuantizationTable) : FM Unit := do
  e.writeFrameHeaderF pf q
  FM.wm (writeScanHeader pf e.components none)
  let w ← FM.width
  let h ← FM.height
  FM.lm (e.interleavedRowsL pf op w h q)

/-- src/encoder.rs:945-1024 `encode_blocks`: width and height are asked first (lines 950-951). -/
def encodeBlocksF (pf : Platform) (e : Encoder) (op : Operations) (q : QuantizationTable × QuantizationTable) : FM Blocks := do
  let w ← FM.width
  let h ← FM.height
  FM.lm (encodeBlocksL pf e op w h q)

/-- src/encoder.rs:778-833 `encode_image_sequential`. -/
def Encoder.encodeSequentialF (pf : Platform) (e : Encoder) (op : Operations) (q : QuantizationTable × QuantizationTable) : FM Unit := do
  let blocks ← encodeBlocksF pf e op q
  let e ← FM.lift (e.optimizeIf pf blocks)
  e.writeFrameHeaderF pf q
  FM.wm (WM.forEach e.components.zipIdx (sequentialScan pf e blocks))

/-- src/encoder.rs:837-942 `encode_image_progressive`. -/
def Encoder.encodeProgressiveF (pf : Platform) (e : Encoder) (op : Operations) (scans : UInt8) (q : QuantizationTable × QuantizationTable) : FM Unit := do
  let blocks ← encodeBlocksF pf e op q
  let e ← FM.lift (e.optimizeIf pf blocks)
  e.writeFrameHeaderF pf q
  FM.wm (WM.forEach e.components.zipIdx (dcScan pf e blocks))
  let bands ← FM.lift (acBands pf scans.toNat)
  FM.wm (WM.forEach bands fun band => WM.forEach e.components.zipIdx (acScan pf e blocks band))

/-- src/encoder.rs:522-528: the choice of the coding mode. -/
def Encoder.encodeScansF (pf : Platform) (e : Encoder) (op : Operations) (q : QuantizationTable × QuantizationTable) : FM Unit :=
  match e.progressiveScans with
  | some scans => e.encodeProgressiveF pf op scans q
  | none =>
    if e.optimizeHuffmanTable || !e.samplingFactor.supportsInterleaved then e.encodeSequentialF pf op q
    else e.encodeInterleavedF pf op q

/-- src/encoder.rs:488-491: the error for an empty image asks for width and height once more. -/
def zeroDimensionsF : FM Unit := do
  let w ← FM.width
  let h ← FM.height
  FM.lift (.error (.err (.zeroImageDimensions w h)))

/-- src/encoder.rs:494-532: `encode_image_internal` after the check of the dimensions. -/
def Encoder.encodeCheckedF (pf : Platform) (e : Encoder) (op : Operations) : FM Unit := do
  let q0 ← FM.lift (QuantizationTable.newWithQuality e.quantizationTables.1 e.quality.toNat true)
  let q1 ← FM.lift (QuantizationTable.newWithQuality e.quantizationTables.2 e.quality.toNat false)
  let ct ← FM.color
  let e := { e with components := initComponents e.samplingFactor ct }
  FM.wm (writeMarker pf .soi)
  FM.wm (writeHeader pf e.density)
  FM.wm (writeAdobe pf ct)
  FM.wm (WM.forEach e.appSegments fun s => writeSegment pf (.app s.1.toNat) s.2)
  e.encodeScansF pf op (q0, q1)
  FM.wm (writeMarker pf .eoi)

/-- src/encoder.rs:483-533 `encode_image_internal`. The height is asked in line 487 only if the width is not zero (`||`). -/
def Encoder.encodeImageInternalF (pf : Platform) (e : Encoder) (op : Operations) : FM Unit :=
  FM.bind FM.width fun w =>
    if w = 0 then zeroDimensionsF
    else FM.bind FM.height fun h => if h = 0 then zeroDimensionsF else e.encodeCheckedF pf op

/-- src/encoder.rs:472-481 `encode_image` for any image buffer. -/
def Encoder.encodeImageFree (pf : Platform) (simd : Bool) (e : Encoder) : FProg (R Unit) :=
  (e.encodeImageInternalF pf (if simd then avx2Operations else defaultOperations) (BitState.init pf)).bind fun r => .done (r.map (·.1))

end Jpeg
