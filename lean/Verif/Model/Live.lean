import Verif.Model.Encoder
/-! The encoder over an image buffer with side effects: calls of `fill_buffers` are effects of the program like calls of the writer, so that a buffer may
compute its answers in any way (stream from a file, count its calls, panic when asked twice). `Model/Encoder.lean` is the special case of a buffer whose
answers depend on the arguments only (`C65_same_program`). -/
namespace Jpeg

/-- A program over an abstract writer and an abstract image buffer: it finishes, calls `write_all(c)` (src/writer.rs:35-42) or calls
`fill_buffers(y, rows)` (src/image_buffer.rs:97) and continues with the answer: the new contents of the row buffers, or a panic. -/
inductive LProg (α : Type) where
  | done (a : α)
  | write (c : Bytes) (k : Option EncodingError → LProg α)
  | fill (y : UInt16) (rows : Rows) (k : R Rows → LProg α)

namespace LProg
/-- Sequencing. Rust semantics, no single line in src/*.rs. -/
def bind {α β : Type} : LProg α → (α → LProg β) → LProg β
  | .done a, f => f a
  | .write c k, f => .write c fun r => (k r).bind f
  | .fill y rows k, f => .fill y rows fun r => (k r).bind f

/-- A program that does not call the image buffer. -/
def ofProg {α : Type} : Prog α → LProg α
  | .done a => .done a
  | .write c k => .write c fun r => ofProg (k r)
end LProg

/-- An image buffer with state `τ`: what a call of `fill_buffers` (src/image_buffer.rs:97) answers and how it changes the state. The trait method takes
`&self`; state is kept with interior mutability, in files and so on. -/
structure LiveFill (τ : Type) where
  fill : τ → UInt16 → Rows → τ × R Rows

/-- Run a program against a writer and an image buffer.
Rust semantics: calls of src/writer.rs:40 and src/image_buffer.rs:97. -/
def LProg.run {σ τ α : Type} (S : Sink σ) (B : LiveFill τ) : LProg α → σ → τ → σ × τ × α
  | .done a, w, t => (w, t, a)
  | .write c k, w, t => (k (S.writeAll w c).2).run S B (S.writeAll w c).1 t
  | .fill y rows k, w, t => (k (B.fill t y rows).2).run S B w (B.fill t y rows).1

/-- A method of the encoder, as `WM`, with calls of the image buffer. src/writer.rs:67-71, 73-90. -/
def LM (α : Type) := BitState → LProg (R (α × BitState))

namespace LM
def pure {α : Type} (a : α) : LM α := fun s => .done (.ok (a, s))

/-- Sequencing with `?`: an error ends the computation. -/
def bind {α β : Type} (m : LM α) (f : α → LM β) : LM β := fun s =>
  (m s).bind fun
    | .error e => .done (.error e)
    | .ok (a, s') => f a s'

instance : Monad LM where
  pure := LM.pure
  bind := LM.bind

/-- A computation that calls the writer only. -/
def wm {α : Type} (m : WM α) : LM α := fun s => LProg.ofProg (m s)
/-- A computation that calls neither. -/
def lift {α : Type} (r : R α) : LM α := wm (WM.lift r)

/-- `image.fill_buffers(y, &mut row)` — src/encoder.rs:700 and 969. -/
def fillBuffers (y : UInt16) (rows : Rows) : LM Rows := fun s =>
  .fill y rows fun
    | .ok r => .done (.ok (r, s))
    | .error e => .done (.error e)

/-- `for x in l { body }` with loop state. e.g. src/encoder.rs:712-775. -/
def forFold {α β : Type} (l : List α) (s : β) (body : β → α → LM β) : LM β :=
  match l with
  | [] => LM.pure s
  | x :: xs => LM.bind (body s x) fun s' => forFold xs s' body
end LM

/-- What the encoder knows about an image without asking for rows: `get_jpeg_color_type`, `width` and `height` (src/image_buffer.rs:85-93); these
are constants in this file (for answers that change see Model/Free.lean). Used where `write_frame_header` takes the image (src/encoder.rs:590-632), which never fills rows. -/
def face (ct : JpegColorType) (w h : UInt16) : ImageBuffer := ⟨ct, w, h, fun _ r => .ok r⟩

/-- src/encoder.rs:697-710 and 966-979: fill one line and replicate its last sample up to the buffer width. -/
def fillLineL (w h : UInt16) (y bufferWidth : Nat) (rows : Rows) : LM Rows := do
  let y := min y (h.toNat - 1)
  let rows ← LM.fillBuffers (UInt16.ofNat y) rows
  LM.lift (forFoldR (List.range (bufferWidth - w.toNat)) rows fun rows _ => .ok (rows.map Buf.pushLast))

/-- src/encoder.rs:691-711: clear the row buffers and fill the `8 * maxV` lines of MCU row `blockY`. -/
def fillMcuRowL (pf : Platform) (w h : UInt16) (maxV bufferWidth blockY : Nat) (rows : Rows) : LM Rows :=
  LM.forFold (List.range (8 * maxV)) (rows.map Buf.clear) fun rows y => do
    let yy ← LM.lift (ckUsize pf ((y + blockY * 8 * maxV : Nat) : Int))
    fillLineL w h yy bufferWidth rows

/-- src/encoder.rs:665-773 `encode_image_interleaved`. -/
def Encoder.encodeInterleavedL (pf : Platform) (e : Encoder) (op : Operations) (ct : JpegColorType) (w h : UInt16)
    (q : QuantizationTable × QuantizationTable) : LM Unit := do
  LM.wm (e.writeFrameHeader pf (face ct w h) q)
  LM.wm (writeScanHeader pf e.components none)
  let (maxH, maxV) := maxSamplingSize e.components
  let numCols ← LM.lift (ceilDiv w.toNat (8 * maxH))
  let numRows ← LM.lift (ceilDiv h.toNat (8 * maxV))
  let bufferWidth ← LM.lift (ckUsize pf ((numCols * 8 * maxH : Nat) : Int))
  let bufferSize ← LM.lift (ckUsize pf ((bufferWidth * 8 * maxV : Nat) : Int))
  let rows ← LM.lift (initRows pf e.components.length bufferSize)
  let _ ← LM.forFold (List.range numRows) (rows, (⟨0, e.interval⟩ : Rst), ([0, 0, 0, 0] : List Int))
    fun st blockY => do
      let rows ← fillMcuRowL pf w h maxV bufferWidth blockY st.1
      let s ← LM.wm (scanLoop pf e.interval (fun _ => [0, 0, 0, 0])
        (fun blockX prevDc => encodeMcu pf e op q rows maxH maxV bufferWidth blockX prevDc)
        (List.range numCols) st.2)
      LM.pure (rows, s)
  LM.wm (finalizeBitBuffer pf)

/-- src/encoder.rs:945-1024 `encode_blocks`. -/
def encodeBlocksL (pf : Platform) (e : Encoder) (op : Operations) (w h : UInt16)
    (q : QuantizationTable × QuantizationTable) : LM Blocks := do
  let (maxH, maxV) := maxSamplingSize e.components
  let a ← LM.lift (ceilDiv w.toNat (8 * maxH))
  let numCols ← LM.lift (ckUsize pf ((a * maxH : Nat) : Int))
  let b ← LM.lift (ceilDiv h.toNat (8 * maxV))
  let numRows ← LM.lift (ckUsize pf ((b * maxV : Nat) : Int))
  let _ ← LM.lift (debugAssert pf (decide (numCols > 0)))
  let _ ← LM.lift (debugAssert pf (decide (numRows > 0)))
  let bufferWidth ← LM.lift (ckUsize pf ((numCols * 8 : Nat) : Int))
  let n ← LM.lift (ckUsize pf ((numCols * numRows : Nat) : Int))
  let bufferSize ← LM.lift (ckUsize pf ((n * 64 : Nat) : Int))
  let rows ← LM.lift (initRows pf e.components.length bufferSize)
  let rows ← LM.forFold (List.range (numRows * 8)) rows fun rows y => fillLineL w h y bufferWidth rows
  let numCols ← LM.lift (ceilDiv w.toNat 8)
  let numRows ← LM.lift (ceilDiv h.toNat 8)
  let _ ← LM.lift (debugAssert pf (decide (numCols > 0)))
  let _ ← LM.lift (debugAssert pf (decide (numRows > 0)))
  let _ ← LM.lift (withCapacity pf (bufferSize / 64) 128)
  LM.lift (mapR e.components.zipIdx (componentBlocks pf op q rows maxH maxV numCols numRows bufferWidth))

/-- src/encoder.rs:778-833 `encode_image_sequential`. -/
def Encoder.encodeSequentialL (pf : Platform) (e : Encoder) (op : Operations) (ct : JpegColorType) (w h : UInt16)
    (q : QuantizationTable × QuantizationTable) : LM Unit := do
  let blocks ← encodeBlocksL pf e op w h q
  let e ← LM.lift (e.optimizeIf pf blocks)
  LM.wm (e.writeFrameHeader pf (face ct w h) q)
  LM.wm (WM.forEach e.components.zipIdx (sequentialScan pf e blocks))

/-- src/encoder.rs:837-942 `encode_image_progressive`. -/
def Encoder.encodeProgressiveL (pf : Platform) (e : Encoder) (op : Operations) (ct : JpegColorType) (w h : UInt16) (scans : UInt8)
    (q : QuantizationTable × QuantizationTable) : LM Unit := do
  let blocks ← encodeBlocksL pf e op w h q
  let e ← LM.lift (e.optimizeIf pf blocks)
  LM.wm (e.writeFrameHeader pf (face ct w h) q)
  LM.wm (WM.forEach e.components.zipIdx (dcScan pf e blocks))
  let bands ← LM.lift (acBands pf scans.toNat)
  LM.wm (WM.forEach bands fun band => WM.forEach e.components.zipIdx (acScan pf e blocks band))

/-- src/encoder.rs:522-528: the choice of the coding mode. -/
def Encoder.encodeScansL (pf : Platform) (e : Encoder) (op : Operations) (ct : JpegColorType) (w h : UInt16)
    (q : QuantizationTable × QuantizationTable) : LM Unit :=
  match e.progressiveScans with
  | some scans => e.encodeProgressiveL pf op ct w h scans q
  | none =>
    if e.optimizeHuffmanTable || !e.samplingFactor.supportsInterleaved then e.encodeSequentialL pf op ct w h q
    else e.encodeInterleavedL pf op ct w h q

/-- src/encoder.rs:483-533 `encode_image_internal`. -/
def Encoder.encodeImageInternalL (pf : Platform) (e : Encoder) (op : Operations) (ct : JpegColorType) (w h : UInt16) : LM Unit :=
  if w = 0 ∨ h = 0 then LM.lift (.error (.err (.zeroImageDimensions w h)))
  else do
    let q0 ← LM.lift (QuantizationTable.newWithQuality e.quantizationTables.1 e.quality.toNat true)
    let q1 ← LM.lift (QuantizationTable.newWithQuality e.quantizationTables.2 e.quality.toNat false)
    let e := { e with components := initComponents e.samplingFactor ct }
    LM.wm (writeMarker pf .soi)
    LM.wm (writeHeader pf e.density)
    LM.wm (writeAdobe pf ct)
    LM.wm (WM.forEach e.appSegments fun s => writeSegment pf (.app s.1.toNat) s.2)
    e.encodeScansL pf op ct w h (q0, q1)
    LM.wm (writeMarker pf .eoi)

/-- src/encoder.rs:472-481 `encode_image` for an image buffer of color type `ct` and size `w` x `h`. -/
def Encoder.encodeImageLive (pf : Platform) (simd : Bool) (e : Encoder) (ct : JpegColorType) (w h : UInt16) : LProg (R Unit) :=
  (e.encodeImageInternalL pf (if simd then avx2Operations else defaultOperations) ct w h (BitState.init pf)).bind fun r => .done (r.map (·.1))

end Jpeg
