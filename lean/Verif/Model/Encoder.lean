import Verif.Model.Avx2
import Verif.Model.Fdct
/-! Model of src/encoder.rs. -/
namespace Jpeg
open WM

/-- src/encoder.rs:54-82 `ColorType`. -/
inductive ColorType where
  | luma | rgb | rgba | bgr | bgra | ycbcr | cmyk | cmykAsYcck | ycck
deriving DecidableEq, Repr

/-- src/encoder.rs:84-92 `get_bytes_per_pixel`. -/
def ColorType.bytesPerPixel : ColorType → Nat
  | .luma => 1
  | .rgb => 3
  | .bgr => 3
  | .ycbcr => 3
  | .rgba => 4
  | .bgra => 4
  | .cmyk => 4
  | .cmykAsYcck => 4
  | .ycck => 4

/-- src/encoder.rs:102-136 `SamplingFactor`. -/
inductive SamplingFactor where
  | F_1_1 | F_2_1 | F_1_2 | F_2_2 | F_4_1 | F_4_2 | F_1_4 | F_2_4
  | R_4_4_4 | R_4_4_0 | R_4_4_1 | R_4_2_2 | R_4_2_0 | R_4_2_1 | R_4_1_1 | R_4_1_0
deriving DecidableEq, Repr

/-- src/encoder.rs:103-135, the discriminants (`repr(u8)`). -/
def SamplingFactor.toU8 : SamplingFactor → Nat
  | .F_1_1 => 1 <<< 4 ||| 1
  | .F_2_1 => 2 <<< 4 ||| 1
  | .F_1_2 => 1 <<< 4 ||| 2
  | .F_2_2 => 2 <<< 4 ||| 2
  | .F_4_1 => 4 <<< 4 ||| 1
  | .F_4_2 => 4 <<< 4 ||| 2
  | .F_1_4 => 1 <<< 4 ||| 4
  | .F_2_4 => 2 <<< 4 ||| 4
  | .R_4_4_4 => 0x80 ||| 1 <<< 4 ||| 1
  | .R_4_4_0 => 0x80 ||| 1 <<< 4 ||| 2
  | .R_4_4_1 => 0x80 ||| 1 <<< 4 ||| 4
  | .R_4_2_2 => 0x80 ||| 2 <<< 4 ||| 1
  | .R_4_2_0 => 0x80 ||| 2 <<< 4 ||| 2
  | .R_4_2_1 => 0x80 ||| 2 <<< 4 ||| 4
  | .R_4_1_1 => 0x80 ||| 4 <<< 4 ||| 1
  | .R_4_1_0 => 0x80 ||| 4 <<< 4 ||| 2

/-- src/encoder.rs:139-153 `from_factors`. -/
def SamplingFactor.fromFactors (horizontal vertical : UInt8) : Option SamplingFactor :=
  match horizontal.toNat, vertical.toNat with
  | 1, 1 => some .F_1_1
  | 1, 2 => some .F_1_2
  | 1, 4 => some .F_1_4
  | 2, 1 => some .F_2_1
  | 2, 2 => some .F_2_2
  | 2, 4 => some .F_2_4
  | 4, 1 => some .F_4_1
  | 4, 2 => some .F_4_2
  | _, _ => none

/-- src/encoder.rs:155-158 `get_sampling_factors`. -/
def SamplingFactor.factors (s : SamplingFactor) : Nat × Nat :=
  ((s.toU8 >>> 4) &&& 0x07, s.toU8 &&& 0xf)

/-- src/encoder.rs:160-169 `supports_interleaved`. -/
def SamplingFactor.supportsInterleaved : SamplingFactor → Bool
  | .F_1_1 | .F_2_1 | .F_1_2 | .F_2_2 | .R_4_4_4 | .R_4_4_0 | .R_4_2_2 | .R_4_2_0 => true
  | _ => false

/-- `(HuffmanTable, HuffmanTable)`: DC and AC table. src/encoder.rs:202 -/
structure HuffPair where
  dc : HuffmanTable
  ac : HuffmanTable
deriving DecidableEq, Repr

/-- src/encoder.rs:195-216 `Encoder` without its `JfifWriter`. -/
structure Encoder where
  density : Density
  quality : UInt8
  components : List Component
  quantizationTables : QuantizationTableType × QuantizationTableType
  huffmanTables : HuffPair × HuffPair
  samplingFactor : SamplingFactor
  progressiveScans : Option UInt8
  restartInterval : Option UInt16
  optimizeHuffmanTable : Bool
  appSegments : List (UInt8 × Bytes)
deriving DecidableEq

/-- src/encoder.rs:221-259 `new`. -/
def Encoder.new (pf : Platform) (quality : UInt8) : R Encoder := do
  let ldc ← HuffmanTable.defaultLumaDc pf
  let lac ← HuffmanTable.defaultLumaAc pf
  let cdc ← HuffmanTable.defaultChromaDc pf
  let cac ← HuffmanTable.defaultChromaAc pf
  .ok {
    density := .none
    quality := quality
    components := []
    quantizationTables := (.default, .default)
    huffmanTables := (⟨ldc, lac⟩, ⟨cdc, cac⟩)
    samplingFactor := if quality < 90 then .F_2_2 else .F_1_1
    progressiveScans := none
    restartInterval := none
    optimizeHuffmanTable := false
    appSegments := [] }

/-- src/encoder.rs:262-264 -/
def Encoder.setDensity (e : Encoder) (d : Density) : Encoder := { e with density := d }
/-- src/encoder.rs:267-269 -/
def Encoder.getDensity (e : Encoder) : Density := e.density
/-- src/encoder.rs:272-274 -/
def Encoder.setSamplingFactor (e : Encoder) (s : SamplingFactor) : Encoder := { e with samplingFactor := s }
/-- src/encoder.rs:277-279 -/
def Encoder.getSamplingFactor (e : Encoder) : SamplingFactor := e.samplingFactor
/-- src/encoder.rs:282-288 -/
def Encoder.setQuantizationTables (e : Encoder) (luma chroma : QuantizationTableType) : Encoder :=
  { e with quantizationTables := (luma, chroma) }
/-- src/encoder.rs:291-293 -/
def Encoder.getQuantizationTables (e : Encoder) : QuantizationTableType × QuantizationTableType :=
  e.quantizationTables
/-- src/encoder.rs:299-301 -/
def Encoder.setProgressive (e : Encoder) (progressive : Bool) : Encoder :=
  { e with progressiveScans := if progressive then some 4 else none }
/-- src/encoder.rs:310-317 -/
def Encoder.setProgressiveScans (e : Encoder) (scans : UInt8) : R Encoder := do
  let _ ← assert' (decide (2 ≤ scans ∧ scans ≤ 64))
  .ok { e with progressiveScans := some scans }
/-- src/encoder.rs:320-322 -/
def Encoder.getProgressiveScans (e : Encoder) : Option UInt8 := e.progressiveScans
/-- src/encoder.rs:327-329 -/
def Encoder.setRestartInterval (e : Encoder) (interval : UInt16) : Encoder :=
  { e with restartInterval := if interval = 0 then none else some interval }
/-- src/encoder.rs:332-334 -/
def Encoder.getRestartInterval (e : Encoder) : Option UInt16 := e.restartInterval
/-- src/encoder.rs:339-341 -/
def Encoder.setOptimizedHuffmanTables (e : Encoder) (b : Bool) : Encoder := { e with optimizeHuffmanTable := b }
/-- src/encoder.rs:344-346 -/
def Encoder.getOptimizedHuffmanTables (e : Encoder) : Bool := e.optimizeHuffmanTable

/-- src/encoder.rs:356-366 `add_app_segment`. On failure `self` is unchanged (the model returns no new encoder). -/
def Encoder.addAppSegment (e : Encoder) (nr : UInt8) (data : Bytes) : R Encoder :=
  if nr = 0 ∨ nr > 15 then .error (.err (.invalidAppSegment nr))
  else if data.length > 65533 then .error (.err (.appSegmentTooLarge data.length))
  else .ok { e with appSegments := e.appSegments ++ [(nr, data)] }

/-- src/encoder.rs:1212-1214 `ceil_div` (a zero divisor never occurs; it would be a panic). -/
def ceilDiv (value div : Nat) : R Nat :=
  if div = 0 then .error (.panic .divZero)
  else .ok (value / div + if value % div ≠ 0 then 1 else 0)

/-- `slice::chunks(n)`: like `chunks_exact` but with a possibly shorter last chunk.
Rust std, used at src/encoder.rs:390. -/
def chunks {α : Type} (n : Nat) (l : List α) : List (List α) :=
  (List.range ((l.length + n - 1) / n)).map fun i => (l.drop (i * n)).take n

/-- src/encoder.rs:378 `b"ICC_PROFILE\0"` -/
def ICC_MARKER : Bytes := ascii [73, 67, 67, 95, 80, 82, 79, 70, 73, 76, 69, 0]
/-- src/encoder.rs:379 -/
def MAX_CHUNK_LENGTH : Nat := 65535 - 2 - 12 - 2

/-- src/encoder.rs:390-398: the loop of `add_icc_profile` with index `i`. `i as u8 + 1` is checked. -/
def iccLoop (pf : Platform) (numChunks : Nat) : List Bytes → Nat → Encoder → R Encoder
  | [], _, e => .ok e
  | d :: ds, i, e => do
    let n ← ckU pf 8 ((i % 256 : Nat) + 1)
    let e ← e.addAppSegment 2 (ICC_MARKER ++ [u8 n] ++ [u8 numChunks] ++ d)
    iccLoop pf numChunks ds (i + 1) e

/-- src/encoder.rs:374-401 `add_icc_profile`. Returning an error in the middle would leave the segments added
so far; this never happens (theorem C34). -/
def Encoder.addIccProfile (pf : Platform) (e : Encoder) (data : Bytes) : R Encoder := do
  let numChunks ← ceilDiv data.length MAX_CHUNK_LENGTH
  if numChunks ≥ 255 then .error (.err (.iccTooLarge data.length))
  else iccLoop pf numChunks (chunks MAX_CHUNK_LENGTH data) 0 e

/-- src/encoder.rs:181-192 `add_component!`. -/
def mkComponent (id dest h v : Nat) : Component := ⟨id, dest, dest, dest, h, v⟩

/-- src/encoder.rs:535-585 `init_components` (`self.components` is empty before). -/
def initComponents (sf : SamplingFactor) : JpegColorType → List Component
  | .luma => [mkComponent 0 0 1 1]
  | .ycbcr => [mkComponent 0 0 sf.factors.1 sf.factors.2, mkComponent 1 1 1 1, mkComponent 2 1 1 1]
  | .cmyk => [mkComponent 0 1 1 1, mkComponent 1 1 1 1, mkComponent 2 1 1 1,
      mkComponent 3 0 sf.factors.1 sf.factors.2]
  | .ycck => [mkComponent 0 0 sf.factors.1 sf.factors.2, mkComponent 1 1 1 1, mkComponent 2 1 1 1,
      mkComponent 3 0 sf.factors.1 sf.factors.2]

/-- src/encoder.rs:587-597 `get_max_sampling_size`. -/
def maxSamplingSize (components : List Component) : Nat × Nat :=
  (components.foldl (fun v c => max v c.horizontalSamplingFactor) 1,
   components.foldl (fun v c => max v c.verticalSamplingFactor) 1)

/-- `quantization_tables[i]`/`huffman_tables[i]`: indexing an array of two.
src/encoder.rs:495-496, 615-625, 752-753 -/
def pairIdx {α : Type} (p : α × α) (i : Nat) : R α := idx [p.1, p.2] i

/-- src/encoder.rs:618-624: tables for slot 1 when there are at least three components. -/
def writeChromaHuffman (pf : Platform) (n : Nat) (t : HuffPair) : WM Unit :=
  if n ≥ 3 then do
    writeHuffmanSegment pf .dc 1 t.dc
    writeHuffmanSegment pf .ac 1 t.ac
  else WM.pure ()

/-- src/encoder.rs:626-628 -/
def writeDriOpt (pf : Platform) : Option UInt16 → WM Unit
  | none => WM.pure ()
  | some i => writeDri pf i.toNat

/-- src/encoder.rs:599-631 `write_frame_header`. -/
def Encoder.writeFrameHeader (pf : Platform) (e : Encoder) (image : ImageBuffer)
    (q : QuantizationTable × QuantizationTable) : WM Unit := do
  Jpeg.writeFrameHeader pf image.width image.height e.components e.progressiveScans.isSome
  writeQuantizationSegment pf 0 q.1
  writeQuantizationSegment pf 1 q.2
  writeHuffmanSegment pf .dc 0 e.huffmanTables.1.dc
  writeHuffmanSegment pf .ac 0 e.huffmanTables.1.ac
  writeChromaHuffman pf image.colorType.numComponents e.huffmanTables.2
  writeDriOpt pf e.restartInterval

/-- `Vec::with_capacity(n)` for elements of `size` bytes: panics when more than `isize::MAX` bytes.
Rust std, used at src/encoder.rs:388, 641-656, 1032-1047. -/
def withCapacity (pf : Platform) (n size : Nat) : R Nat :=
  if n * size < 2 ^ (pf.wordBits - 1) then .ok n else .error (.panic .capacity)

/-- src/encoder.rs:635-663 `init_rows`. -/
def initRows (pf : Platform) (numComponents bufferSize : Nat) : R Rows := do
  let cap ← withCapacity pf bufferSize 1
  match numComponents with
  | 1 => .ok ⟨⟨[], cap⟩, ⟨[], 0⟩, ⟨[], 0⟩, ⟨[], 0⟩⟩
  | 3 => .ok ⟨⟨[], cap⟩, ⟨[], cap⟩, ⟨[], cap⟩, ⟨[], 0⟩⟩
  | 4 => .ok ⟨⟨[], cap⟩, ⟨[], cap⟩, ⟨[], cap⟩, ⟨[], cap⟩⟩
  | _ => .error (.panic .unreachable)

/-- src/encoder.rs:704-708: `if !channel.is_empty() { channel.push(channel[channel.len() - 1]) }` -/
def Buf.pushLast (b : Buf) : Buf :=
  match b.data.getLast? with
  | none => b
  | some x => b.push x

/-- src/encoder.rs:697-710 and 966-979: fill one line and replicate its last sample up to the buffer width. -/
def fillLine (image : ImageBuffer) (y bufferWidth : Nat) (rows : Rows) : R Rows := do
  let y := min y (image.height.toNat - 1)
  let rows ← image.fillBuffers (UInt16.ofNat y) rows
  forFoldR (List.range (bufferWidth - image.width.toNat)) rows fun rows _ => .ok (rows.map Buf.pushLast)

/-- src/encoder.rs:1190-1210 `get_block`. -/
def getBlock (pf : Platform) (data : Bytes) (startX startY colStride rowStride width : Nat) : R (List Int) :=
  mapR (List.range 64) fun i => do
    let x := i % 8
    let y := i / 8
    let ix ← ckUsize pf ((startX + x * colStride : Nat) : Int)
    let iy ← ckUsize pf ((startY + y * rowStride : Nat) : Int)
    let p ← ckUsize pf ((iy * width : Nat) : Int)
    let p ← ckUsize pf ((p + ix : Nat) : Int)
    let v ← idx data p
    ckI pf 16 ((v.toNat : Int) - 128)

/-- src/encoder.rs:1231-1247 the trait `Operations`: only `fdct` is overridden (src/avx2.rs:8-15). -/
structure Operations where
  fdct : Platform → List Int → R (List Int)

/-- src/encoder.rs:1246-1248 `DefaultOperations`. -/
def defaultOperations : Operations := ⟨Jpeg.fdct⟩
/-- src/avx2.rs:8-15 `AVX2Operations`. -/
def avx2Operations : Operations := ⟨fun _ d => .ok (Avx2.fdctAvx2 d)⟩

/-- src/encoder.rs:1237-1243 `quantize_block`. -/
def quantizeBlock (pf : Platform) (block : List Int) (q : QuantizationTable) : R (List Int) :=
  mapR (List.range 64) fun i => do
    let z ← idx ZIGZAG i
    let z := z &&& 0x3f
    let v ← idx block z
    q.quantize pf v z

/-- src/encoder.rs:731-751 and 997-1016: sample, transform and quantise one block. -/
def processBlock (pf : Platform) (op : Operations) (q : QuantizationTable × QuantizationTable) (c : Component)
    (data : Bytes) (startX startY colStride rowStride width : Nat) : R (List Int) := do
  let block ← getBlock pf data startX startY colStride rowStride width
  let block ← op.fdct pf block
  let t ← pairIdx q c.quantizationTable
  quantizeBlock pf block t

/-- `max / factor` on `usize`. src/encoder.rs:733-735, 989-990 -/
def divR (a b : Nat) : R Nat := if b = 0 then .error (.panic .divZero) else .ok (a / b)

/-- Restart bookkeeping: `restarts` and `restarts_to_go : u16`. src/encoder.rs:690-691 -/
structure Rst where
  restarts : Nat
  toGo : Nat
deriving DecidableEq, Repr

/-- src/encoder.rs:714-724, 801-808, 862-869, 914-918: before an MCU. `reset` is what happens to the
predictors. -/
def restartBefore {σ : Type} (pf : Platform) (interval : Nat) (rst : Rst) (reset : σ → σ) (s : σ) : WM σ :=
  if interval > 0 ∧ rst.toGo = 0 then do
    finalizeBitBuffer pf
    writeMarker pf (.rst (rst.restarts % 8))
    WM.pure (reset s)
  else WM.pure s

/-- src/encoder.rs:760-767, 819-826, 879-886, 927-934: after an MCU. `restarts` is an `i32` kept in 0..7 by
`&= 7`, so `+= 1` does not overflow. -/
def restartAfter (pf : Platform) (interval : Nat) (rst : Rst) : R Rst :=
  if interval > 0 then
    if rst.toGo = 0 then do
      let g ← ckU pf 16 ((interval : Int) - 1)
      .ok ⟨(rst.restarts + 1) &&& 7, g⟩
    else do
      let g ← ckU pf 16 ((rst.toGo : Int) - 1)
      .ok ⟨rst.restarts, g⟩
  else .ok rst

/-- The loop over the MCUs of a scan shared by the four scan loops of the code
(src/encoder.rs:713-768, 800-827, 861-887, 913-935). -/
def scanLoop {α σ : Type} (pf : Platform) (interval : Nat) (reset : σ → σ) (body : α → σ → WM σ)
    (items : List α) (st : Rst × σ) : WM (Rst × σ) :=
  WM.forFold items st fun st x => do
    let s ← restartBefore pf interval st.1 reset st.2
    let s ← body x s
    let rst ← lift (restartAfter pf interval st.1)
    WM.pure (rst, s)

/-- `self.restart_interval.unwrap_or(0)` — src/encoder.rs:689 -/
def Encoder.interval (e : Encoder) : Nat := (e.restartInterval.map UInt16.toNat).getD 0

/-- src/encoder.rs:729-757: one block of component `i` in an interleaved MCU. -/
def encodeMcuBlock (pf : Platform) (e : Encoder) (op : Operations) (q : QuantizationTable × QuantizationTable)
    (rows : Rows) (maxH maxV bufferWidth blockX i : Nat) (c : Component) (v h : Nat) (prevDc : List Int) :
    WM (List Int) := do
  let row ← lift (rows.get i)
  let cs ← lift (divR maxH c.horizontalSamplingFactor)
  let rs ← lift (divR maxV c.verticalSamplingFactor)
  let qb ← lift (processBlock pf op q c row.data (blockX * 8 * maxH + h * 8) (v * 8) cs rs bufferWidth)
  let prev ← lift (idx prevDc i)
  let dct ← lift (pairIdx e.huffmanTables c.dcHuffmanTable)
  let act ← lift (pairIdx e.huffmanTables c.acHuffmanTable)
  writeBlock pf qb prev dct.dc act.ac
  let dc ← lift (idx qb 0)
  lift (setIdx prevDc i dc)

/-- src/encoder.rs:726-758: all blocks of the MCU in column `blockX`. -/
def encodeMcu (pf : Platform) (e : Encoder) (op : Operations) (q : QuantizationTable × QuantizationTable)
    (rows : Rows) (maxH maxV bufferWidth blockX : Nat) (prevDc : List Int) : WM (List Int) :=
  WM.forFold e.components.zipIdx prevDc fun prevDc ci =>
    WM.forFold (List.range ci.1.verticalSamplingFactor) prevDc fun prevDc v =>
      WM.forFold (List.range ci.1.horizontalSamplingFactor) prevDc fun prevDc h =>
        encodeMcuBlock pf e op q rows maxH maxV bufferWidth blockX ci.2 ci.1 v h prevDc

/-- src/encoder.rs:691-711: clear the row buffers and fill the `8 * maxV` lines of MCU row `blockY`. -/
def fillMcuRow (pf : Platform) (image : ImageBuffer) (maxV bufferWidth blockY : Nat) (rows : Rows) : R Rows :=
  forFoldR (List.range (8 * maxV)) (rows.map Buf.clear) fun rows y => do
    let yy ← ckUsize pf ((y + blockY * 8 * maxV : Nat) : Int)
    fillLine image yy bufferWidth rows

/-- src/encoder.rs:665-773 `encode_image_interleaved`. -/
def Encoder.encodeInterleaved (pf : Platform) (e : Encoder) (op : Operations) (image : ImageBuffer)
    (q : QuantizationTable × QuantizationTable) : WM Unit := do
  e.writeFrameHeader pf image q
  writeScanHeader pf e.components none
  let (maxH, maxV) := maxSamplingSize e.components
  let numCols ← lift (ceilDiv image.width.toNat (8 * maxH))
  let numRows ← lift (ceilDiv image.height.toNat (8 * maxV))
  let bufferWidth ← lift (ckUsize pf ((numCols * 8 * maxH : Nat) : Int))
  let bufferSize ← lift (ckUsize pf ((bufferWidth * 8 * maxV : Nat) : Int))
  let rows ← lift (initRows pf e.components.length bufferSize)
  let _ ← WM.forFold (List.range numRows) (rows, (⟨0, e.interval⟩ : Rst), ([0, 0, 0, 0] : List Int))
    fun st blockY => do
      let rows ← lift (fillMcuRow pf image maxV bufferWidth blockY st.1)
      let s ← scanLoop pf e.interval (fun _ => [0, 0, 0, 0])
        (fun blockX prevDc => encodeMcu pf e op q rows maxH maxV bufferWidth blockX prevDc)
        (List.range numCols) st.2
      WM.pure (rows, s)
  finalizeBitBuffer pf

/-- `[Vec<[i16; 64]>; 4]`, one list of blocks per component. src/encoder.rs:949 -/
abbrev Blocks := List (List (List Int))

/-- src/encoder.rs:985-1022: the blocks of one component. -/
def componentBlocks (pf : Platform) (op : Operations) (q : QuantizationTable × QuantizationTable) (rows : Rows)
    (maxH maxV numCols numRows bufferWidth : Nat) (ci : Component × Nat) : R (List (List Int)) := do
  let hScale ← divR maxH ci.1.horizontalSamplingFactor
  let vScale ← divR maxV ci.1.verticalSamplingFactor
  let cols ← ceilDiv numCols hScale
  let rws ← ceilDiv numRows vScale
  let _ ← debugAssert pf (decide (cols > 0))
  let _ ← debugAssert pf (decide (rws > 0))
  let bs ← mapR (List.range rws) fun blockY => mapR (List.range cols) fun blockX => do
    let row ← rows.get ci.2
    processBlock pf op q ci.1 row.data (blockX * 8 * hScale) (blockY * 8 * vScale) hScale vScale bufferWidth
  .ok bs.flatten

/-- src/encoder.rs:945-1024 `encode_blocks`. The blocks of unused components are empty lists in the code and
absent here. `init_block_buffers` (1026-1051) reserves 128 bytes per block. -/
def encodeBlocks (pf : Platform) (e : Encoder) (op : Operations) (image : ImageBuffer)
    (q : QuantizationTable × QuantizationTable) : R Blocks := do
  let (maxH, maxV) := maxSamplingSize e.components
  let a ← ceilDiv image.width.toNat (8 * maxH)
  let numCols ← ckUsize pf ((a * maxH : Nat) : Int)
  let b ← ceilDiv image.height.toNat (8 * maxV)
  let numRows ← ckUsize pf ((b * maxV : Nat) : Int)
  let _ ← debugAssert pf (decide (numCols > 0))
  let _ ← debugAssert pf (decide (numRows > 0))
  let bufferWidth ← ckUsize pf ((numCols * 8 : Nat) : Int)
  let n ← ckUsize pf ((numCols * numRows : Nat) : Int)
  let bufferSize ← ckUsize pf ((n * 64 : Nat) : Int)
  let rows ← initRows pf e.components.length bufferSize
  let rows ← forFoldR (List.range (numRows * 8)) rows fun rows y => fillLine image y bufferWidth rows
  let numCols ← ceilDiv image.width.toNat 8
  let numRows ← ceilDiv image.height.toNat 8
  let _ ← debugAssert pf (decide (numCols > 0))
  let _ ← debugAssert pf (decide (numRows > 0))
  let _ ← withCapacity pf (bufferSize / 64) 128
  mapR e.components.zipIdx (componentBlocks pf op q rows maxH maxV numCols numRows bufferWidth)

/-- src/encoder.rs:1216-1229 `get_num_bits`: the loop `while value > 0`. -/
def numBitsLoop (pf : Platform) : Nat → Int → Nat → R Nat
  | 0, _, _ => .error .diverge
  | fuel + 1, value, n =>
    if value > 0 then do
      let n ← ckU pf 8 ((n : Int) + 1)
      numBitsLoop pf fuel (value / 2) n
    else .ok n
termination_by structural fuel => fuel

/-- src/encoder.rs:1216-1229 `get_num_bits` (`i16`). -/
def getNumBits (pf : Platform) (value : Int) : R Nat := do
  let v ← ckI pf 16 (if value < 0 then -value else value)
  numBitsLoop pf 17 v 0

/-- `freq[i] += 1` on `[u32; 257]`. src/encoder.rs:1081, 1114-1146 -/
def bumpFreq (pf : Platform) (freq : List Nat) (i : Nat) : R (List Nat) := do
  let f ← idx freq i
  let f ← ckU pf 32 ((f : Int) + 1)
  setIdx freq i f

/-- src/encoder.rs:1077-1085: DC statistics of one component; state `(prev_dc, freq)`. -/
def dcStats (pf : Platform) (blocks : List (List Int)) (freq : List Nat) : R (List Nat) := do
  let s ← forFoldR blocks ((0 : Int), freq) fun s block => do
    let value ← idx block 0
    let diff ← ckI pf 16 (value - s.1)
    let n ← getNumBits pf diff
    let freq ← bumpFreq pf s.2 n
    .ok (value, freq)
  .ok s.2

/-- src/encoder.rs:1116-1119 and 1143-1146: `while zero_run > 15` (`zero_run : u8`). -/
def zrlStats (pf : Platform) : Nat → Nat → List Nat → R (Nat × List Nat)
  | 0, _, _ => .error .diverge
  | fuel + 1, zeroRun, freq =>
    if zeroRun > 15 then do
      let freq ← bumpFreq pf freq 0xF0
      let z ← ckU pf 8 ((zeroRun : Int) - 16)
      zrlStats pf fuel z freq
    else .ok (zeroRun, freq)
termination_by structural fuel => fuel

/-- src/encoder.rs:1112-1128 and 1139-1155: the coefficient loop. -/
def acStatsLoop (pf : Platform) : List Int → Nat → List Nat → R (Nat × List Nat)
  | [], zeroRun, freq => .ok (zeroRun, freq)
  | value :: rest, zeroRun, freq =>
    if value = 0 then do
      let z ← ckU pf 8 ((zeroRun : Int) + 1)
      acStatsLoop pf rest z freq
    else do
      let (z, freq) ← zrlStats pf 17 zeroRun freq
      let n ← getNumBits pf value
      let hi ← shlU pf 8 z 4
      let freq ← bumpFreq pf freq (hi ||| n)
      acStatsLoop pf rest 0 freq

/-- src/encoder.rs:1109-1132 and 1136-1159: AC statistics of the band `start..end` of one block. -/
def acStatsBlock (pf : Platform) (start stop : Nat) (block : List Int) (freq : List Nat) : R (List Nat) := do
  let l ← slice block start stop
  let (z, freq) ← acStatsLoop pf l 0 freq
  if z > 0 then bumpFreq pf freq 0 else .ok freq

/-- src/encoder.rs:893-905 and 1092-1104: the AC bands `start..end` of the progressive mode. -/
def acBands (pf : Platform) (scans : Nat) : R (List (Nat × Nat)) := do
  let scans ← ckUsize pf ((scans : Int) - 1)
  let perScan ← divR 64 scans
  .ok ((List.range scans).map fun scan =>
    (max (scan * perScan) 1, if scan = scans - 1 then 64 else (scan + 1) * perScan))

/-- src/encoder.rs:1088-1161: AC statistics of one component. -/
def acStats (pf : Platform) (progressive : Option UInt8) (blocks : List (List Int)) (freq : List Nat) :
    R (List Nat) :=
  match progressive with
  | some scans => do
    let bands ← acBands pf scans.toNat
    forFoldR bands freq fun freq band => do
      let _ ← debugAssert pf (!blocks.isEmpty)
      forFoldR blocks freq fun freq block => acStatsBlock pf band.1 band.2 block freq
  | none => forFoldR blocks freq fun freq block => acStatsBlock pf 1 64 block freq

/-- src/encoder.rs:1061-1064: `[0u32; 257]` with the last entry 1. -/
def initFreq : List Nat := List.replicate 256 0 ++ [1]

/-- src/encoder.rs:1069-1162: statistics of one component for table `table`; state
`(had_dc, had_ac, dc_freq, ac_freq)`. -/
def statsComponent (pf : Platform) (progressive : Option UInt8) (blocks : Blocks) (table : Nat)
    (s : Bool × Bool × List Nat × List Nat) (ci : Component × Nat) : R (Bool × Bool × List Nat × List Nat) := do
  let bs ← idx blocks ci.2
  let s ← if ci.1.dcHuffmanTable = table then do
      let _ ← debugAssert pf (!bs.isEmpty)
      let f ← dcStats pf bs s.2.2.1
      .ok (true, s.2.1, f, s.2.2.2)
    else .ok s
  if ci.1.acHuffmanTable = table then do
    let f ← acStats pf progressive bs s.2.2.2
    .ok (s.1, true, s.2.2.1, f)
  else .ok s

/-- src/encoder.rs:1060-1171: the optimised tables for slot `table`. -/
def optimizeTable (pf : Platform) (progressive : Option UInt8) (components : List Component) (blocks : Blocks)
    (table : Nat) : R HuffPair := do
  let s ← forFoldR components.zipIdx (false, false, initFreq, initFreq)
    (statsComponent pf progressive blocks table)
  let _ ← assert' s.1
  let _ ← assert' s.2.1
  let dc ← HuffmanTable.newOptimized pf s.2.2.1
  let ac ← HuffmanTable.newOptimized pf s.2.2.2
  .ok ⟨dc, ac⟩

/-- src/encoder.rs:1054-1173 `optimize_huffman_table`: `max_tables = components.len().min(2)`. -/
def Encoder.optimizeHuffman (pf : Platform) (e : Encoder) (blocks : Blocks) : R Encoder := do
  let t0 ← optimizeTable pf e.progressiveScans e.components blocks 0
  if e.components.length ≥ 2 then do
    let t1 ← optimizeTable pf e.progressiveScans e.components blocks 1
    .ok { e with huffmanTables := (t0, t1) }
  else .ok { e with huffmanTables := (t0, e.huffmanTables.2) }

/-- src/encoder.rs:785-787, 845-847. -/
def Encoder.optimizeIf (pf : Platform) (e : Encoder) (blocks : Blocks) : R Encoder :=
  if e.optimizeHuffmanTable then e.optimizeHuffman pf blocks else .ok e

/-- src/encoder.rs:791-830: one sequential scan. -/
def sequentialScan (pf : Platform) (e : Encoder) (blocks : Blocks) (ci : Component × Nat) : WM Unit := do
  writeScanHeader pf [ci.1] none
  let bs ← lift (idx blocks ci.2)
  let _ ← scanLoop pf e.interval (fun _ => (0 : Int)) (fun block prevDc => do
      let dct ← lift (pairIdx e.huffmanTables ci.1.dcHuffmanTable)
      let act ← lift (pairIdx e.huffmanTables ci.1.acHuffmanTable)
      writeBlock pf block prevDc dct.dc act.ac
      lift (idx block 0))
    bs (⟨0, e.interval⟩, 0)
  finalizeBitBuffer pf

/-- src/encoder.rs:778-833 `encode_image_sequential`. -/
def Encoder.encodeSequential (pf : Platform) (e : Encoder) (op : Operations) (image : ImageBuffer)
    (q : QuantizationTable × QuantizationTable) : WM Unit := do
  let blocks ← lift (encodeBlocks pf e op image q)
  let e ← lift (e.optimizeIf pf blocks)
  e.writeFrameHeader pf image q
  WM.forEach e.components.zipIdx (sequentialScan pf e blocks)

/-- src/encoder.rs:853-890: one DC scan. -/
def dcScan (pf : Platform) (e : Encoder) (blocks : Blocks) (ci : Component × Nat) : WM Unit := do
  writeScanHeader pf [ci.1] (some (0, 0))
  let bs ← lift (idx blocks ci.2)
  let _ ← scanLoop pf e.interval (fun _ => (0 : Int)) (fun block prevDc => do
      let dc ← lift (idx block 0)
      let dct ← lift (pairIdx e.huffmanTables ci.1.dcHuffmanTable)
      writeDc pf dc prevDc dct.dc
      WM.pure dc)
    bs (⟨0, e.interval⟩, 0)
  finalizeBitBuffer pf

/-- src/encoder.rs:907-938: one AC scan; `end as u8 - 1` is checked. -/
def acScan (pf : Platform) (e : Encoder) (blocks : Blocks) (band : Nat × Nat) (ci : Component × Nat) : WM Unit := do
  let se ← lift (ckU pf 8 (((band.2 % 256 : Nat) : Int) - 1))
  writeScanHeader pf [ci.1] (some (band.1 % 256, se))
  let bs ← lift (idx blocks ci.2)
  let _ ← scanLoop pf e.interval (fun s : Unit => s) (fun block _ => do
      let act ← lift (pairIdx e.huffmanTables ci.1.acHuffmanTable)
      writeAcBlock pf block band.1 band.2 act.ac)
    bs (⟨0, e.interval⟩, ())
  finalizeBitBuffer pf

/-- src/encoder.rs:837-942 `encode_image_progressive`. -/
def Encoder.encodeProgressive (pf : Platform) (e : Encoder) (op : Operations) (image : ImageBuffer) (scans : UInt8)
    (q : QuantizationTable × QuantizationTable) : WM Unit := do
  let blocks ← lift (encodeBlocks pf e op image q)
  let e ← lift (e.optimizeIf pf blocks)
  e.writeFrameHeader pf image q
  WM.forEach e.components.zipIdx (dcScan pf e blocks)
  let bands ← lift (acBands pf scans.toNat)
  WM.forEach bands fun band => WM.forEach e.components.zipIdx (acScan pf e blocks band)

/-- src/encoder.rs:506-516: the Adobe segment. -/
def writeAdobe (pf : Platform) : JpegColorType → WM Unit
  | .cmyk => writeSegment pf (.app 14) (ascii [65, 100, 111, 98, 101, 0, 0, 0, 0, 0, 0, 0])
  | .ycck => writeSegment pf (.app 14) (ascii [65, 100, 111, 98, 101, 0, 0, 0, 0, 0, 0, 2])
  | _ => WM.pure ()

/-- src/encoder.rs:522-528: the choice of the coding mode. -/
def Encoder.encodeScans (pf : Platform) (e : Encoder) (op : Operations) (image : ImageBuffer)
    (q : QuantizationTable × QuantizationTable) : WM Unit :=
  match e.progressiveScans with
  | some scans => e.encodeProgressive pf op image scans q
  | none =>
    if e.optimizeHuffmanTable || !e.samplingFactor.supportsInterleaved then e.encodeSequential pf op image q
    else e.encodeInterleaved pf op image q

/-- src/encoder.rs:483-533 `encode_image_internal`. -/
def Encoder.encodeImageInternal (pf : Platform) (e : Encoder) (op : Operations) (image : ImageBuffer) : WM Unit :=
  if image.width = 0 ∨ image.height = 0 then lift (.error (.err (.zeroImageDimensions image.width image.height)))
  else do
    let q0 ← lift (QuantizationTable.newWithQuality e.quantizationTables.1 e.quality.toNat true)
    let q1 ← lift (QuantizationTable.newWithQuality e.quantizationTables.2 e.quality.toNat false)
    let e := { e with components := initComponents e.samplingFactor image.colorType }
    writeMarker pf .soi
    writeHeader pf e.density
    writeAdobe pf image.colorType
    WM.forEach e.appSegments fun s => writeSegment pf (.app s.1.toNat) s.2
    e.encodeScans pf op image (q0, q1)
    writeMarker pf .eoi

/-- Run a method of the writer from a fresh `JfifWriter` (src/writer.rs:74-80), forget the bit buffer at the end. -/
def WM.program {α : Type} (pf : Platform) (m : WM α) : Prog (R α) :=
  (m (BitState.init pf)).bind fun r => .done (r.map (·.1))

/-- src/encoder.rs:472-481 `encode_image`; `simd`: feature `simd` on x86 and AVX2 detected at run time. -/
def Encoder.encodeImage (pf : Platform) (simd : Bool) (e : Encoder) (image : ImageBuffer) : Prog (R Unit) :=
  (e.encodeImageInternal pf (if simd then avx2Operations else defaultOperations) image).program pf

/-- src/encoder.rs:424-452 (AVX2) and 456-466: the image buffer for a color type. -/
def imageFor (pf : Platform) (simd : Bool) (data : Bytes) (w h : UInt16) : ColorType → ImageBuffer
  | .luma => grayImage pf data w h
  | .rgb => if simd then Avx2.rgbImageAvx2 pf data w h else rgbImage pf data w h
  | .rgba => if simd then Avx2.rgbaImageAvx2 pf data w h else rgbaImage pf data w h
  | .bgr => if simd then Avx2.bgrImageAvx2 pf data w h else bgrImage pf data w h
  | .bgra => if simd then Avx2.bgraImageAvx2 pf data w h else bgraImage pf data w h
  | .ycbcr => ycbcrImage pf data w h
  | .cmyk => cmykImage pf data w h
  | .cmykAsYcck => cmykAsYcckImage pf data w h
  | .ycck => ycckImage pf data w h

/-- src/encoder.rs:413 `width as usize * height as usize * bytes_per_pixel`. -/
def requiredLen (pf : Platform) (w h : UInt16) (ct : ColorType) : R Nat := do
  let a ← ckUsize pf ((w.toNat * h.toNat : Nat) : Int)
  ckUsize pf ((a * ct.bytesPerPixel : Nat) : Int)

/-- src/encoder.rs:406-469 `encode`. -/
def Encoder.encode (pf : Platform) (simd : Bool) (e : Encoder) (data : Bytes) (w h : UInt16) (ct : ColorType) :
    Prog (R Unit) :=
  match requiredLen pf w h ct with
  | .error f => .done (.error f)
  | .ok required =>
    if data.length < required then .done (.error (.err (.badImageData data.length required)))
    else e.encodeImage pf simd (imageFor pf simd data w h ct)

end Jpeg
