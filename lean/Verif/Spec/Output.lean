import Verif.Spec.Formats
import Verif.Spec.Symbols
import Verif.Spec.BestCode
/-! What the file written for an image has to contain. -/
namespace Jpeg.Spec
open _root_.Spec

/-- Frame components (identifier, sampling factors, quantisation table slot) of a file color type: the colour channels Cb, Cr and
C, M, Y have factors 1x1, the others the configured ones. Table 0 is used for luminance and black. -/
def expectedComps (h v : Nat) : JpegColorType → List FrameComp
  | .luma => [⟨0, 1, 1, 0⟩]
  | .ycbcr => [⟨0, h, v, 0⟩, ⟨1, 1, 1, 1⟩, ⟨2, 1, 1, 1⟩]
  | .cmyk => [⟨0, 1, 1, 1⟩, ⟨1, 1, 1, 1⟩, ⟨2, 1, 1, 1⟩, ⟨3, h, v, 0⟩]
  | .ycck => [⟨0, h, v, 0⟩, ⟨1, 1, 1, 1⟩, ⟨2, 1, 1, 1⟩, ⟨3, h, v, 0⟩]

/-- The forward DCT of a build. -/
def buildDct (simd : Bool) : Platform → List Int → R (List Int) := if simd then avx2Operations.fdct else defaultOperations.fdct

/-- `v` is the coefficient with zig-zag index `k` of the block `samples`: forward DCT, then quantisation by `table`
(what these do is the subject of C22 - C26). -/
def IsCoef (pf : Platform) (simd : Bool) (table : QuantizationTable) (samples : List Int) (k : Nat) (v : Int) : Prop :=
  ∃ freq, buildDct simd pf samples = .ok freq ∧ table.quantize pf (freq.getD (zigzag.getD k 0) 0) (zigzag.getD k 0) = .ok v

/-- The quantisation tables (slots 0 and 1) selected by table types and quality. -/
def AreTables (types : QuantizationTableType × QuantizationTableType) (quality : UInt8) (q0 q1 : QuantizationTable) : Prop :=
  QuantizationTable.newWithQuality types.1 quality.toNat true = .ok q0 ∧
  QuantizationTable.newWithQuality types.2 quality.toNat false = .ok q1

/-- The decoded file `d` contains exactly the quantised coefficients of the image with planes `P`: every block of every component
consists of the coefficients of the samples T.81 A.1 and A.2 assign to it. -/
def HasImage (pf : Platform) (simd : Bool) (types : QuantizationTableType × QuantizationTableType) (quality : UInt8)
    (P : Nat → Nat → Nat → UInt8) (d : Dec) : Prop :=
  ∃ f q0 q1, d.frame = some f ∧ AreTables types quality q0 q1 ∧
    ∀ c fc, f.comps[c]? = some fc → ∀ y x k, y < f.blocksHigh fc → x < f.blocksWide fc → k < 64 →
      IsCoef pf simd (if fc.tq = 0 then q0 else q1)
        (blockSamples f.width f.height P c (f.vmax / fc.v) (f.hmax / fc.h) y x) k (d.coefs c y x k)

/-- The frame header of `d` describes the image. -/
def HasFrame (progressive : Bool) (factors : Nat × Nat) (ct : JpegColorType) (w h : UInt16) (d : Dec) : Prop :=
  d.frame = some ⟨progressive, h.toNat, w.toNat, expectedComps factors.1 factors.2 ct⟩

/-- Scan parameters of a frame component: it uses the Huffman tables with the number of its quantisation table. -/
def scanComp (c : FrameComp) : ScanComp := ⟨c.id, c.tq, c.tq⟩

/-- One scan with all components. -/
def interleavedScans (cs : List FrameComp) : List Scan := [⟨cs.map scanComp, 0, 63⟩]
/-- One scan per component. -/
def sequentialScans (cs : List FrameComp) : List Scan := cs.map fun c => ⟨[scanComp c], 0, 63⟩

/-- Entries of custom quantisation tables are at most 255, so that they fit into the file. -/
def EightBit (types : QuantizationTableType × QuantizationTableType) : Prop :=
  ∀ t, (types.1 = .custom t ∨ types.2 = .custom t) → ∀ v ∈ t.toList, v.toNat ≤ 255

/-- The whole image is coded in one interleaved scan: not progressive, built-in Huffman tables, sampling factors of at most 2. -/
def Baseline (e : Encoder) : Prop :=
  e.getProgressiveScans = none ∧ e.getOptimizedHuffmanTables = false ∧
    e.getSamplingFactor.factors.1 ≤ 2 ∧ e.getSamplingFactor.factors.2 ≤ 2

/-- The frame of an image. -/
def frameOf (e : Encoder) (ct : JpegColorType) (w h : UInt16) : Frame :=
  ⟨e.getProgressiveScans.isSome, h.toNat, w.toNat, expectedComps e.getSamplingFactor.factors.1 e.getSamplingFactor.factors.2 ct⟩

/-- Number of blocks in a component. -/
def blockCount (f : Frame) (c : FrameComp) : Nat := f.blocksHigh c * f.blocksWide c

/-- Number of blocks coded with the Huffman tables of slot `t`. -/
def codedBlocks (f : Frame) (t : Nat) : Nat := ((f.comps.filter (·.tq == t)).map (blockCount f)).sum

/-- Number of nonzero AC coefficients in these blocks. -/
def nonzeroAc (f : Frame) (coefs : Nat → Nat → Nat → Nat → Int) (t : Nat) : Nat :=
  ((f.comps.zipIdx.filter (·.1.tq == t)).map fun ci => ((raster (f.blocksHigh ci.1) (f.blocksWide ci.1)).map fun p =>
    (List.range 63).countP fun k => coefs ci.2 p.1 p.2 (k + 1) ≠ 0).sum).sum

/-- Number of scans with AC coefficients per component. -/
def acScanCount (e : Encoder) : Nat :=
  match e.getProgressiveScans with
  | none => 1
  | some n => n.toNat - 1

/-- The symbols of the DC coefficients coded with the Huffman tables of slot `t`, if there are no restarts. -/
def dcCounted (f : Frame) (coefs : Nat → Nat → Nat → Nat → Int) (t : Nat) : List Nat :=
  f.comps.zipIdx.flatMap fun ci => if ci.1.tq = t then
    dcSymbols ((raster (f.blocksHigh ci.1) (f.blocksWide ci.1)).map fun p => coefs ci.2 p.1 p.2 0) 0 else []

/-- First and last AC coefficient of each scan: all of them, or with `n` progressive scans `n - 1` bands of `64 / (n - 1)` coefficients. The first band
loses the DC coefficient, and the last one has the remaining coefficients. -/
def acBands (e : Encoder) : List (Nat × Nat) :=
  match e.getProgressiveScans with
  | none => [(1, 63)]
  | some n => (List.range (n.toNat - 1)).map fun i =>
    (max 1 (i * (64 / (n.toNat - 1))), if i + 1 = n.toNat - 1 then 63 else (i + 1) * (64 / (n.toNat - 1)) - 1)

/-- The symbols of the AC coefficients coded with the Huffman tables of slot `t`. -/
def acCounted (e : Encoder) (f : Frame) (coefs : Nat → Nat → Nat → Nat → Int) (t : Nat) : List Nat :=
  f.comps.zipIdx.flatMap fun ci => if ci.1.tq = t then (acBands e).flatMap fun b =>
    (raster (f.blocksHigh ci.1) (f.blocksWide ci.1)).flatMap fun p => acSymbols (bandOf (coefs ci.2 p.1 p.2) b.1 b.2) 0 else []

/-- Tables are claimed to be found for the AC symbols of the image (see C11; trivial for images of less than 146000 blocks, as a block has at most
63 AC symbols). -/
def SymbolsFit (pf : Platform) (simd : Bool) (e : Encoder) (ct : JpegColorType) (w h : UInt16) (P : Nat → Nat → Nat → UInt8) : Prop :=
  ∀ d, HasFrame e.getProgressiveScans.isSome e.getSamplingFactor.factors ct w h d → HasImage pf simd e.getQuantizationTables e.quality P d →
    ∀ t, CountsFit (acCounted e (frameOf e ct w h) d.coefs t)

/-- Optimised Huffman tables are claimed to work when the first symbol of every restart interval also occurs without restarts (see C10; trivial if no
component has more blocks than a restart interval) and when tables are found for the AC symbols. -/
structure CanOptimize (pf : Platform) (simd : Bool) (e : Encoder) (ct : JpegColorType) (w h : UInt16) (P : Nat → Nat → Nat → UInt8) : Prop where
  restarts : ∀ n, e.getRestartInterval = some n → ∀ d, HasFrame e.getProgressiveScans.isSome e.getSamplingFactor.factors ct w h d →
    HasImage pf simd e.getQuantizationTables e.quality P d → ∀ c fc, (frameOf e ct w h).comps[c]? = some fc → ∀ j p,
      (raster ((frameOf e ct w h).blocksHigh fc) ((frameOf e ct w h).blocksWide fc))[j * n.toNat]? = some p →
        category (d.coefs c p.1 p.2 0) ∈ dcCounted (frameOf e ct w h) d.coefs fc.tq
  size : SymbolsFit pf simd e ct w h P

/-- Number of samples of a component without subsampling, with the image padded to whole MCUs. -/
def paddedSamples (f : Frame) : Nat := f.mcusWide * (8 * f.hmax) * (f.mcusHigh * (8 * f.vmax))

/-- Images and settings for which encoding is claimed to succeed. -/
structure Supported (pf : Platform) (simd : Bool) (e : Encoder) (ct : JpegColorType) (w h : UInt16) (P : Nat → Nat → Nat → UInt8) : Prop where
  width : w ≠ 0
  height : h ≠ 0
  /-- All modes but baseline keep the whole image in memory: a 64 bit target or an image of less than 2^30 padded samples. -/
  memory : pf.wordBytes = 8 ∨ paddedSamples (frameOf e ct w h) * 2 < 2 ^ 31 ∨ Baseline e
  tables : e.getOptimizedHuffmanTables = false ∨ CanOptimize pf simd e ct w h P

/-- The run succeeds on every `Vec<u8>` and appends `bytes`. -/
def Writes (p : Prog (R Unit)) (bytes : Bytes) : Prop := ∀ out, p.run vecSink out = (out ++ bytes, .ok ())

/-- Rust slices have at most `isize::MAX` bytes. -/
def SliceOk (pf : Platform) (data : Bytes) : Prop := data.length < 2 ^ (pf.wordBits - 1)

end Jpeg.Spec
