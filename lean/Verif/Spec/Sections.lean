import Verif.Spec.File
import Verif.Spec.Output
/-! The sections of a file. -/
namespace Jpeg.Spec

/-- The number of scans: one for all components, one for each component, or `n` for each component. -/
def scanCount (e : Encoder) (ct : JpegColorType) : Nat :=
  match e.getProgressiveScans with
  | some n => n.toNat * componentCount ct
  | none =>
    if e.getOptimizedHuffmanTables = false ∧ e.getSamplingFactor.factors.1 ≤ 2 ∧ e.getSamplingFactor.factors.2 ≤ 2 then 1 else componentCount ct

/-- The markers of a file between SOI and EOI: the JFIF segment (APP0), an Adobe segment (APP14) for CMYK and YCCK, the application segments of the
user in the order of the calls, the frame header (SOF0 or SOF2), two quantisation tables (DQT), a DC and an AC Huffman table (DHT) for the first
component and another pair if there are color components, the restart interval (DRI) if there is one, and the scans (SOS). -/
def wantedMarkers (calls : List Call) (e : Encoder) (ct : JpegColorType) : List Nat :=
  [0xE0] ++ (if ct = .cmyk ∨ ct = .ycck then [0xEE] else []) ++ (calls.flatMap Call.segments).map (fun s => 0xE0 + s.1.toNat) ++
    [if e.getProgressiveScans = none then 0xC0 else 0xC2] ++ [0xDB, 0xDB] ++
    (if ct = .luma then [0xC4, 0xC4] else [0xC4, 0xC4, 0xC4, 0xC4]) ++
    (if e.getRestartInterval = none then [] else [0xDD]) ++ List.replicate (scanCount e ct) 0xDA

end Jpeg.Spec
