import Verif.Spec.Cost
import Verif.Spec.Symbols
/-! The exact size of a file, in terms of what a decoder finds in it. Uses no model definition. -/
namespace Spec

/-- Bits of a sequence of symbols: the code word and the additional bits, whose number is in the lower four bits of the symbol (F.1.2.1, F.1.2.2). -/
def symbolBits (t : Option HuffTable) (symbols : List Nat) : Nat :=
  match t with
  | none => 0
  | some t => (symbols.map fun v => t.lengthOf v + v % 16).sum

/-- The bits of a restart interval with the data units `units` (component of the scan, block row, block column): the DC differences of every component
if the scan contains the DC coefficient, and the AC coefficients of the band. -/
def intervalBits (d : Dec) (s : Scan) (units : List DataUnit) : Nat :=
  (s.comps.zipIdx.map fun sc =>
    (if s.ss = 0 then symbolBits (d.dc sc.1.td) (dcSymbols ((units.filter fun u => u.1 = sc.2).map fun u => d.coefs sc.1.comp u.2.1 u.2.2 0) 0) else 0) +
    symbolBits (d.ac sc.1.ta) ((units.filter fun u => u.1 = sc.2).flatMap fun u => acSymbols (bandOf (d.coefs sc.1.comp u.2.1 u.2.2) s.ss s.se) 0)).sum

/-- The restart intervals of a scan. -/
def scanIntervals (d : Dec) (f : Frame) (s : Scan) : List (List DataUnit) :=
  (intervals d.ri (layout f (scanFrameComps f s))).map List.flatten

/-- The size of entropy coded data in which the byte 0xFF occurs `ff` times: whole bytes for every restart interval, a zero byte after every byte 0xFF of these,
and two byte markers (the first of which is 0xFF) between the restart intervals. -/
def dataBytes (d : Dec) (f : Frame) (s : Scan) (ff : Nat) : Nat :=
  ((scanIntervals d f s).map fun units => ceilDiv (intervalBits d s units) 8).sum + ff + ((scanIntervals d f s).length - 1)

/-- The size of a DHT segment with one table. -/
def dhtBytes (t : Option HuffTable) : Nat :=
  match t with
  | none => 0
  | some t => 21 + t.values.length

/-- The size of a file: SOI and EOI, application segments, frame header, two quantisation tables, Huffman tables, restart interval, and the scans. -/
def fileSize (d : Dec) (f : Frame) : Nat :=
  4 + (d.apps.map fun a => 4 + a.2.length).sum + (10 + 3 * f.comps.length) + 2 * 69 +
    (dhtBytes (d.dc 0) + dhtBytes (d.ac 0) + dhtBytes (d.dc 1) + dhtBytes (d.ac 1)) + 6 * d.markers.count 0xDD +
    (d.scans.map fun s => 8 + 2 * s.scan.comps.length + s.data.length).sum

/-- Number of zero bytes that are in the entropy coded data of a file without restart markers only because they have to follow a byte 0xFF. -/
def stuffedBytes (d : Dec) : Nat := (d.scans.map fun s => s.data.count 0xFF).sum

end Spec
