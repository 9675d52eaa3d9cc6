import Verif.Spec.Size
import Verif.Spec.Jpeg
/-! What the size of a file depends on. -/
namespace Jpeg.Spec
open _root_.Spec

/-- Number of nonzero AC coefficients of a block. -/
def acNonzero (coefs : Nat → Nat → Nat → Nat → Int) (c y x : Nat) : Nat := (List.range 63).countP fun i => coefs c y x (1 + i) ≠ 0

/-- Positions of the blocks of a component, with those that fill up the last MCUs. -/
def mcuBlocks (f : Frame) (c : FrameComp) : List (Nat × Nat) := raster (f.mcusHigh * c.v) (f.mcusWide * c.h)

/-- Number of nonzero AC coefficients in a file. -/
def nonzeroCoefs (f : Frame) (coefs : Nat → Nat → Nat → Nat → Int) : Nat :=
  (f.comps.zipIdx.map fun ci => ((mcuBlocks f ci.1).map fun p => acNonzero coefs ci.2 p.1 p.2).sum).sum

/-- Number of blocks in a file that have nonzero AC coefficients. -/
def busyBlocks (f : Frame) (coefs : Nat → Nat → Nat → Nat → Int) : Nat :=
  (f.comps.zipIdx.map fun ci => (mcuBlocks f ci.1).countP fun p => acNonzero coefs ci.2 p.1 p.2 ≠ 0).sum

/-- Enough room for a file: 6400 bytes for headers, the segments, 7 bytes for every block and 4 bytes for every block and scan (8 with restart markers), 16 bytes for every block
with nonzero AC coefficients and 7 bytes for every nonzero AC coefficient. -/
def contentBytes (segments : List (UInt8 × Bytes)) (n w h scans : Nat) (restarts : Bool) (busy nonzero : Nat) : Nat :=
  6400 + (segments.map fun s => s.2.length + 4).sum + n * ((w + 31) / 8 * ((h + 31) / 8)) * (7 + scans * if restarts then 8 else 4) + 16 * busy + 7 * nonzero

end Jpeg.Spec
