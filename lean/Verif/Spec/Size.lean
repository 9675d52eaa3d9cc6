import Verif.Spec.File
/-! An upper bound for the size of a file. -/
namespace Jpeg.Spec

/-- Enough room for a file with `n` components, `w`x`h` pixels, the given application segments, `scans` scans per component, and with or without restart
markers: 6400 bytes for headers, the segments, 417 bytes for every block and 4 bytes for every block and scan if there are restart markers. -/
def enoughBytes (segments : List (UInt8 × Bytes)) (n w h scans : Nat) (restarts : Bool) : Nat :=
  6400 + (segments.map fun s => s.2.length + 4).sum + n * ((w + 31) / 8 * ((h + 31) / 8)) * (417 + if restarts then 4 * scans else 0)

/-- Enough room for whatever a call writes, also for an image buffer that breaks its contract: 4500 bytes for headers, the segments, and for every block 496 bytes and 4 bytes for
every scan (8 with restart markers). -/
def roomFor (segments : List (UInt8 × Bytes)) (n w h scans : Nat) (restarts : Bool) : Nat :=
  4500 + (segments.map fun s => s.2.length + 4).sum + n * ((w + 31) / 8 * ((h + 31) / 8)) * (496 + scans * if restarts then 8 else 4)

end Jpeg.Spec
