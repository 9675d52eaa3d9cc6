import Verif.Spec.ExactSize
import Verif.Spec.Entropy
/-! The symbols of a file in the order of its scans and restart intervals. Uses no model definition. -/
namespace Spec

/-- The symbols that are coded with the DC table `slot`: in every restart interval, for every component of the scan, those of the DC differences of its data units,
the first of which is the difference to 0. -/
def dcCoded (d : Dec) (f : Frame) (slot : Nat) : List Nat :=
  d.scans.flatMap fun s => (scanIntervals d f s.scan).flatMap fun units => s.scan.comps.zipIdx.flatMap fun sc =>
    if sc.1.td = slot ∧ s.scan.ss = 0 then dcSymbols ((units.filter fun u => u.1 = sc.2).map fun u => d.coefs sc.1.comp u.2.1 u.2.2 0) 0 else []

/-- The symbols that are coded with the AC table `slot`: in every restart interval, for every component of the scan, those of the bands of its data units. -/
def acCoded (d : Dec) (f : Frame) (slot : Nat) : List Nat :=
  d.scans.flatMap fun s => (scanIntervals d f s.scan).flatMap fun units => s.scan.comps.zipIdx.flatMap fun sc =>
    if sc.1.ta = slot then (units.filter fun u => u.1 = sc.2).flatMap fun u => acSymbols (bandOf (d.coefs sc.1.comp u.2.1 u.2.2) s.scan.ss s.scan.se) 0 else []

/-- Number of restart markers in the entropy coded data. -/
def restartMarkerCount (d : Dec) (f : Frame) : Nat := (d.scans.map fun s => (scanIntervals d f s.scan).length - 1).sum

end Spec
