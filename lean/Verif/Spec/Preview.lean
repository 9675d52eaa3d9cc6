import Verif.Spec.File
/-! What can be shown of a file of which only the first scans have arrived. -/
namespace Jpeg.Spec
open _root_.Spec

/-- One of the scans codes coefficient `i` (in zig-zag order) of component `c`. -/
def Sent (scans : List ScanLog) (c i : Nat) : Prop := ∃ s ∈ scans, (∃ sc ∈ s.scan.comps, sc.comp = c) ∧ s.scan.ss ≤ i ∧ i ≤ s.scan.se

/-- `v` is what the first `k` scans of the image `d` say: the same headers, in all blocks the final values of the coefficients these scans
code, and zeros. -/
structure IsPreview (f : Frame) (d v : Dec) (k : Nat) : Prop where
  frame : v.frame = d.frame
  qts : v.qts = d.qts
  apps : v.apps = d.apps
  scans : v.scans = d.scans.take k
  sent : ∀ c fc, f.comps[c]? = some fc → ∀ y x i, y < f.blocksHigh fc → x < f.blocksWide fc → i < 64 → Sent v.scans c i →
    v.coefs c y x i = d.coefs c y x i
  rest : ∀ c y x i, ¬ Sent v.scans c i → v.coefs c y x i = 0

end Jpeg.Spec
