import Verif.Model.Encoder
import Verif.Spec.Jpeg
namespace Jpeg
open _root_.Spec

/-! ### C10 -/

/-- A grey image of 24x8 pixels: three blocks with the constant values 129, 130 and 131. -/
def Spec.stairs : Bytes := (List.replicate 8 (List.replicate 8 129 ++ List.replicate 8 130 ++ List.replicate 8 131)).flatten

/-- What happens when the image is encoded after two configuration calls. -/
def Spec.stairsRun (pf : Platform) (e : Encoder) : Bytes × R Unit :=
  (((e.setOptimizedHuffmanTables true).setRestartInterval 2).encode pf false Spec.stairs 24 8 .luma).run vecSink []

theorem map_ok_apply {α β : Type} {x : R α} {a : α} {f : α → β} {b : β} (h : x.map f = .ok b) (hx : x = .ok a) : f a = b := by
  subst hx
  exact Except.ok.inj h

def Spec.report (r : Bytes × R Unit) : R Unit × Bool := (r.2, (decode false r.1).isNone)

theorem report_split {r : Bytes × R Unit} {a : R Unit} (h : Spec.report r = (a, true)) : r.2 = a ∧ decode false r.1 = none := by
  obtain ⟨h1, h2⟩ := Prod.mk.inj h
  exact ⟨h1, Option.isNone_iff_eq_none.mp h2⟩

theorem stairs_debug : (Encoder.new ⟨true, 8⟩ 100).map (fun e => (Spec.stairsRun ⟨true, 8⟩ e).2) = .ok (.error (.panic .debugAssert)) := by
  decide +kernel

theorem stairs_release : (Encoder.new ⟨false, 8⟩ 100).map (fun e => Spec.report (Spec.stairsRun ⟨false, 8⟩ e)) =
    .ok (.ok (), true) := by
  decide +kernel

end Jpeg
