import Verif.Proofs.ExactSize
import Verif.Proofs.Gain
import Verif.Spec.AnyEntropy
/-! Every symbol of every restart interval has a code word, and the bits of all restart intervals sorted by tables. -/
namespace Jpeg
open _root_.Spec

namespace Coder
variable (C : Coder)

theorem unitsSyms_dc (us : List DataUnit) (p : Nat → Int) (h : C.UnitsOk us p) (hs : C.ss = 0) (j : Nat) :
    ∀ v ∈ _root_.Spec.dcSymbols ((us.filter fun u => u.1 = j).map C.dc) (p j), v ∈ (C.dcT j).values := by
  induction us generalizing p with
  | nil => intro v hv; simp [_root_.Spec.dcSymbols] at hv
  | cons u us ih =>
    obtain ⟨h1, h2⟩ := h
    have ih := ih _ h2
    by_cases hj : u.1 = j
    · subst hj
      rw [List.filter_cons_of_pos (by simp), List.map_cons, _root_.Spec.dcSymbols]
      intro v hv
      rcases List.mem_cons.mp hv with rfl | hv
      · have := h1.diffSym hs
        rwa [catOf_eq] at this
      · refine ih v ?_
        simp only [nextPreds, if_pos hs, upd, if_true]
        exact hv
    · rw [List.filter_cons_of_neg (by simpa using hj)]
      intro v hv
      refine ih v ?_
      simp only [nextPreds, if_pos hs, upd, if_neg (Ne.symm hj)]
      exact hv

theorem unitsSyms_ac (us : List DataUnit) (p : Nat → Int) (h : C.UnitsOk us p) :
    ∀ u ∈ us, ∀ v ∈ _root_.Spec.acSymbols (C.band u) 0, v ∈ (C.acT u.1).values := by
  induction us generalizing p with
  | nil => simp
  | cons u us ih =>
    obtain ⟨h1, h2⟩ := h
    intro u' hu' v hv
    rcases List.mem_cons.mp hu' with rfl | hu'
    · rw [← acToks_symbols] at hv
      obtain ⟨k, hk, rfl⟩ := List.mem_map.mp hv
      exact h1.bandSyms k hk
    · exact ih _ h2 u' hu' v hv

end Coder

/-- The symbols of every restart interval are in the tables of the decoder. -/
theorem log_symbols {d : Dec} {f : Frame} {cs : List Component} {t : HuffPair × HuffPair} {ri : Nat} (hr : Ready d f cs t ri) (hok : CompsOk cs) {E : Coefs} (sd : ScanDesc)
    (hsd : ∀ c ∈ sd.cs, c ∈ cs) (hall : ∀ g ∈ intervals ri (sd.mcus f), (sd.coder t E).UnitsOk g.flatten fun _ => 0)
    (hD : ∀ u ∈ (sd.mcus f).flatten, ∀ k, sd.ss ≤ k → k ≤ sd.se →
      d.coefs ((sd.coder t E).comp u.1) u.2.1 u.2.2 k = E ((sd.coder t E).comp u.1) u.2.1 u.2.2 k) :
    ∀ units ∈ scanIntervals d f sd.scan, ∀ sc ∈ sd.scan.comps.zipIdx,
      (∃ c ∈ sd.cs, sc.1 = c.scanComp) ∧
      (sd.scan.ss = 0 → ∃ T, d.dc sc.1.td = some T ∧ ∀ v ∈ _root_.Spec.dcSymbols ((units.filter fun u => u.1 = sc.2).map fun u => d.coefs sc.1.comp u.2.1 u.2.2 0) 0, v ∈ T.values) ∧
      ∃ T, d.ac sc.1.ta = some T ∧
        ∀ v ∈ (units.filter fun u => u.1 = sc.2).flatMap fun u => _root_.Spec.acSymbols (bandOf (d.coefs sc.1.comp u.2.1 u.2.2) sd.scan.ss sd.scan.se) 0, v ∈ T.values := by
  have hfc : scanFrameComps f sd.scan = sd.cs.map Component.frame := scanFrameComps_ok hok hr.comps sd.cs hsd sd.ss sd.se
  intro units hun sc hscm
  unfold scanIntervals at hun
  rw [hfc, hr.ri] at hun
  obtain ⟨g, hg, rfl⟩ := List.mem_map.mp hun
  have hg : g ∈ intervals ri (sd.mcus f) := hg
  have hsub : ∀ u ∈ g.flatten, u ∈ (sd.mcus f).flatten := by
    intro u hu
    obtain ⟨x, hx, hu⟩ := List.mem_flatten.mp hu
    have : (intervals ri (sd.mcus f)).flatten = sd.mcus f := intervals_flatten _ _
    exact List.mem_flatten.mpr ⟨x, by rw [← this]; exact List.mem_flatten.mpr ⟨g, hg, hx⟩, hu⟩
  obtain ⟨sc, j⟩ := sc
  have hj1 : (sd.cs.map Component.scanComp)[j]? = some sc := List.mem_zipIdx_iff_getElem?.mp hscm
  rw [List.getElem?_map] at hj1
  obtain ⟨c, hc, rfl⟩ := Option.map_eq_some_iff.mp hj1
  have hcm : c ∈ sd.cs := List.mem_of_getElem? hc
  have hm : c ∈ cs := hsd _ hcm
  have hcomp : (sd.coder t E).comp j = c.id := by show (sd.cs[j]?.map _).getD 0 = _; rw [hc]; rfl
  have hdct : (sd.coder t E).dcT j = (tabOf t c.dcHuffmanTable).dc := by show (tabOf t ((sd.cs[j]?.map _).getD 0)).dc = _; rw [hc]; rfl
  have hact : (sd.coder t E).acT j = (tabOf t c.acHuffmanTable).ac := by show (tabOf t ((sd.cs[j]?.map _).getD 0)).ac = _; rw [hc]; rfl
  refine ⟨⟨c, hcm, rfl⟩, fun hs => ⟨_, hr.dc _ hm, fun v hv => ?_⟩, _, hr.ac _ hm, fun v hv => ?_⟩
  · have := (sd.coder t E).unitsSyms_dc _ _ (hall g hg) hs j v
    rw [hdct] at this
    refine this ?_
    convert hv using 2
    refine List.map_congr_left fun u hu => ?_
    obtain ⟨hu, hju⟩ := List.mem_filter.mp hu
    have hju : u.1 = j := by simpa using hju
    have := hD u (hsub u hu) 0 (by show sd.scan.ss ≤ 0; omega) (Nat.zero_le _)
    rw [hju, hcomp] at this
    show E ((sd.coder t E).comp u.1) u.2.1 u.2.2 0 = d.coefs c.id u.2.1 u.2.2 0
    rw [hju, hcomp]
    exact this.symm
  · obtain ⟨u, hu, hv⟩ := List.mem_flatMap.mp hv
    obtain ⟨hu, hju⟩ := List.mem_filter.mp hu
    have hju : u.1 = j := by simpa using hju
    have := (sd.coder t E).unitsSyms_ac _ _ (hall g hg) u hu v
    rw [hju, hact] at this
    refine this ?_
    convert hv using 2
    unfold Coder.band bandOf
    show (List.range (sd.scan.se + 1 - max sd.scan.ss 1)).map _ = _
    refine List.map_congr_left fun i hi => ?_
    have hi := List.mem_range.mp hi
    have := hD u (hsub u hu) (max sd.scan.ss 1 + i) (by show sd.scan.ss ≤ _; omega) (by show _ ≤ sd.scan.se; omega)
    rw [hju, hcomp] at this
    show E ((sd.coder t E).comp u.1) u.2.1 u.2.2 (max sd.scan.ss 1 + i) = d.coefs c.id u.2.1 u.2.2 _
    rw [hju, hcomp]
    exact this.symm

/-- The bits of all restart intervals, by tables. -/
theorem interval_bits_by_table (d : Dec) (f : Frame) (ht : ∀ s ∈ d.scans, ∀ sc ∈ s.scan.comps, sc.td < 2 ∧ sc.ta < 2) :
    (d.scans.map fun s => ((scanIntervals d f s.scan).map fun units => intervalBits d s.scan units).sum).sum =
      symbolBits (d.dc 0) (dcCoded d f 0) + symbolBits (d.ac 0) (acCoded d f 0) +
      (symbolBits (d.dc 1) (dcCoded d f 1) + symbolBits (d.ac 1) (acCoded d f 1)) := by
  unfold dcCoded acCoded
  simp only [symbolBits_flatMap]
  rw [← List.sum_map_add, ← List.sum_map_add, ← List.sum_map_add]
  refine congrArg List.sum (List.map_congr_left fun s hs => ?_)
  rw [← List.sum_map_add, ← List.sum_map_add, ← List.sum_map_add]
  refine congrArg List.sum (List.map_congr_left fun units _ => ?_)
  rw [← List.sum_map_add, ← List.sum_map_add, ← List.sum_map_add]
  unfold intervalBits
  refine congrArg List.sum (List.map_congr_left fun sc hsc => ?_)
  obtain ⟨h1, h2⟩ := ht s hs sc.1 (by
    have := List.mem_zipIdx_iff_getElem?.mp (show (sc.1, sc.2) ∈ s.scan.comps.zipIdx from hsc)
    exact List.mem_of_getElem? this)
  rcases (show sc.1.td = 0 ∨ sc.1.td = 1 by omega) with e1 | e1 <;> rcases (show sc.1.ta = 0 ∨ sc.1.ta = 1 by omega) with e2 | e2 <;> by_cases hss : s.scan.ss = 0 <;>
    simp only [e1, e2, hss, and_true, and_false, if_true, Nat.zero_ne_one, Nat.one_ne_zero, if_false, symbolBits_nil] <;> omega

end Jpeg
