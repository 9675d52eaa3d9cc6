import Verif.Proofs.ExactSize
/-! The bits of a file without restarts, sorted by Huffman tables. -/
namespace Jpeg
open _root_.Spec

/-- The bits of a component in a scan in which its blocks are in raster order. -/
def rasterBits (d : Dec) (f : Frame) (s : Scan) (sc : ScanComp) : Nat :=
  (if s.ss = 0 then symbolBits (d.dc sc.td) (_root_.Spec.dcSymbols (dcValues d f sc.comp) 0) else 0) +
    symbolBits (d.ac sc.ta) ((blockPositions f sc.comp).flatMap fun p => _root_.Spec.acSymbols (bandOf (d.coefs sc.comp p.1 p.2) s.ss s.se) 0)

theorem raster_one (p : Nat × Nat) (j : Nat) : ((raster 1 1).map fun q => ((j, p.1 * 1 + q.1, p.2 * 1 + q.2) : DataUnit)) = [(j, p.1, p.2)] := by
  simp [raster]

/-- The data units of component `j` in an interleaved scan of components with sampling factors 1. -/
theorem interleaved_filter (l : List FrameComp) (hl : ∀ c ∈ l, c.h = 1 ∧ c.v = 1) (ps : List (Nat × Nat)) {j : Nat} (hj : j < l.length) :
    ((ps.map fun p => interleavedMcu l p.1 p.2).flatten.filter fun u => u.1 = j) = ps.map fun p => (j, p.1, p.2) := by
  have one : ∀ p : Nat × Nat, (interleavedMcu l p.1 p.2).filter (fun u => u.1 = j) = [(j, p.1, p.2)] := by
    intro p
    have e : interleavedMcu l p.1 p.2 = (List.range l.length).map fun i => (i, p.1, p.2) := by
      unfold interleavedMcu
      have h1 : l.zipIdx.flatMap (fun cj => (raster cj.1.v cj.1.h).map fun q => ((cj.2, p.1 * cj.1.v + q.1, p.2 * cj.1.h + q.2) : DataUnit)) =
          l.zipIdx.flatMap fun cj => [(cj.2, p.1, p.2)] := by
        refine List.flatMap_congr fun cj hcj => ?_
        have hm : cj.1 ∈ l := by
          have := List.mem_zipIdx_iff_getElem?.mp hcj
          exact List.mem_of_getElem? this
        rw [(hl _ hm).1, (hl _ hm).2, raster_one]
      rw [h1, ← List.map_eq_flatMap]
      refine List.ext_getElem? fun i => ?_
      rw [List.getElem?_map, List.getElem?_map, List.getElem?_zipIdx]
      by_cases hi : i < l.length
      · rw [List.getElem?_eq_getElem hi, List.getElem?_range hi]; simp
      · rw [List.getElem?_eq_none (by omega), List.getElem?_eq_none (by simp; omega)]; rfl
    rw [e, List.filter_map]
    have : (List.range l.length).filter ((fun u : DataUnit => decide (u.1 = j)) ∘ fun i => (i, p.1, p.2)) = [j] := by
      have h2 : ((fun u : DataUnit => decide (u.1 = j)) ∘ fun i => ((i, p.1, p.2) : DataUnit)) = fun i => i == j := by
        funext i
        simp only [Function.comp]
        rfl
      rw [h2, List.filter_beq]
      have : List.count j (List.range l.length) = 1 := by
        rw [List.count_eq_one_of_mem List.nodup_range (List.mem_range.mpr hj)]
      rw [this]
      rfl
    rw [this]
    rfl
  induction ps with
  | nil => rfl
  | cons p ps ih =>
    rw [List.map_cons, List.flatten_cons, List.filter_append, one, ih]
    rfl

theorem max_ones (l : List Nat) (h : ∀ x ∈ l, x = 1) (hne : l ≠ []) : l.foldl max 0 = 1 := by
  have key : ∀ (l : List Nat) (a : Nat), (∀ x ∈ l, x = 1) → a = 1 → l.foldl max a = 1 := by
    intro l
    induction l with
    | nil => intro a _ h; exact h
    | cons x l ih =>
      intro a hx ha
      rw [List.foldl_cons]
      refine ih _ (fun y hy => hx y (by simp [hy])) ?_
      rw [ha, hx x (by simp)]
      rfl
  cases l with
  | nil => exact absurd rfl hne
  | cons x l =>
    rw [List.foldl_cons]
    refine key l _ (fun y hy => h y (by simp [hy])) ?_
    rw [h x (by simp)]
    rfl

/-- The bits of a scan of one component, or of components with sampling factors 1. -/
theorem intervalBits_raster (d : Dec) (f : Frame) (s : Scan) (hv : ∀ sc ∈ s.comps, (f.comps[sc.comp]?).isSome)
    (h : s.comps.length = 1 ∨ ∀ c ∈ f.comps, c.h = 1 ∧ c.v = 1) :
    intervalBits d s (layout f (scanFrameComps f s)).flatten = (s.comps.map (rasterBits d f s)).sum := by
  have hlen : (scanFrameComps f s).length = s.comps.length := by
    unfold scanFrameComps
    have : ∀ l : List ScanComp, (∀ sc ∈ l, (f.comps[sc.comp]?).isSome) → (l.filterMap fun c => f.comps[c.comp]?).length = l.length := by
      intro l
      induction l with
      | nil => intro _; rfl
      | cons a l ih =>
        intro hl
        obtain ⟨b, hb⟩ := Option.isSome_iff_exists.mp (hl a (by simp))
        rw [List.filterMap_cons_some (f := fun c : ScanComp => f.comps[c.comp]?) hb, List.length_cons, List.length_cons, ih fun x hx => hl x (by simp [hx])]
    exact this _ hv
  have hfilter : ∀ (j : Nat) (sc : ScanComp), s.comps[j]? = some sc →
      ((layout f (scanFrameComps f s)).flatten.filter fun u => u.1 = j) = (blockPositions f sc.comp).map fun p => (j, p.1, p.2) := by
    intro j sc hsc
    have hj : j < s.comps.length := (List.getElem?_eq_some_iff.mp hsc).1
    obtain ⟨fc, hfc⟩ := Option.isSome_iff_exists.mp (hv sc (List.mem_of_getElem? hsc))
    unfold blockPositions
    rw [hfc]
    have single : s.comps.length = 1 → ((layout f (scanFrameComps f s)).flatten.filter fun u => u.1 = j) = (raster (f.blocksHigh fc) (f.blocksWide fc)).map fun p => (j, p.1, p.2) := by
      intro h1
      have hj0 : j = 0 := by omega
      subst hj0
      have hcs : s.comps = [sc] := by
        obtain ⟨a, ha⟩ := List.length_eq_one_iff.mp h1
        rw [ha] at hsc ⊢
        cases hsc
        rfl
      have e : scanFrameComps f s = [fc] := by
        unfold scanFrameComps
        rw [hcs, List.filterMap_cons_some (f := fun c : ScanComp => f.comps[c.comp]?) hfc]
        rfl
      rw [e]
      show (((raster (f.blocksHigh fc) (f.blocksWide fc)).map fun p => [((0, p.1, p.2) : DataUnit)]).flatten.filter fun u => u.1 = 0) = _
      rw [show ((raster (f.blocksHigh fc) (f.blocksWide fc)).map fun p => [((0, p.1, p.2) : DataUnit)]).flatten = (raster (f.blocksHigh fc) (f.blocksWide fc)).map fun p => (0, p.1, p.2) by
        rw [← List.flatMap_def, ← List.map_eq_flatMap]]
      refine List.filter_eq_self.mpr fun u hu => ?_
      obtain ⟨p, -, rfl⟩ := List.mem_map.mp hu
      rfl
    by_cases h1 : s.comps.length = 1
    · exact single h1
    · have hall := h.resolve_left h1
      have hl1 : (scanFrameComps f s).length ≠ 1 := by rw [hlen]; exact h1
      have e : layout f (scanFrameComps f s) = layoutInterleaved f (scanFrameComps f s) := by
        match hm : scanFrameComps f s, hl1 with
        | [], _ => rfl
        | [_], hl1 => exact absurd rfl hl1
        | _ :: _ :: _, _ => rfl
      rw [e]
      unfold layoutInterleaved
      rw [interleaved_filter _ (fun c hc => by
        obtain ⟨x, -, hx⟩ := List.mem_filterMap.mp hc
        exact hall c (List.mem_of_getElem? hx)) _ (by rw [hlen]; exact hj)]
      have hne : f.comps ≠ [] := by intro h0; rw [h0] at hfc; simp at hfc
      have hh : f.hmax = 1 := max_ones _ (by intro x hx; obtain ⟨c, hc, rfl⟩ := List.mem_map.mp hx; exact (hall c hc).1) (by simpa using hne)
      have hv : f.vmax = 1 := max_ones _ (by intro x hx; obtain ⟨c, hc, rfl⟩ := List.mem_map.mp hx; exact (hall c hc).2) (by simpa using hne)
      obtain ⟨f1, f2⟩ := hall fc (List.mem_of_getElem? hfc)
      congr 2
      · unfold Frame.mcusHigh Frame.blocksHigh _root_.Spec.ceilDiv
        rw [hv, f2]
        omega
      · unfold Frame.mcusWide Frame.blocksWide _root_.Spec.ceilDiv
        rw [hh, f1]
        omega
  unfold intervalBits
  rw [zipIdx_sum_range]
  have hsum : (s.comps.map (rasterBits d f s)).sum = ∑ j ∈ Finset.range s.comps.length, (s.comps[j]?.map (rasterBits d f s)).getD 0 := by
    have := zipIdx_sum_range s.comps fun a => rasterBits d f s a.1
    rw [← this]
    refine congrArg List.sum ?_
    refine List.ext_getElem? fun i => ?_
    rw [List.getElem?_map, List.getElem?_map, List.getElem?_zipIdx]
    cases s.comps[i]? <;> rfl
  rw [hsum]
  refine Finset.sum_congr rfl fun j hj => ?_
  have hj := Finset.mem_range.mp hj
  have hc : s.comps[j]? = some s.comps[j] := List.getElem?_eq_getElem hj
  rw [hc]
  simp only [Option.map_some, Option.getD_some]
  rw [hfilter j _ hc]
  unfold rasterBits dcValues
  rw [List.map_map, List.flatMap_map]
  rfl

theorem symbolBits_flatMap {α : Type} (t : Option HuffTable) (l : List α) (g : α → List Nat) : symbolBits t (l.flatMap g) = (l.map fun a => symbolBits t (g a)).sum := by
  induction l with
  | nil => cases t <;> rfl
  | cons a l ih => rw [List.flatMap_cons, Coder.symbolBits_append, ih, List.map_cons, List.sum_cons]

theorem symbolBits_nil (t : Option HuffTable) : symbolBits t [] = 0 := by cases t <;> rfl

/-- The bits of all scans, by tables. -/
theorem bits_by_table (d : Dec) (f : Frame) (ht : ∀ s ∈ d.scans, ∀ sc ∈ s.scan.comps, sc.td < 2 ∧ sc.ta < 2) :
    (d.scans.map fun s => (s.scan.comps.map (rasterBits d f s.scan)).sum).sum =
      symbolBits (d.dc 0) (dcSymbolsUninterrupted d f 0) + symbolBits (d.ac 0) (acSymbolsOf d f 0) +
      (symbolBits (d.dc 1) (dcSymbolsUninterrupted d f 1) + symbolBits (d.ac 1) (acSymbolsOf d f 1)) := by
  unfold dcSymbolsUninterrupted acSymbolsOf
  simp only [symbolBits_flatMap]
  rw [← List.sum_map_add, ← List.sum_map_add, ← List.sum_map_add]
  refine congrArg List.sum (List.map_congr_left fun s hs => ?_)
  have ht := ht s hs
  generalize s.scan.comps = l at ht
  by_cases hss : s.scan.ss = 0
  · simp only [if_pos hss, symbolBits_flatMap]
    rw [← List.sum_map_add, ← List.sum_map_add, ← List.sum_map_add]
    refine congrArg List.sum (List.map_congr_left fun sc hsc => ?_)
    obtain ⟨h1, h2⟩ := ht sc hsc
    unfold rasterBits
    rw [if_pos hss]
    rcases (show sc.td = 0 ∨ sc.td = 1 by omega) with e1 | e1 <;> rcases (show sc.ta = 0 ∨ sc.ta = 1 by omega) with e2 | e2 <;> rw [e1, e2] <;>
      simp only [if_true, Nat.zero_ne_one, Nat.one_ne_zero, if_false, symbolBits_nil, symbolBits_flatMap] <;> omega
  · simp only [if_neg hss, symbolBits_nil, Nat.zero_add]
    rw [← List.sum_map_add]
    refine congrArg List.sum (List.map_congr_left fun sc hsc => ?_)
    obtain ⟨h1, h2⟩ := ht sc hsc
    unfold rasterBits
    rw [if_neg hss]
    rcases (show sc.ta = 0 ∨ sc.ta = 1 by omega) with e2 | e2 <;> rw [e2] <;>
      simp only [if_true, Nat.zero_ne_one, Nat.one_ne_zero, if_false, symbolBits_nil, symbolBits_flatMap] <;> omega

theorem symbolBits_cost (t : HuffTable) (l : List Nat) : symbolBits (some t) l = t.cost l + (l.map fun v => v % 16).sum := by
  unfold symbolBits HuffTable.cost
  exact List.sum_map_add

theorem symbolBits_le {t t' : HuffTable} {l : List Nat} (h : t.cost l ≤ t'.cost l + 15) : symbolBits (some t) l ≤ symbolBits (some t') l + 15 := by
  rw [symbolBits_cost, symbolBits_cost]
  omega

/-- The size of the entropy coded data of a file without restarts. -/
theorem data_bounds (d : Dec) (f : Frame) (hri : d.ri = 0) (hd : ∀ s ∈ d.scans, s.data.length = dataBytes d f s.scan (s.data.count 0xFF))
    (hr : ∀ s ∈ d.scans, intervalBits d s.scan (layout f (scanFrameComps f s.scan)).flatten = (s.scan.comps.map (rasterBits d f s.scan)).sum) :
    8 * (d.scans.map fun s => 8 + 2 * s.scan.comps.length + s.data.length).sum ≤
      8 * (d.scans.map fun s => 8 + 2 * s.scan.comps.length).sum + 8 * (d.scans.map fun s => s.data.count 0xFF).sum +
        (d.scans.map fun s => (s.scan.comps.map (rasterBits d f s.scan)).sum).sum + 7 * d.scans.length ∧
    8 * (d.scans.map fun s => 8 + 2 * s.scan.comps.length).sum + 8 * (d.scans.map fun s => s.data.count 0xFF).sum +
        (d.scans.map fun s => (s.scan.comps.map (rasterBits d f s.scan)).sum).sum ≤
      8 * (d.scans.map fun s => 8 + 2 * s.scan.comps.length + s.data.length).sum := by
  have one : ∀ s ∈ d.scans, s.data.length = _root_.Spec.ceilDiv (s.scan.comps.map (rasterBits d f s.scan)).sum 8 + s.data.count 0xFF := by
    intro s hs
    rw [hd s hs, dataBytes, scanIntervals, hri]
    rw [show intervals 0 (layout f (scanFrameComps f s.scan)) = [layout f (scanFrameComps f s.scan)] from rfl]
    simp only [List.map_cons, List.map_nil, List.sum_cons, List.sum_nil, List.length_cons, List.length_nil]
    rw [hr s hs]
    omega
  generalize d.scans = l at one ⊢
  induction l with
  | nil => simp
  | cons s l ih =>
    obtain ⟨i1, i2⟩ := ih fun x hx => one x (by simp [hx])
    have := one s (by simp)
    unfold _root_.Spec.ceilDiv at this
    simp only [List.map_cons, List.sum_cons, List.length_cons]
    omega

end Jpeg
