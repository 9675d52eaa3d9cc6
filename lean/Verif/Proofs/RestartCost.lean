import Verif.Proofs.Gain
import Verif.Proofs.Markers
import Verif.Proofs.Optimal
/-! What restart intervals cost. -/
namespace Jpeg
open _root_.Spec

theorem lengthOf_le16 {t : HuffTable} (h : t.WellFormed) (v : Nat) : t.lengthOf v ≤ 16 := by
  by_cases hv : v ∈ t.values
  · have h1 : t.lengthOf v ∈ expandSizes t.counts 1 := by rw [← map_lengthOf h]; exact List.mem_map_of_mem hv
    have := expandSizes_le _ _ _ h1
    rw [h.counts_len] at this
    omega
  · unfold HuffTable.lengthOf
    cases hf : t.codes.find? fun c => c.2 == v with
    | none => exact Nat.zero_le _
    | some c =>
      exfalso
      apply hv
      have hm := List.mem_of_find?_eq_some hf
      have hs := List.find?_some hf
      have : c.2 = v := by simpa using hs
      rw [← this]
      exact (List.of_mem_zip (a := c.1) (b := c.2) hm).2

/-- No symbol has more than 31 bits. -/
theorem symbolBits_one {t : Option HuffTable} (h : ∀ T, t = some T → T.WellFormed) (v : Nat) : symbolBits t [v] ≤ 31 := by
  cases t with
  | none => exact Nat.zero_le _
  | some T =>
    have := lengthOf_le16 (h T rfl) v
    show [T.lengthOf v + v % 16].sum ≤ 31
    rw [List.sum_singleton]
    omega

theorem dcSymbols_split (t : Option HuffTable) (h : ∀ T, t = some T → T.WellFormed) (a b : List Int) (p : Int) :
    symbolBits t (_root_.Spec.dcSymbols a p) + symbolBits t (_root_.Spec.dcSymbols b 0) ≤ symbolBits t (_root_.Spec.dcSymbols (a ++ b) p) + 31 := by
  induction a generalizing p with
  | nil =>
    cases b with
    | nil =>
      show symbolBits t [] + symbolBits t [] ≤ symbolBits t [] + 31
      rw [symbolBits_nil]; omega
    | cons v b =>
      show symbolBits t [] + symbolBits t ([category (v - 0)] ++ _root_.Spec.dcSymbols b v) ≤ symbolBits t ([category (v - p)] ++ _root_.Spec.dcSymbols b v) + 31
      rw [symbolBits_nil, Coder.symbolBits_append, Coder.symbolBits_append]
      have := symbolBits_one h (category (v - 0))
      omega
  | cons v a ih =>
    show symbolBits t ([category (v - p)] ++ _root_.Spec.dcSymbols a v) + _ ≤ symbolBits t ([category (v - p)] ++ _root_.Spec.dcSymbols (a ++ b) v) + 31
    rw [Coder.symbolBits_append, Coder.symbolBits_append]
    have := ih v
    omega

theorem sum_map_le_add {α : Type} (l : List α) (f g : α → Nat) (k : Nat) (h : ∀ x ∈ l, f x ≤ g x + k) : (l.map f).sum ≤ (l.map g).sum + k * l.length := by
  induction l with
  | nil => simp
  | cons x l ih =>
    have h1 := ih fun y hy => h y (by simp [hy])
    have h2 := h x (by simp)
    simp only [List.map_cons, List.sum_cons, List.length_cons, Nat.mul_add, Nat.mul_one]
    omega

/-- Two restart intervals instead of one. -/
theorem intervalBits_split (d : Dec) (hd : ∀ sl T, d.dc sl = some T → T.WellFormed) (s : Scan) (a b : List DataUnit) :
    intervalBits d s a + intervalBits d s b ≤ intervalBits d s (a ++ b) + 31 * s.comps.length := by
  have hl : s.comps.length = s.comps.zipIdx.length := by simp
  unfold intervalBits
  rw [← List.sum_map_add, hl]
  refine sum_map_le_add _ _ _ _ fun sc _ => ?_
  simp only [List.filter_append, List.map_append, List.flatMap_append, Coder.symbolBits_append]
  have := dcSymbols_split (d.dc sc.1.td) (hd sc.1.td) ((a.filter fun u => u.1 = sc.2).map fun u => d.coefs sc.1.comp u.2.1 u.2.2 0)
    ((b.filter fun u => u.1 = sc.2).map fun u => d.coefs sc.1.comp u.2.1 u.2.2 0) 0
  split <;> omega

theorem intervalBits_parts (d : Dec) (hd : ∀ sl T, d.dc sl = some T → T.WellFormed) (s : Scan) (a : List DataUnit) (l : List (List DataUnit)) :
    ((a :: l).map (intervalBits d s)).sum ≤ intervalBits d s (a :: l).flatten + 31 * s.comps.length * l.length := by
  induction l generalizing a with
  | nil => simp
  | cons b l ih =>
    have h1 := ih b
    have h2 := intervalBits_split d hd s a (b :: l).flatten
    rw [List.map_cons, List.sum_cons, List.flatten_cons, List.length_cons, Nat.mul_add, Nat.mul_one]
    omega

theorem ceil_parts (l : List Nat) : 8 * (l.map fun b => _root_.Spec.ceilDiv b 8).sum ≤ l.sum + 7 * l.length := by
  induction l with
  | nil => simp
  | cons b l ih =>
    simp only [List.map_cons, List.sum_cons, List.length_cons]
    have : 8 * _root_.Spec.ceilDiv b 8 ≤ b + 7 := by unfold _root_.Spec.ceilDiv; omega
    omega

/-- The data of a scan with restart intervals against the data without them. -/
theorem dataBytes_restarts {d1 d0 : Dec} (hdc : d1.dc = d0.dc) (hac : d1.ac = d0.ac) (hco : d1.coefs = d0.coefs) (h0 : d0.ri = 0)
    (hd : ∀ sl T, d1.dc sl = some T → T.WellFormed) (f : Frame) (s : Scan) (ff1 ff0 : Nat) :
    dataBytes d1 f s ff1 + ff0 ≤ dataBytes d0 f s ff0 + ff1 + (2 + 4 * s.comps.length) * ((scanIntervals d1 f s).length - 1) := by
  have hb : intervalBits d0 s = intervalBits d1 s := by
    funext u
    unfold intervalBits
    rw [hdc, hac, hco]
  have e0 : scanIntervals d0 f s = [(layout f (scanFrameComps f s)).flatten] := by
    unfold scanIntervals intervals
    rw [h0]; rfl
  have e1 : (scanIntervals d1 f s).flatten = (layout f (scanFrameComps f s)).flatten := by
    unfold scanIntervals
    rw [← List.flatten_flatten, intervals_flatten]
  have hne : scanIntervals d1 f s ≠ [] := by
    unfold scanIntervals
    intro h
    exact intervals_ne_nil _ _ (List.map_eq_nil_iff.mp h)
  unfold dataBytes
  rw [e0, hb, ← e1]
  generalize scanIntervals d1 f s = L at hne ⊢
  cases L with
  | nil => exact absurd rfl hne
  | cons a l =>
    have k1 := intervalBits_parts d1 hd s a l
    have k2 := ceil_parts ((a :: l).map (intervalBits d1 s))
    rw [List.map_map, List.length_map] at k2
    have k3 : ((fun b => _root_.Spec.ceilDiv b 8) ∘ intervalBits d1 s) = fun units => _root_.Spec.ceilDiv (intervalBits d1 s units) 8 := rfl
    rw [k3] at k2
    have k4 : intervalBits d1 s (a :: l).flatten ≤ 8 * _root_.Spec.ceilDiv (intervalBits d1 s (a :: l).flatten) 8 := by
      unfold _root_.Spec.ceilDiv; omega
    simp only [List.map_cons, List.map_nil, List.sum_cons, List.sum_nil, List.length_cons, List.length_nil] at k1 k2 k4 ⊢
    have e5 : (2 + 4 * s.comps.length) * (l.length + 1 - 1) = 2 * l.length + 4 * (s.comps.length * l.length) := by
      rw [Nat.add_sub_cancel, Nat.add_mul, Nat.mul_assoc]
    have e6 : 31 * s.comps.length * l.length = 31 * (s.comps.length * l.length) := Nat.mul_assoc _ _ _
    rw [e5]
    rw [e6] at k1
    omega

end Jpeg
