import Verif.Proofs.Stats
import Verif.Proofs.Final
import Verif.Spec.Output
/-! `optimize_huffman_table` as a whole; the tables it makes can code the image. -/
namespace Jpeg
open _root_.Spec

theorem initFreq_length : initFreq.length = 257 := by rw [initFreq, List.length_append, List.length_replicate]; rfl

theorem initFreq_getD (v : Nat) : initFreq.getD v 0 = if v = 256 then 1 else 0 := by
  unfold initFreq
  rw [List.getD_eq_getElem?_getD]
  by_cases h : v < 256
  · rw [List.getElem?_append_left (by rw [List.length_replicate]; exact h), List.getElem?_replicate, if_pos h, if_neg (by omega)]
    rfl
  · by_cases h2 : v = 256
    · subst h2
      rw [List.getElem?_append_right (by rw [List.length_replicate]), List.length_replicate]
      rfl
    · rw [List.getElem?_eq_none (by rw [List.length_append, List.length_replicate, List.length_singleton]; omega), if_neg h2]
      rfl

theorem initFreq_sum : initFreq.sum = 1 := by rw [initFreq, List.sum_append, List.sum_replicate]; rfl

theorem rootCount_le {f S : List Nat} (hS : ∀ v, f.getD v 0 ≠ 0 → v ∈ S) : rootCount f ≤ S.length := by
  have e : rootCount f = ((List.range f.length).filter fun j => decide (f.getD j 0 ≠ 0)).length := by
    unfold rootCount
    conv_lhs => rw [list_eq_map_getD f]
    rw [List.countP_map, List.countP_eq_length_filter]
    rfl
  rw [e]
  refine (List.subperm_of_subset (List.nodup_range.filter _) ?_).length_le
  intro v hv
  rw [List.mem_filter, decide_eq_true_iff] at hv
  exact hS v hv.2

theorem Spec.CountsFit.total {syms : List Nat} (h : Spec.CountsFit syms) : syms.length < 4294967295 := by
  rcases h with h | h
  · omega
  · exact h.1

theorem Spec.CountsFit.of_few {syms S : List Nat} (hS : ∀ s ∈ syms, s ∈ S) (h : S.length ≤ 32) (hl : syms.length < 4294967295) : Spec.CountsFit syms := by
  refine Or.inr ⟨hl, Or.inl (le_trans (Finset.card_le_card ?_) (le_trans (List.toFinset_card_le S) h))⟩
  intro s hs
  rw [List.mem_toFinset] at hs ⊢
  exact hS s hs

/-- Tables are found for these symbols: `Spec.CountsFit`, or it is known that they were found once. -/
def CountsOk (syms : List Nat) : Prop :=
  Spec.CountsFit syms ∨ (syms.length < 4294967295 ∧ ∃ pf t, HuffmanTable.newOptimized pf (bumpAll initFreq syms) = .ok t)

theorem CountsOk.total {syms : List Nat} (h : CountsOk syms) : syms.length < 4294967295 := by
  rcases h with h | h
  · exact h.total
  · exact h.1

/-- Statistics of a non-empty symbol sequence over a small alphabet. -/
theorem goodFreq_of {syms S : List Nat} (hne : syms ≠ []) (hS : ∀ s ∈ syms, s ∈ S) (h256 : ∀ s ∈ S, s < 256) (hc : S.length ≤ 254)
    (hl : CountsOk syms) :
    GoodFreq (bumpAll initFreq syms) ∧ ∀ v, v < 256 → ((bumpAll initFreq syms).getD v 0 ≠ 0 ↔ v ∈ syms) := by
  have hlt : ∀ s ∈ syms, s < initFreq.length := fun s hs => by have := h256 s (hS s hs); rw [initFreq_length]; omega
  have hg := fun v => bumpAll_getD hlt v
  have hmem : ∀ v, v < 256 → ((bumpAll initFreq syms).getD v 0 ≠ 0 ↔ v ∈ syms) := by
    intro v hv
    rw [hg, initFreq_getD, if_neg (by omega), Nat.zero_add, ← Nat.pos_iff_ne_zero, List.count_pos_iff]
  have hroot : rootCount (bumpAll initFreq syms) ≤ S.length + 1 := by
    refine le_trans (rootCount_le (S := 256 :: S) ?_) (by rw [List.length_cons])
    intro v hv
    have hvl := lt_of_getD_ne hv
    rw [bumpAll_length] at hvl
    rw [initFreq_length] at hvl
    by_cases h2 : v = 256
    · simp [h2]
    · exact List.mem_cons_of_mem _ (hS v ((hmem v (by omega)).mp hv))
  refine ⟨⟨by rw [bumpAll_length, initFreq_length], ?_, ?_, by omega, ?_⟩, hmem⟩
  · rw [hg, initFreq_getD, if_pos rfl]; omega
  · obtain ⟨s, hs⟩ := List.exists_mem_of_ne_nil _ hne
    exact ⟨s, h256 s (hS s hs), (hmem s (h256 s (hS s hs))).mpr hs⟩
  · rw [bumpAll_sum hlt, initFreq_sum]
    have hused : ∀ v, (bumpAll initFreq syms).getD v 0 ≠ 0 ↔ v = 256 ∨ v ∈ syms := by
      intro v
      rw [hg, initFreq_getD]
      by_cases h2 : v = 256
      · simp [h2]
      · rw [if_neg h2, Nat.zero_add, ← Nat.pos_iff_ne_zero, List.count_pos_iff]
        simp [h2]
    rcases hl with (hl | ⟨hl, hl2⟩) | ⟨hl, hl2⟩
    · left; omega
    · refine Or.inr ⟨by omega, hl2.imp (fun h => ?_) fun h => Or.inl ?_⟩
      · refine le_trans (rootCount_le (S := 256 :: syms.dedup) ?_) ?_
        · intro v hv
          rcases (hused v).mp hv with h | h
          · simp [h]
          · exact List.mem_cons_of_mem _ (List.mem_dedup.mpr h)
        · rw [List.length_cons, ← List.card_toFinset]
          omega
      · have e1 : rootSet (bumpAll initFreq syms) = insert 256 syms.toFinset := by
          ext v
          rw [mem_rootSet (by rw [bumpAll_length, initFreq_length]), Finset.mem_insert, List.mem_toFinset, hused]
        have e2 : (fun v => (bumpAll initFreq syms).getD v 0) = fun s => syms.count s + if s = 256 then 1 else 0 := by
          funext v
          rw [hg, initFreq_getD, Nat.add_comm]
        rw [e1, e2]
        exact h
    · exact Or.inr ⟨by omega, Or.inr (Or.inr hl2)⟩

/-- DC symbols counted for a table slot. -/
def dcOf (table : Nat) (blocks : Blocks) (ci : Component × Nat) : List Nat :=
  if ci.1.dcHuffmanTable = table then dcSyms (blocks.getD ci.2 []) 0 else []
/-- AC symbols counted for a table slot. -/
def acOf (progressive : Option UInt8) (table : Nat) (blocks : Blocks) (ci : Component × Nat) : List Nat :=
  if ci.1.acHuffmanTable = table then acAll progressive (blocks.getD ci.2 []) else []

section
variable {progressive : Option UInt8} (hp : ∀ n, progressive = some n → 2 ≤ n.toNat ∧ n.toNat ≤ 64) {blocks : Blocks} {table : Nat}

include hp in
theorem statsFold_ok {pf : Platform} (hpf : pf.Valid) (l : List (Component × Nat))
    (hb : ∀ ci ∈ l, ∃ bs, blocks[ci.2]? = some bs ∧ bs ≠ [] ∧ ∀ b ∈ bs, GoodBlock b)
    (a b : Bool) (df af : List Nat) (hd : df.length = 257) (ha : af.length = 257)
    (hds : df.sum + (l.flatMap (dcOf table blocks)).length < 4294967296) (has : af.sum + (l.flatMap (acOf progressive table blocks)).length < 4294967296) :
    forFoldR l (a, b, df, af) (statsComponent pf progressive blocks table) =
      .ok (a || l.any (fun ci => decide (ci.1.dcHuffmanTable = table)), b || l.any (fun ci => decide (ci.1.acHuffmanTable = table)),
        bumpAll df (l.flatMap (dcOf table blocks)), bumpAll af (l.flatMap (acOf progressive table blocks))) := by
  induction l generalizing a b df af with
  | nil => simp [forFoldR, bumpAll]
  | cons ci l ih =>
    rw [List.flatMap_cons, List.length_append] at hds has
    obtain ⟨bs, hbs, hne, hgood⟩ := hb ci (by simp)
    have hget : blocks.getD ci.2 [] = bs := by rw [List.getD_eq_getElem?_getD, hbs]; rfl
    have hemp : bs.isEmpty = false := by
      cases bs with
      | nil => exact absurd rfl hne
      | cons _ _ => rfl
    have hdlt : ∀ s ∈ dcOf table blocks ci, s < df.length := by
      intro s hs
      unfold dcOf at hs
      split at hs
      · rw [hget] at hs
        have := dcSymbols_lt s (dcSyms_mem hgood (by omega) s hs)
        omega
      · simp at hs
    have halt : ∀ s ∈ acOf progressive table blocks ci, s < af.length := by
      intro s hs
      unfold acOf at hs
      split at hs
      · rw [hget] at hs
        have := acSymbols_lt s (acAll_mem hp hgood s hs)
        omega
      · simp at hs
    have hstep : statsComponent pf progressive blocks table (a, b, df, af) ci =
        .ok (a || decide (ci.1.dcHuffmanTable = table), b || decide (ci.1.acHuffmanTable = table),
          bumpAll df (dcOf table blocks ci), bumpAll af (acOf progressive table blocks ci)) := by
      unfold statsComponent
      have hidx : idx blocks ci.2 = .ok bs := by unfold idx; rw [hbs]
      rw [hidx]
      simp only [ok_bind]
      have h1 : ci.1.dcHuffmanTable = table → dcStats pf bs df = .ok (bumpAll df (dcOf table blocks ci)) := by
        intro hc
        unfold dcOf at hds ⊢
        rw [if_pos hc, hget] at hds ⊢
        exact dcStats_ok pf hgood hd (by rw [dcSyms_length] at hds; omega)
      have h2 : ci.1.acHuffmanTable = table → acStats pf progressive bs af = .ok (bumpAll af (acOf progressive table blocks ci)) := by
        intro hc
        unfold acOf at has ⊢
        rw [if_pos hc, hget] at has ⊢
        exact acStats_ok hpf hp hgood hne ha (by omega)
      have h1' : ci.1.dcHuffmanTable ≠ table → bumpAll df (dcOf table blocks ci) = df := by
        intro hc; unfold dcOf; rw [if_neg hc]; rfl
      have h2' : ci.1.acHuffmanTable ≠ table → bumpAll af (acOf progressive table blocks ci) = af := by
        intro hc; unfold acOf; rw [if_neg hc]; rfl
      by_cases hc : ci.1.dcHuffmanTable = table <;> by_cases hc2 : ci.1.acHuffmanTable = table
      · simp only [hc, hc2, hemp, h1 hc, h2 hc2, if_true, Bool.not_false, debugAssert_true, ok_bind, decide_true, Bool.or_true]
      · simp only [hc, hc2, hemp, h1 hc, h2' hc2, if_true, if_false, Bool.not_false, debugAssert_true, ok_bind, decide_true, Bool.or_true, decide_false, Bool.or_false]
      · simp only [hc, hc2, h1' hc, h2 hc2, if_true, if_false, ok_bind, decide_true, Bool.or_true, decide_false, Bool.or_false]
      · simp only [hc, hc2, h1' hc, h2' hc2, if_false, decide_false, Bool.or_false]
    rw [forFoldR, hstep]
    show forFoldR l _ (statsComponent pf progressive blocks table) = _
    rw [ih (fun c hc => hb c (by simp [hc])) _ _ _ _ (by simpa using hd) (by simpa using ha) (by rw [bumpAll_sum hdlt]; omega) (by rw [bumpAll_sum halt]; omega)]
    rw [List.flatMap_cons, List.flatMap_cons, bumpAll_append, bumpAll_append, List.any_cons, List.any_cons, Bool.or_assoc, Bool.or_assoc]

/-- `t` is the table optimised for the symbols `syms`. -/
structure OptTable (alphabet syms : List Nat) (t : HuffmanTable) : Prop where
  made : ∀ pf : Platform, pf.Valid → HuffmanTable.newOptimized pf (bumpAll initFreq syms) = .ok t
  good : GoodFreq (bumpAll initFreq syms)
  file : TableFile t
  mem : ∀ s, s ∈ t.values ↔ s ∈ syms
  lt : ∀ s ∈ syms, s < 256
  sub : ∀ s ∈ syms, s ∈ alphabet

include hp in
/-- The optimised tables of one slot. -/
theorem optimizeTable_ok {cs : List Component} (hb : ∀ ci ∈ cs.zipIdx, ∃ bs, blocks[ci.2]? = some bs ∧ bs ≠ [] ∧ ∀ b ∈ bs, GoodBlock b)
    (hdc : ∃ c ∈ cs, c.dcHuffmanTable = table) (hac : ∃ c ∈ cs, c.acHuffmanTable = table)
    (hds : (cs.zipIdx.flatMap (dcOf table blocks)).length < 4294967295) (has : CountsOk (cs.zipIdx.flatMap (acOf progressive table blocks))) :
    ∃ p : HuffPair, (∀ pf, pf.Valid → optimizeTable pf progressive cs blocks table = .ok p) ∧
      OptTable dcSymbols (cs.zipIdx.flatMap (dcOf table blocks)) p.dc ∧ OptTable acSymbols (cs.zipIdx.flatMap (acOf progressive table blocks)) p.ac := by
  have hdm : ∀ s ∈ cs.zipIdx.flatMap (dcOf table blocks), s ∈ dcSymbols := by
    intro s hs
    obtain ⟨ci, hci, hs⟩ := List.mem_flatMap.mp hs
    obtain ⟨bs, hbs, _, hgood⟩ := hb ci hci
    unfold dcOf at hs
    split at hs
    · rw [List.getD_eq_getElem?_getD, hbs] at hs
      exact dcSyms_mem hgood (by omega) s hs
    · simp at hs
  have ham : ∀ s ∈ cs.zipIdx.flatMap (acOf progressive table blocks), s ∈ acSymbols := by
    intro s hs
    obtain ⟨ci, hci, hs⟩ := List.mem_flatMap.mp hs
    obtain ⟨bs, hbs, _, hgood⟩ := hb ci hci
    unfold acOf at hs
    split at hs
    · rw [List.getD_eq_getElem?_getD, hbs] at hs
      exact acAll_mem hp hgood s hs
    · simp at hs
  have hdne : cs.zipIdx.flatMap (dcOf table blocks) ≠ [] := by
    obtain ⟨c, hc, hct⟩ := hdc
    obtain ⟨i, hi, hic⟩ := List.getElem_of_mem hc
    have hci : (c, i) ∈ cs.zipIdx := List.mem_zipIdx_iff_getElem?.mpr (by rw [List.getElem?_eq_getElem hi, hic])
    obtain ⟨bs, hbs, hne, hgood⟩ := hb _ hci
    obtain ⟨b, bs', rfl⟩ := List.exists_cons_of_ne_nil hne
    apply List.ne_nil_of_mem (a := catOf (b.getD 0 0 - 0))
    refine List.mem_flatMap.mpr ⟨(c, i), hci, ?_⟩
    unfold dcOf
    rw [if_pos hct, List.getD_eq_getElem?_getD, hbs]
    simp [dcSyms]
  have hane : cs.zipIdx.flatMap (acOf progressive table blocks) ≠ [] := by
    obtain ⟨c, hc, hct⟩ := hac
    obtain ⟨i, hi, hic⟩ := List.getElem_of_mem hc
    have hci : (c, i) ∈ cs.zipIdx := List.mem_zipIdx_iff_getElem?.mpr (by rw [List.getElem?_eq_getElem hi, hic])
    obtain ⟨bs, hbs, hne, hgood⟩ := hb _ hci
    obtain ⟨s, hs⟩ := List.exists_mem_of_ne_nil _ (acAll_ne_nil hp hgood hne)
    apply List.ne_nil_of_mem (a := s)
    refine List.mem_flatMap.mpr ⟨(c, i), hci, ?_⟩
    unfold acOf
    rw [if_pos hct, List.getD_eq_getElem?_getD, hbs]
    exact hs
  obtain ⟨gd, gdm⟩ := goodFreq_of hdne hdm dcSymbols_lt (by decide) (.inl (.of_few hdm (by decide) hds))
  obtain ⟨ga, gam⟩ := goodFreq_of hane ham acSymbols_lt (by decide +kernel) has
  obtain ⟨td, d1, d2, d3, d4, -⟩ := newOptimized_ok gd
  obtain ⟨ta, a1, a2, a3, a4, -⟩ := newOptimized_ok ga
  have hd : OptTable dcSymbols (cs.zipIdx.flatMap (dcOf table blocks)) td := ⟨d1, gd, ⟨d2, d3⟩, fun s => by
    rw [d4]
    exact ⟨fun h => (gdm s h.1).mp h.2, fun h => have h256 := dcSymbols_lt s (hdm s h); ⟨h256, (gdm s h256).mpr h⟩⟩, fun s hs => dcSymbols_lt s (hdm s hs), hdm⟩
  have ha : OptTable acSymbols (cs.zipIdx.flatMap (acOf progressive table blocks)) ta := ⟨a1, ga, ⟨a2, a3⟩, fun s => by
    rw [a4]
    exact ⟨fun h => (gam s h.1).mp h.2, fun h => have h256 := acSymbols_lt s (ham s h); ⟨h256, (gam s h256).mpr h⟩⟩, fun s hs => acSymbols_lt s (ham s hs), ham⟩
  refine ⟨⟨td, ta⟩, ?_, hd, ha⟩
  · intro pf hpf
    have hfold := statsFold_ok hp (table := table) hpf cs.zipIdx hb false false initFreq initFreq initFreq_length initFreq_length
      (by rw [initFreq_sum]; omega) (by rw [initFreq_sum]; have := has.total; omega)
    have hany : ∀ f : Component → Nat, (∃ c ∈ cs, f c = table) → (cs.zipIdx.any fun ci => decide (f ci.1 = table)) = true := by
      intro f ⟨c, hc, hct⟩
      obtain ⟨i, hi, hic⟩ := List.getElem_of_mem hc
      rw [List.any_eq_true]
      exact ⟨(c, i), List.mem_zipIdx_iff_getElem?.mpr (by rw [List.getElem?_eq_getElem hi, hic]), by simpa using hct⟩
    unfold optimizeTable
    rw [hfold]
    simp only [ok_bind]
    rw [hany (·.dcHuffmanTable) hdc, hany (·.acHuffmanTable) hac]
    simp only [Bool.or_true, assert_true, ok_bind]
    rw [d1 pf hpf]
    simp only [ok_bind]
    rw [a1 pf hpf]
    rfl

end

/-! ### Coding with the optimised tables -/

/-- A scan of one component can be coded when the tables have the symbols counted. -/
theorem unitsOk_syms {t : HuffPair × HuffPair} {c : Component} {ss se : Nat} (hse : se ≤ 63) {E : Coefs} (hE : CoefBounds E)
    (hd : TableOk (tabOf t c.dcHuffmanTable).dc) (ha : TableOk (tabOf t c.acHuffmanTable).ac) (f : Nat × Nat → List Int) (ps : List (Nat × Nat))
    (hf : ∀ q ∈ ps, (f q).getD 0 0 = E c.id q.1 q.2 0) (p : Nat → Int) (hp : -1024 ≤ p 0 ∧ p 0 ≤ 1016)
    (hdc : ss = 0 → ∀ s ∈ dcSyms (ps.map f) (p 0), s ∈ (tabOf t c.dcHuffmanTable).dc.values)
    (hac : ∀ q ∈ ps, ∀ k ∈ acToks ((scanCoder t [c] ss se E).band (0, q.1, q.2)) 0, k.sym ∈ (tabOf t c.acHuffmanTable).ac.values) :
    (scanCoder t [c] ss se E).UnitsOk (ps.flatMap unit1) p := by
  induction ps generalizing p with
  | nil => trivial
  | cons q ps ih =>
    have hb := hE.dc c.id q.1 q.2
    have hq := hf q (by simp)
    have hu : (scanCoder t [c] ss se E).dc (0, q.1, q.2) = E c.id q.1 q.2 0 := rfl
    refine ⟨⟨fun _ => ?_, fun h0 => ?_, fun _ => hd, fun k hk => hac q (by simp) k hk, ?_, fun _ => ha⟩, ?_⟩
    · rw [hu]
      show (E c.id q.1 q.2 0 - p 0).natAbs ≤ 2047
      omega
    · rw [hu]
      refine hdc h0 _ ?_
      rw [List.map_cons, dcSyms, hq]
      exact List.mem_cons_self
    · intro v hv
      simp only [Coder.band, List.mem_map, List.mem_range] at hv
      obtain ⟨i, hi, rfl⟩ := hv
      have hf : 1 ≤ (scanCoder t [c] ss se E).first := by simp [Coder.first]
      have hn : (scanCoder t [c] ss se E).n = se + 1 - (scanCoder t [c] ss se E).first := rfl
      have := hE.ac c.id q.1 q.2 ((scanCoder t [c] ss se E).first + i) (by omega) (by omega)
      show (E _ _ _ _).natAbs ≤ _
      simp only [scanCoder, List.length_cons, List.length_nil, Option.map_some, List.getElem?_cons_zero, Option.getD_some] at this ⊢
      omega
    · by_cases h0 : ss = 0
      · have hn : (scanCoder t [c] ss se E).nextPreds (0, q.1, q.2) p = upd p 0 (E c.id q.1 q.2 0) := by
          unfold Coder.nextPreds
          rw [if_pos (show (scanCoder t [c] ss se E).ss = 0 from h0)]
          rfl
        show (scanCoder t [c] ss se E).UnitsOk (ps.flatMap unit1) ((scanCoder t [c] ss se E).nextPreds (0, q.1, q.2) p)
        rw [hn]
        have hu0 : upd p 0 (E c.id q.1 q.2 0) 0 = E c.id q.1 q.2 0 := by simp [upd]
        refine ih (fun r hr => hf r (by simp [hr])) _ (by rw [hu0]; exact hb) ?_ (fun r hr => hac r (by simp [hr]))
        rw [hu0]
        intro _ s hs
        refine hdc h0 s ?_
        rw [List.map_cons, dcSyms, hq]
        exact List.mem_cons_of_mem _ hs
      · have hn : (scanCoder t [c] ss se E).nextPreds (0, q.1, q.2) p = p := by
          unfold Coder.nextPreds
          rw [if_neg (show ¬ (scanCoder t [c] ss se E).ss = 0 from h0)]
        show (scanCoder t [c] ss se E).UnitsOk (ps.flatMap unit1) ((scanCoder t [c] ss se E).nextPreds (0, q.1, q.2) p)
        rw [hn]
        exact ih (fun r hr => hf r (by simp [hr])) p hp (fun h => absurd h h0) (fun r hr => hac r (by simp [hr]))

theorem intervals_one {α : Type} {n : Nat} {l : List α} (h : n = 0 ∨ l.length ≤ n) : intervals n l = [l] := by
  unfold intervals
  rcases h with h | h
  · rw [if_pos h]
  · split
    · rfl
    · rw [groups, if_pos h]

theorem catOf_eq (v : Int) : catOf v = category v := by
  unfold catOf category bitLen
  by_cases h : v = 0
  · subst h; rfl
  · rw [if_neg h, if_neg (by omega)]

theorem dcSyms_eq {α : Type} (ps : List α) (f : α → List Int) (g : α → Int) (h : ∀ p ∈ ps, (f p).getD 0 0 = g p) (pred : Int) :
    dcSyms (ps.map f) pred = _root_.Spec.dcSymbols (ps.map g) pred := by
  induction ps generalizing pred with
  | nil => rfl
  | cons p ps ih =>
    rw [List.map_cons, List.map_cons, dcSyms, _root_.Spec.dcSymbols, h p (by simp), catOf_eq, ih fun q hq => h q (by simp [hq])]

theorem mem_groups {α : Type} {n : Nat} {g : List α} : ∀ (fuel : Nat) (l : List α), g ∈ groups n fuel l →
    ∃ j pre post, l = pre ++ g ++ post ∧ pre.length = j * n := by
  intro fuel
  induction fuel with
  | zero => intro l h; simp [groups] at h
  | succ fuel ih =>
    intro l h
    unfold groups at h
    split at h
    · rw [List.mem_singleton] at h
      exact ⟨0, [], [], by simp [h], by simp⟩
    · rcases List.mem_cons.mp h with h | h
      · exact ⟨0, [], l.drop n, by rw [h, List.nil_append, List.take_append_drop], by simp⟩
      · obtain ⟨j, pre, post, h1, h2⟩ := ih _ h
        refine ⟨j + 1, l.take n ++ pre, post, ?_, ?_⟩
        · rw [List.append_assoc, List.append_assoc, ← List.append_assoc pre, ← h1, List.take_append_drop]
        · rw [List.length_append, List.length_take, h2, Nat.succ_mul]
          omega

/-- A restart interval is a part of the whole, at a multiple of the length of the intervals. -/
theorem mem_intervals {α : Type} {n : Nat} {g l : List α} (h : g ∈ intervals n l) : ∃ j pre post, l = pre ++ g ++ post ∧ pre.length = j * n := by
  unfold intervals at h
  split at h
  · rw [List.mem_singleton] at h
    exact ⟨0, [], [], by simp [h], by simp⟩
  · exact mem_groups _ _ h

/-- All but the first symbol of an interval occur in the whole. -/
theorem dcSymbols_part (pre : List Int) (v : Int) (l post : List Int) (p : Int) {s : Nat} (h : s ∈ _root_.Spec.dcSymbols l v) :
    s ∈ _root_.Spec.dcSymbols (pre ++ v :: l ++ post) p := by
  have app : ∀ (l post : List Int) (p : Int), s ∈ _root_.Spec.dcSymbols l p → s ∈ _root_.Spec.dcSymbols (l ++ post) p := by
    intro l
    induction l with
    | nil => intro _ _ h; simp [_root_.Spec.dcSymbols] at h
    | cons a l ih =>
      intro post p h
      rw [List.cons_append]
      unfold _root_.Spec.dcSymbols at h ⊢
      rcases List.mem_cons.mp h with h | h
      · exact h ▸ List.mem_cons_self
      · exact List.mem_cons_of_mem _ (ih _ _ h)
  rw [List.append_assoc, List.cons_append]
  induction pre generalizing p with
  | nil => rw [List.nil_append, _root_.Spec.dcSymbols]; exact List.mem_cons_of_mem _ (app _ _ _ h)
  | cons a pre ih => rw [List.cons_append, _root_.Spec.dcSymbols]; exact List.mem_cons_of_mem _ (ih _)

/-- The symbols of a restart interval, if its first one is known. -/
theorem dcSymbols_interval {α : Type} {n : Nat} {g l : List α} (hg : g ∈ intervals n l) (v : α → Int) {S : List Nat} (hS : ∀ s ∈ _root_.Spec.dcSymbols (l.map v) 0, s ∈ S)
    (hr : n ≠ 0 → ∀ j a, l[j * n]? = some a → category (v a) ∈ S) : ∀ s ∈ _root_.Spec.dcSymbols (g.map v) 0, s ∈ S := by
  intro s hs
  by_cases hn : n = 0
  · rw [intervals_one (Or.inl hn), List.mem_singleton] at hg
    exact hS s (hg ▸ hs)
  obtain ⟨j, pre, post, h1, h2⟩ := mem_intervals hg
  cases g with
  | nil => simp [_root_.Spec.dcSymbols] at hs
  | cons a g =>
    rw [List.map_cons, _root_.Spec.dcSymbols] at hs
    rcases List.mem_cons.mp hs with hs | hs
    · rw [hs, Int.sub_zero]
      refine hr hn j a ?_
      rw [h1, ← h2, List.append_assoc, List.getElem?_append_right (Nat.le_refl _), Nat.sub_self]
      rfl
    · refine hS s ?_
      rw [h1, List.map_append, List.map_append, List.map_cons]
      exact dcSymbols_part _ _ _ _ _ hs

theorem raster_length (rows cols : Nat) : (raster rows cols).length = rows * cols := by
  unfold raster
  rw [List.length_flatMap]
  simp

theorem raster_ne_nil {rows cols : Nat} (h1 : 1 ≤ rows) (h2 : 1 ≤ cols) : raster rows cols ≠ [] := by
  intro h
  have := raster_length rows cols
  rw [h, List.length_nil] at this
  have := Nat.mul_le_mul h1 h2
  omega

theorem flatMap_filter_sum {α : Type} {l : List (α)} {g : α → List Nat} {n : α → Nat} {q : α → Bool} {m : Nat}
    (h1 : ∀ ci ∈ l, q ci = true → (g ci).length ≤ m * n ci) (h2 : ∀ ci ∈ l, q ci = false → g ci = []) :
    (l.flatMap g).length ≤ m * ((l.filter q).map n).sum := by
  induction l with
  | nil => simp
  | cons x xs ih =>
    have := ih (fun y hy => h1 y (by simp [hy])) (fun y hy => h2 y (by simp [hy]))
    rw [List.flatMap_cons, List.length_append]
    cases hq : q x
    · rw [List.filter_cons_of_neg (by simp [hq]), h2 x (by simp) hq, List.length_nil]
      omega
    · rw [List.filter_cons_of_pos hq, List.map_cons, List.sum_cons, Nat.mul_add]
      have := h1 x (by simp) hq
      omega

theorem flatMap_filter_sum' {α : Type} {l : List (α)} {g : α → List Nat} {n : α → Nat} {q : α → Bool}
    (h1 : ∀ ci ∈ l, q ci = true → (g ci).length ≤ n ci) (h2 : ∀ ci ∈ l, q ci = false → g ci = []) :
    (l.flatMap g).length ≤ ((l.filter q).map n).sum := by
  have := flatMap_filter_sum (m := 1) (n := n) (fun ci hci hq => by rw [Nat.one_mul]; exact h1 ci hci hq) h2
  rwa [Nat.one_mul] at this

theorem nblk_le {w s : Nat} (hw : w < 65536) (hs : 1 ≤ s) : nblk w s ≤ 8192 := by
  unfold nblk _root_.Spec.ceilDiv
  have h1 : (w + 8 - 1) / 8 ≤ 8192 := by omega
  have : ((w + 8 - 1) / 8 + s - 1) / s ≤ (w + 8 - 1) / 8 := by
    rw [Nat.div_le_iff_le_mul_add_pred (by omega)]
    have := Nat.mul_le_mul_right ((w + 8 - 1) / 8) hs
    rw [Nat.one_mul] at this
    omega
  omega

theorem init_tables (sf : SamplingFactor) (ct : JpegColorType) : ∀ c ∈ initComponents sf ct,
    c.dcHuffmanTable = c.quantizationTable ∧ c.acHuffmanTable = c.quantizationTable := by
  cases ct <;> simp [initComponents, mkComponent]

theorem init_has (sf : SamplingFactor) (ct : JpegColorType) (table : Nat) (h : table = 0 ∨ (table = 1 ∧ 2 ≤ (initComponents sf ct).length)) :
    ∃ c ∈ initComponents sf ct, c.quantizationTable = table := by
  rcases h with rfl | ⟨rfl, h⟩ <;> cases ct <;> simp_all [initComponents, mkComponent]

/-- The block with coefficients `E`. -/
def canon (E : Coefs) (i : Nat) (q : Nat × Nat) : List Int := (List.range 64).map fun k => E i q.1 q.2 k

theorem canon_block (E : Coefs) (i : Nat) (q : Nat × Nat) : IsBlock E i q.1 q.2 (canon E i q) := by
  refine ⟨by simp [canon], fun k hk => ?_⟩
  simp [canon, List.getD, hk]

theorem IsBlock.eq_canon {E : Coefs} {i : Nat} {q : Nat × Nat} {b : List Int} (h : IsBlock E i q.1 q.2 b) : b = canon E i q := by
  have h2 := canon_block E i q
  refine List.ext_getElem (by rw [h.1, h2.1]) fun k h3 h4 => ?_
  have h5 := h.2 k (by rw [← h.1]; exact h3)
  have h6 := h2.2 k (by rw [← h.1]; exact h3)
  rw [List.getD_eq_getElem?_getD, List.getElem?_eq_getElem h3, Option.getD_some] at h5
  rw [List.getD_eq_getElem?_getD, List.getElem?_eq_getElem h4, Option.getD_some] at h6
  rw [h5, h6]

theorem BlocksOf.eq_canon {E : Coefs} {i rows cols : Nat} {bs : List (List Int)} (h : BlocksOf E i rows cols bs) : bs = (raster rows cols).map (canon E i) := by
  obtain ⟨f, rfl, h2⟩ := h.eq
  refine List.map_congr_left fun p hp => ?_
  rw [mem_raster] at hp
  exact (h2 p.1 hp.1 p.2 hp.2).eq_canon

section
variable {e : Encoder} (hwf : e.Wf) {ct : JpegColorType} {iw jh : UInt16} {E : Coefs} {blocks : Blocks} (hE : CoefBounds E)
  (hbl : AllBlocksOf E (maxSamplingSize (initComponents e.samplingFactor ct)).1 (maxSamplingSize (initComponents e.samplingFactor ct)).2
    iw.toNat jh.toNat (initComponents e.samplingFactor ct) blocks) (hw : iw ≠ 0) (hh : jh ≠ 0)

include hE hbl hw hh in
theorem blocksOf_good : ∀ ci ∈ (initComponents e.samplingFactor ct).zipIdx, ∃ bs, blocks[ci.2]? = some bs ∧ bs ≠ [] ∧
    (∀ b ∈ bs, GoodBlock b) ∧ bs.length = Spec.blockCount (mkFrame e.mode.isProg iw jh (initComponents e.samplingFactor ct)) ci.1.frame ∧
      bs = (raster (nblk jh.toNat ((maxSamplingSize (initComponents e.samplingFactor ct)).2 / ci.1.verticalSamplingFactor))
        (nblk iw.toNat ((maxSamplingSize (initComponents e.samplingFactor ct)).1 / ci.1.horizontalSamplingFactor))).map (canon E ci.2) := by
  obtain ⟨hg, hnc⟩ := initComponents_grid e.samplingFactor ct
  rintro ⟨c, i⟩ hci
  have hc := List.mem_zipIdx_iff_getElem?.mp hci
  have hcm : c ∈ initComponents e.samplingFactor ct := List.mem_of_getElem? hc
  obtain ⟨bs, h1, h2⟩ := hbl i c hc
  obtain rfl := h2.eq_canon
  refine ⟨_, h1, ?_, ?_, ?_, rfl⟩
  · intro h
    rw [List.map_eq_nil_iff] at h
    have hw' : iw.toNat ≠ 0 := fun h => hw (UInt16.toNat_inj.mp (by simpa using h))
    have hh' : jh.toNat ≠ 0 := fun h => hh (UInt16.toNat_inj.mp (by simpa using h))
    refine raster_ne_nil (nblk_pos (by omega) ?_) (nblk_pos (by omega) ?_) h
    · have := hg.mv
      rcases hg.v c hcm with h | h <;> rw [h]
      · omega
      · exact (Nat.le_div_iff_mul_le (by omega)).mpr (by omega)
    · have := hg.mh
      rcases hg.h c hcm with h | h <;> rw [h]
      · omega
      · exact (Nat.le_div_iff_mul_le (by omega)).mpr (by omega)
  · intro b hb
    obtain ⟨p, _, rfl⟩ := List.mem_map.mp hb
    have hcb := canon_block E i p
    refine ⟨hcb.1, ?_, ?_⟩
    · rw [hcb.2 0 (by omega)]; exact hE.dc _ _ _
    · intro k h1 h2
      rw [hcb.2 k h2]; exact hE.ac _ _ _ k h1 h2
  · rw [List.length_map, raster_length, Spec.blockCount, blocksWide_eq hg _ _ _ hcm, blocksHigh_eq hg _ _ _ hcm]

include hE hbl hw hh in
/-- The symbols counted for a DC table. -/
theorem dcCounted_of (sl : Nat) : Spec.dcCounted (mkFrame e.mode.isProg iw jh (initComponents e.samplingFactor ct)) E sl =
      (initComponents e.samplingFactor ct).zipIdx.flatMap (dcOf sl blocks) := by
    obtain ⟨hg, hnc⟩ := initComponents_grid e.samplingFactor ct
    have hbg := blocksOf_good hE hbl hw hh
    have htab := init_tables e.samplingFactor ct
    have hmem : ∀ ci ∈ (initComponents e.samplingFactor ct).zipIdx, ci.1 ∈ initComponents e.samplingFactor ct :=
      fun ci hci => List.mem_of_getElem? (List.mem_zipIdx_iff_getElem?.mp hci)
    unfold Spec.dcCounted
    have h1 : (mkFrame e.mode.isProg iw jh (initComponents e.samplingFactor ct)).comps =
      (initComponents e.samplingFactor ct).map Component.frame := rfl
    rw [h1, List.zipIdx_map, List.flatMap_map]
    refine List.flatMap_congr ?_
    rintro ⟨c, i⟩ hci
    obtain ⟨bs, h1, _, _, _, h5⟩ := hbg _ hci
    have hcm := hmem _ hci
    unfold dcOf
    show (if c.quantizationTable = sl then _ else _) = _
    rw [(htab c hcm).1]
    split
    · rw [List.getD_eq_getElem?_getD, h1, Option.getD_some, h5]
      have e1 := blocksWide_eq hg e.mode.isProg iw jh hcm
      have e2 := blocksHigh_eq hg e.mode.isProg iw jh hcm
      dsimp only [Prod.map, id] at e1 e2 ⊢
      rw [e1, e2]
      refine (dcSyms_eq _ _ _ (fun q _ => ?_) 0).symm
      exact (canon_block E i q).2 0 (by omega)
    · rfl

include hE hbl hw hh in
theorem dcOf_length (table : Nat) : ((initComponents e.samplingFactor ct).zipIdx.flatMap (dcOf table blocks)).length < 4294967295 := by
  obtain ⟨hg, hnc⟩ := initComponents_grid e.samplingFactor ct
  have hbg := blocksOf_good hE hbl hw hh
  have hmem : ∀ ci ∈ (initComponents e.samplingFactor ct).zipIdx, ci.1 ∈ initComponents e.samplingFactor ct :=
    fun ci hci => List.mem_of_getElem? (List.mem_zipIdx_iff_getElem?.mp hci)
  have := flatMap_length_le (initComponents e.samplingFactor ct).zipIdx (dcOf table blocks) (8192 * 8192) (by
      intro ci hci
      obtain ⟨bs, h1, _, _, h4, h5⟩ := hbg ci hci
      have hcm := hmem ci hci
      unfold dcOf
      split
      · rw [List.getD_eq_getElem?_getD, h1, Option.getD_some, dcSyms_length, h5, List.length_map, raster_length]
        have q1 : ∀ {k m : Nat}, 1 ≤ m → (k = 1 ∨ k = m) → 1 ≤ m / k := by
          rintro k m hm (rfl | rfl)
          · rwa [Nat.div_one]
          · rw [Nat.div_self (by omega)]
        exact Nat.mul_le_mul (nblk_le jh.toNat_lt (q1 hg.mv.1 (hg.v ci.1 hcm))) (nblk_le iw.toNat_lt (q1 hg.mh.1 (hg.h ci.1 hcm)))
      · simp)
  rw [List.length_zipIdx] at this
  have := hg.nc
  have : (initComponents e.samplingFactor ct).length * (8192 * 8192) ≤ 4 * (8192 * 8192) := Nat.mul_le_mul_right _ (by omega)
  omega

include hwf hE hbl hw hh in
/-- Optimised tables are found on every platform; their symbols are the counted ones. -/
theorem optimized_of (ho : e.optimizeHuffmanTable = true)
    (hsz : ∀ t, CountsOk ((initComponents e.samplingFactor ct).zipIdx.flatMap (acOf e.progressiveScans t blocks))) :
    ∃ t : HuffPair × HuffPair, (∀ pf : Platform, pf.Valid → (e.atWork ct).optimizeIf pf blocks = .ok ((e.atWork ct).withTables t)) ∧
      TabsOk (initComponents e.samplingFactor ct).length t ∧
      ∀ c ∈ initComponents e.samplingFactor ct,
        OptTable dcSymbols ((initComponents e.samplingFactor ct).zipIdx.flatMap (dcOf c.dcHuffmanTable blocks)) (tabOf t c.dcHuffmanTable).dc ∧
        OptTable acSymbols ((initComponents e.samplingFactor ct).zipIdx.flatMap (acOf e.progressiveScans c.acHuffmanTable blocks))
          (tabOf t c.acHuffmanTable).ac := by
  obtain ⟨hg, hnc⟩ := initComponents_grid e.samplingFactor ct
  have hp : ∀ n, e.progressiveScans = some n → 2 ≤ n.toNat ∧ n.toNat ≤ 64 := by
    intro n hn
    have := hwf.mode_ok false (by simp) ct
    simp only [Encoder.mode, hn, Mode.Ok] at this
    exact ⟨this.1, this.2.1⟩
  have hbg := blocksOf_good hE hbl hw hh
  have hb : ∀ ci ∈ (initComponents e.samplingFactor ct).zipIdx, ∃ bs, blocks[ci.2]? = some bs ∧ bs ≠ [] ∧ ∀ b ∈ bs, GoodBlock b :=
    fun ci hci => by obtain ⟨bs, h1, h2, h3, _⟩ := hbg ci hci; exact ⟨bs, h1, h2, h3⟩
  have htab := init_tables e.samplingFactor ct
  have hmem : ∀ ci ∈ (initComponents e.samplingFactor ct).zipIdx, ci.1 ∈ initComponents e.samplingFactor ct :=
    fun ci hci => List.mem_of_getElem? (List.mem_zipIdx_iff_getElem?.mp hci)
  have hlenD := dcOf_length hE hbl hw hh
  have hex : ∀ table, (table = 0 ∨ (table = 1 ∧ 2 ≤ (initComponents e.samplingFactor ct).length)) →
      ∃ p : HuffPair, (∀ pf, pf.Valid → optimizeTable pf e.progressiveScans (initComponents e.samplingFactor ct) blocks table = .ok p) ∧
        OptTable dcSymbols ((initComponents e.samplingFactor ct).zipIdx.flatMap (dcOf table blocks)) p.dc ∧
        OptTable acSymbols ((initComponents e.samplingFactor ct).zipIdx.flatMap (acOf e.progressiveScans table blocks)) p.ac := by
    intro table ht
    obtain ⟨c, hc, hq⟩ := init_has e.samplingFactor ct table ht
    exact optimizeTable_ok hp hb ⟨c, hc, by rw [(htab c hc).1, hq]⟩ ⟨c, hc, by rw [(htab c hc).2, hq]⟩ (hlenD table) (hsz table)
  -- the pair of tables
  obtain ⟨p0, a1, a2, a3⟩ := hex 0 (Or.inl rfl)
  by_cases h2 : 2 ≤ (initComponents e.samplingFactor ct).length
  · obtain ⟨p1, b1, b2, b3⟩ := hex 1 (Or.inr ⟨rfl, h2⟩)
    refine ⟨(p0, p1), ?_, ⟨a2.file, a3.file, fun _ => b2.file, fun _ => b3.file⟩, ?_⟩
    · intro pf hpf
      unfold Encoder.optimizeIf
      rw [if_pos (show (e.atWork ct).optimizeHuffmanTable = true from ho)]
      unfold Encoder.optimizeHuffman
      have e1 : optimizeTable pf (e.atWork ct).progressiveScans (e.atWork ct).components blocks 0 = .ok p0 := a1 pf hpf
      have e2 : optimizeTable pf (e.atWork ct).progressiveScans (e.atWork ct).components blocks 1 = .ok p1 := b1 pf hpf
      rw [e1]
      simp only [ok_bind]
      rw [if_pos (show (e.atWork ct).components.length ≥ 2 from h2), e2]
      rfl
    · intro c hc
      rcases (show c.dcHuffmanTable = 0 ∨ c.dcHuffmanTable = 1 by have := hg.ok.dc c hc; omega) with h0 | h0
      · have h0' : c.acHuffmanTable = 0 := by have := htab c hc; omega
        rw [h0, h0']
        exact ⟨a2, a3⟩
      · have h0' : c.acHuffmanTable = 1 := by have := htab c hc; omega
        rw [h0, h0']
        exact ⟨b2, b3⟩
  · refine ⟨(p0, e.huffmanTables.2), ?_, ⟨a2.file, a3.file, fun h => by omega, fun h => by omega⟩, ?_⟩
    · intro pf hpf
      unfold Encoder.optimizeIf
      rw [if_pos (show (e.atWork ct).optimizeHuffmanTable = true from ho)]
      unfold Encoder.optimizeHuffman
      have e1 : optimizeTable pf (e.atWork ct).progressiveScans (e.atWork ct).components blocks 0 = .ok p0 := a1 pf hpf
      rw [e1]
      simp only [ok_bind]
      rw [if_neg (show ¬ (e.atWork ct).components.length ≥ 2 from h2)]
      rfl
    · intro c hc
      rcases init_dest e.samplingFactor ct c hc with h0 | h3
      · rw [h0.1, h0.2]
        exact ⟨a2, a3⟩
      · omega

include hwf hE hbl hw hh in
/-- Optimised tables: they are found on every platform and code the image. -/
theorem codable_of (ho : e.optimizeHuffmanTable = true)
    (hsr : ∀ n, e.restartInterval = some n → ∀ c fc, (mkFrame e.mode.isProg iw jh (initComponents e.samplingFactor ct)).comps[c]? = some fc →
      ∀ j p, (raster ((mkFrame e.mode.isProg iw jh (initComponents e.samplingFactor ct)).blocksHigh fc)
        ((mkFrame e.mode.isProg iw jh (initComponents e.samplingFactor ct)).blocksWide fc))[j * n.toNat]? = some p →
        category (E c p.1 p.2 0) ∈
          Spec.dcCounted (mkFrame e.mode.isProg iw jh (initComponents e.samplingFactor ct)) E fc.tq)
    (hsz : ∀ t, CountsOk ((initComponents e.samplingFactor ct).zipIdx.flatMap (acOf e.progressiveScans t blocks))) :
    ∃ t, (∀ pf : Platform, pf.Valid → (e.atWork ct).optimizeIf pf blocks = .ok ((e.atWork ct).withTables t)) ∧
      (TabsOk (initComponents e.samplingFactor ct).length t ∧ AllUnitsOk e.mode iw jh (initComponents e.samplingFactor ct) t e.interval E) ∧
      ∀ c ∈ initComponents e.samplingFactor ct,
        OptTable dcSymbols ((initComponents e.samplingFactor ct).zipIdx.flatMap (dcOf c.dcHuffmanTable blocks)) (tabOf t c.dcHuffmanTable).dc ∧
        OptTable acSymbols ((initComponents e.samplingFactor ct).zipIdx.flatMap (acOf e.progressiveScans c.acHuffmanTable blocks))
          (tabOf t c.acHuffmanTable).ac := by
  obtain ⟨hg, hnc⟩ := initComponents_grid e.samplingFactor ct
  have hp : ∀ n, e.progressiveScans = some n → 2 ≤ n.toNat ∧ n.toNat ≤ 64 := by
    intro n hn
    have := hwf.mode_ok false (by simp) ct
    simp only [Encoder.mode, hn, Mode.Ok] at this
    exact ⟨this.1, this.2.1⟩
  have hbg := blocksOf_good hE hbl hw hh
  have hb : ∀ ci ∈ (initComponents e.samplingFactor ct).zipIdx, ∃ bs, blocks[ci.2]? = some bs ∧ bs ≠ [] ∧ ∀ b ∈ bs, GoodBlock b :=
    fun ci hci => by obtain ⟨bs, h1, h2, h3, _⟩ := hbg ci hci; exact ⟨bs, h1, h2, h3⟩
  have htab := init_tables e.samplingFactor ct
  have hmem : ∀ ci ∈ (initComponents e.samplingFactor ct).zipIdx, ci.1 ∈ initComponents e.samplingFactor ct :=
    fun ci hci => List.mem_of_getElem? (List.mem_zipIdx_iff_getElem?.mp hci)
  obtain ⟨t, ht, htabs, hgood⟩ := optimized_of hwf hE hbl hw hh ho hsz
  refine ⟨t, ht, ⟨htabs, ?_⟩, hgood⟩
  have hcounted := dcCounted_of hE hbl hw hh
  -- all scans have a single component
  have scan : ∀ c ∈ initComponents e.samplingFactor ct, ∀ ss se, se ≤ 63 →
      (max ss 1 ≤ se → (max ss 1, se + 1) ∈ acRanges e.progressiveScans) →
      ∀ g ∈ intervals e.interval ((ScanDesc.mk [c] ss se).mcus (mkFrame e.mode.isProg iw jh (initComponents e.samplingFactor ct))),
        ((ScanDesc.mk [c] ss se).coder t E).UnitsOk g.flatten fun _ => 0 := by
    intro c hc ss se hse hband g hgm
    obtain ⟨i, hi, hic⟩ := List.getElem_of_mem hc
    have hci : (initComponents e.samplingFactor ct)[i]? = some c := by rw [List.getElem?_eq_getElem hi, hic]
    have hz : (c, i) ∈ (initComponents e.samplingFactor ct).zipIdx := List.mem_zipIdx_iff_getElem?.mpr hci
    obtain ⟨bs, h1, h2, h3, h4, h5⟩ := hbg (c, i) hz
    have hid := hg.ok.ids i c hci
    obtain ⟨g1, g2⟩ := hgood c hc
    have hlay : (ScanDesc.mk [c] ss se).mcus (mkFrame e.mode.isProg iw jh (initComponents e.samplingFactor ct)) =
        (raster (nblk jh.toNat ((maxSamplingSize (initComponents e.samplingFactor ct)).2 / c.verticalSamplingFactor))
          (nblk iw.toNat ((maxSamplingSize (initComponents e.samplingFactor ct)).1 / c.horizontalSamplingFactor))).map unit1 :=
      layout_single hg e.mode.isProg iw jh hc
    rw [hlay, Coder.intervals_map] at hgm
    obtain ⟨ps, hps, rfl⟩ := List.mem_map.mp hgm
    rw [← List.flatMap_def]
    obtain ⟨jj, pre, post, hsplit, -⟩ := mem_intervals hps
    have hblk : ∀ q : Nat × Nat, IsBlock E c.id q.1 q.2 (canon E i q) := by
      intro q
      rw [hid]
      exact canon_block E i q
    refine unitsOk_syms (c := c) hse hE g1.file.ok g2.file.ok (fun p => canon E i p)
      _ (fun q _ => (hblk q).2 0 (by omega)) _ (by omega) ?_ ?_
    · intro _ s hs'
      rw [dcSyms_eq _ _ (fun p => E i p.1 p.2 0) (fun q _ => by have := (hblk q).2 0 (by omega); rwa [hid] at this)] at hs'
      refine dcSymbols_interval hps _ ?_ ?_ s hs'
      · intro s hs
        refine (g1.mem s).mpr (List.mem_flatMap.mpr ⟨(c, i), hz, ?_⟩)
        unfold dcOf
        rw [if_pos rfl, List.getD_eq_getElem?_getD, h1, Option.getD_some, h5,
          dcSyms_eq _ _ (fun p => E i p.1 p.2 0) (fun q _ => by have := (hblk q).2 0 (by omega); rwa [hid] at this)]
        exact hs
      · intro hn j a ha
        unfold Encoder.interval at hn ha
        cases hr : e.restartInterval with
        | none => rw [hr] at hn; exact absurd rfl hn
        | some n =>
          rw [hr] at ha
          have := hsr n hr i c.frame (by
            show ((initComponents e.samplingFactor ct).map Component.frame)[i]? = _
            rw [List.getElem?_map, hci]; rfl) j a (by rw [blocksWide_eq hg _ _ _ hc, blocksHigh_eq hg _ _ _ hc]; exact ha)
          rw [hcounted] at this
          refine (g1.mem _).mpr ?_
          rw [(htab c hc).1]
          exact this
    · intro q hq k hk
      have hq : q ∈ raster (nblk jh.toNat ((maxSamplingSize (initComponents e.samplingFactor ct)).2 / c.verticalSamplingFactor))
          (nblk iw.toNat ((maxSamplingSize (initComponents e.samplingFactor ct)).1 / c.horizontalSamplingFactor)) := by
        rw [hsplit]; simp [hq]
      by_cases hb1 : max ss 1 ≤ se
      · have hr := hband hb1
        refine (g2.mem k.sym).mpr (List.mem_flatMap.mpr ⟨(c, i), hz, ?_⟩)
        unfold acOf
        rw [if_pos rfl, List.getD_eq_getElem?_getD, h1, Option.getD_some, acAll]
        refine List.mem_flatMap.mpr ⟨_, hr, List.mem_flatMap.mpr ⟨canon E i q, ?_, ?_⟩⟩
        · rw [h5]
          exact List.mem_map.mpr ⟨q, hq, rfl⟩
        · unfold acSyms
          refine List.mem_map.mpr ⟨k, ?_, rfl⟩
          have hsl := slice_band (hblk q) (start := max ss 1) (stop := se + 1) (by omega) (by omega)
          unfold slice at hsl
          rw [if_pos ⟨by omega, by rw [(hblk q).1]; omega⟩] at hsl
          rw [Except.ok.inj hsl]
          exact hk
      · have hn : (scanCoder t [c] ss se E).n = 0 := by
          show se + 1 - max ss 1 = 0
          omega
        unfold Coder.band at hk
        rw [hn] at hk
        simp [acToks] at hk
  intro sd hsd
  have hmode : e.mode = .sequential ∧ e.progressiveScans = none ∨ ∃ n, e.mode = .progressive n.toNat ∧ e.progressiveScans = some n := by
    unfold Encoder.mode
    cases hps : e.progressiveScans with
    | none => left; simp [ho]
    | some n => right; exact ⟨n, rfl, rfl⟩
  rcases hmode with ⟨hm, hps⟩ | ⟨n, hm, hps⟩
  · rw [hm] at hsd
    simp only [Mode.scans, List.mem_map] at hsd
    obtain ⟨c, hc, rfl⟩ := hsd
    exact scan c hc 0 63 (by omega) (by intro _; rw [hps]; simp [acRanges])
  · rw [hm] at hsd
    simp only [Mode.scans, List.mem_append, List.mem_map, List.mem_flatMap] at hsd
    rcases hsd with ⟨c, hc, rfl⟩ | ⟨b, hb', c, hc, rfl⟩
    · exact scan c hc 0 0 (by omega) (by intro h; simp at h)
    · have hr : b ∈ acRanges e.progressiveScans := by rw [hps]; exact hb'
      obtain ⟨r1, r2, r3⟩ := (acRanges_ok hp).1 b hr
      refine scan c hc b.1 (b.2 - 1) (by omega) ?_
      intro h
      have e1 : max b.1 1 = b.1 := by omega
      have e2 : b.2 - 1 + 1 = b.2 := by omega
      rw [e1, e2]
      exact hr

end

section
variable {op : Operations} {F : List Int → List Int} (hop : OpOk op F) {e : Encoder} (hwf : e.Wf) {image : ImageBuffer} (P : Nat → Nat → Nat → UInt8)
  (hw : image.width ≠ 0) (hh : image.height ≠ 0)

include hop in
theorem coefs_bounds : CoefBounds (e.coefs F image P) :=
  coefsOf_bounds hop (steps_length _ _ _) (steps_length _ _ _) (steps_range _ _ _) (steps_range _ _ _) _ _ _ _ _ _

include hop hw hh in
theorem blocks_good : ∀ ci ∈ (initComponents e.samplingFactor image.colorType).zipIdx, ∃ bs, (e.blocks F image P)[ci.2]? = some bs ∧ bs ≠ [] ∧
    (∀ b ∈ bs, GoodBlock b) ∧ bs.length = Spec.blockCount (mkFrame e.mode.isProg image.width image.height (initComponents e.samplingFactor image.colorType)) ci.1.frame ∧
      bs = (raster (nblk image.height.toNat ((maxSamplingSize (initComponents e.samplingFactor image.colorType)).2 / ci.1.verticalSamplingFactor))
        (nblk image.width.toNat ((maxSamplingSize (initComponents e.samplingFactor image.colorType)).1 / ci.1.horizontalSamplingFactor))).map fun p =>
          blockAt F e.steps0 e.steps1 image.width.toNat image.height.toNat P (maxSamplingSize (initComponents e.samplingFactor image.colorType)).1
            (maxSamplingSize (initComponents e.samplingFactor image.colorType)).2 ci.2 ci.1 p.1 p.2 := by
  obtain ⟨hg, hnc⟩ := initComponents_grid e.samplingFactor image.colorType
  rintro ⟨c, i⟩ hci
  have hc := List.mem_zipIdx_iff_getElem?.mp hci
  have hcm : c ∈ initComponents e.samplingFactor image.colorType := List.mem_of_getElem? hc
  refine ⟨_, ?_, ?_, ?_, ?_, rfl⟩
  · simp only [Encoder.blocks, allBlocks, List.getElem?_map, List.getElem?_zipIdx, hc, Option.map_some, Nat.zero_add]
  · intro h
    rw [List.map_eq_nil_iff] at h
    have hw' : image.width.toNat ≠ 0 := fun h => hw (UInt16.toNat_inj.mp (by simpa using h))
    have hh' : image.height.toNat ≠ 0 := fun h => hh (UInt16.toNat_inj.mp (by simpa using h))
    refine raster_ne_nil (nblk_pos (by omega) ?_) (nblk_pos (by omega) ?_) h
    · have := hg.mv
      rcases hg.v c hcm with h | h <;> rw [h]
      · omega
      · exact (Nat.le_div_iff_mul_le (by omega)).mpr (by omega)
    · have := hg.mh
      rcases hg.h c hcm with h | h <;> rw [h]
      · omega
      · exact (Nat.le_div_iff_mul_le (by omega)).mpr (by omega)
  · intro b hb
    obtain ⟨p, _, rfl⟩ := List.mem_map.mp hb
    have := coef_bounds hop (steps := if c.quantizationTable = 0 then e.steps0 else e.steps1)
      (by split <;> exact steps_length _ _ _) (by split <;> exact steps_range _ _ _)
      (blockSamples_length image.width.toNat image.height.toNat P i
        ((maxSamplingSize (initComponents e.samplingFactor image.colorType)).2 / c.verticalSamplingFactor)
        ((maxSamplingSize (initComponents e.samplingFactor image.colorType)).1 / c.horizontalSamplingFactor) p.1 p.2)
      (blockSamples_shifted _ _ _ _ _ _ _ _)
    exact ⟨blockAt_length _ _ _ _ _ _ _ _ _ _ _ _, this.1, this.2⟩
  · rw [List.length_map, raster_length, Spec.blockCount, blocksWide_eq hg _ _ _ hcm, blocksHigh_eq hg _ _ _ hcm]

include hop hw hh in
/-- The symbols counted for a DC table. -/
theorem dcCounted_eq (sl : Nat) : Spec.dcCounted (mkFrame e.mode.isProg image.width image.height (initComponents e.samplingFactor image.colorType)) (e.coefs F image P) sl =
      (initComponents e.samplingFactor image.colorType).zipIdx.flatMap (dcOf sl (e.blocks F image P)) :=
  dcCounted_of (coefs_bounds hop P) (allBlocks_of F _ _ _ _ P _ _ _) hw hh sl

include hop hwf hw hh in
/-- Optimised tables are found on every platform; their symbols are the counted ones. -/
theorem optimized_tables (ho : e.optimizeHuffmanTable = true)
    (hsz : ∀ t, Spec.CountsFit ((initComponents e.samplingFactor image.colorType).zipIdx.flatMap (acOf e.progressiveScans t (e.blocks F image P)))) :
    ∃ t : HuffPair × HuffPair, (∀ pf : Platform, pf.Valid → (e.atWork image.colorType).optimizeIf pf (e.blocks F image P) = .ok ((e.atWork image.colorType).withTables t)) ∧
      TabsOk (initComponents e.samplingFactor image.colorType).length t ∧
      ∀ c ∈ initComponents e.samplingFactor image.colorType,
        OptTable dcSymbols ((initComponents e.samplingFactor image.colorType).zipIdx.flatMap (dcOf c.dcHuffmanTable (e.blocks F image P))) (tabOf t c.dcHuffmanTable).dc ∧
        OptTable acSymbols ((initComponents e.samplingFactor image.colorType).zipIdx.flatMap (acOf e.progressiveScans c.acHuffmanTable (e.blocks F image P)))
          (tabOf t c.acHuffmanTable).ac :=
  optimized_of hwf (coefs_bounds hop P) (allBlocks_of F _ _ _ _ P _ _ _) hw hh ho fun t => .inl (hsz t)

include hop hwf hw hh in
/-- Optimised tables: they are found on every platform and code the image. -/
theorem codable_optimized (ho : e.optimizeHuffmanTable = true)
    (hsr : ∀ n, e.restartInterval = some n → ∀ c fc, (mkFrame e.mode.isProg image.width image.height (initComponents e.samplingFactor image.colorType)).comps[c]? = some fc →
      ∀ j p, (raster ((mkFrame e.mode.isProg image.width image.height (initComponents e.samplingFactor image.colorType)).blocksHigh fc)
        ((mkFrame e.mode.isProg image.width image.height (initComponents e.samplingFactor image.colorType)).blocksWide fc))[j * n.toNat]? = some p →
        category (e.coefs F image P c p.1 p.2 0) ∈
          Spec.dcCounted (mkFrame e.mode.isProg image.width image.height (initComponents e.samplingFactor image.colorType)) (e.coefs F image P) fc.tq)
    (hsz : ∀ t, Spec.CountsFit ((initComponents e.samplingFactor image.colorType).zipIdx.flatMap (acOf e.progressiveScans t (e.blocks F image P)))) :
    ∃ t, (∀ pf : Platform, pf.Valid → (e.atWork image.colorType).optimizeIf pf (e.blocks F image P) = .ok ((e.atWork image.colorType).withTables t)) ∧
      Codable e F image P t ∧
      ∀ c ∈ initComponents e.samplingFactor image.colorType,
        OptTable dcSymbols ((initComponents e.samplingFactor image.colorType).zipIdx.flatMap (dcOf c.dcHuffmanTable (e.blocks F image P))) (tabOf t c.dcHuffmanTable).dc ∧
        OptTable acSymbols ((initComponents e.samplingFactor image.colorType).zipIdx.flatMap (acOf e.progressiveScans c.acHuffmanTable (e.blocks F image P)))
          (tabOf t c.acHuffmanTable).ac := by
  obtain ⟨t, h1, h2, h3⟩ := codable_of hwf (coefs_bounds hop P) (allBlocks_of F _ _ _ _ P _ _ _) hw hh ho hsr fun t => .inl (hsz t)
  exact ⟨t, h1, ⟨h2.1, h2.2⟩, h3⟩

end

end Jpeg
