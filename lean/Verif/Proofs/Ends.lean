import Verif.Proofs.Terminates
/-! `new_optimized` ends even if the frequency counters have wrapped around: the forest of the merge loop loses a tree when the sum of
two frequencies wraps to 0, but the Kraft sum over all symbols stays an integer. -/
namespace Jpeg
set_option maxRecDepth 10000

/-- All failures of `r` are admitted, all results satisfy `P`. -/
def RHas (A : Fail → Prop) {α : Type} (P : α → Prop) (r : R α) : Prop := ROnly A r ∧ ∀ a, r = .ok a → P a

section
variable {A : Fail → Prop} {α β : Type}

theorem RHas.ok {P : α → Prop} {a : α} (h : P a) : RHas A P (.ok a : R α) := ⟨.ok a, fun b hb => by cases hb; exact h⟩

theorem RHas.bind {P : α → Prop} {Q : β → Prop} {r : R α} {f : α → R β} (h : RHas A P r) (hf : ∀ a, P a → RHas A Q (f a)) : RHas A Q (r >>= f) :=
  ⟨h.1.bind_of fun a ha => (hf a (h.2 a ha)).1, fun b hb => by
    obtain ⟨a, ha, hb⟩ := bind_inv hb
    exact (hf a (h.2 a ha)).2 b hb⟩

theorem RHas.of_only {r : R α} (h : ROnly A r) : RHas A (fun _ => True) r := ⟨h, fun _ _ => trivial⟩

theorem RHas.mono {P Q : α → Prop} {r : R α} (h : RHas A P r) (hPQ : ∀ a, P a → Q a) : RHas A Q r := ⟨h.1, fun a ha => hPQ a (h.2 a ha)⟩

theorem RHas.forFoldR {P : β → Prop} {l : List α} {s : β} {body : β → α → R β} (hs : P s) (h : ∀ s x, x ∈ l → P s → RHas A P (body s x)) :
    RHas A P (forFoldR l s body) := by
  induction l generalizing s with
  | nil => exact .ok hs
  | cons x xs ih => exact (h s x (by simp) hs).bind fun a ha => ih ha (fun s y hy => h s y (by simp [hy]))

end

/-! ### The merge loop -/

/-- The Kraft sum over all 257 symbols. -/
def totalKraft (cs : List Nat) : ℚ := ∑ j ∈ Finset.range 257, (1 / 2 : ℚ) ^ cs.getD j 0

/-- State of the merge loop: the symbols with non-zero frequency are roots of trees; `L v` are the leaves of the tree of root `v`.
Nothing is said about lost trees except in `int`. -/
structure EInv (f0 freq : List Nat) (others : List Int) (cs : List Nat) (L : Nat → List Nat) : Prop where
  lf : freq.length = 257
  lo : others.length = 257
  lc : cs.length = 257
  chain : ∀ v, freq.getD v 0 ≠ 0 → IsChain others (L v) ∧ (L v).head? = some v
  nodup : ∀ v, freq.getD v 0 ≠ 0 → (L v).Nodup
  disj : ∀ v u, freq.getD v 0 ≠ 0 → freq.getD u 0 ≠ 0 → v ≠ u → ∀ j ∈ L v, j ∉ L u
  used : ∀ v, freq.getD v 0 ≠ 0 → ∀ j ∈ L v, f0.getD j 0 ≠ 0
  unused : ∀ j, f0.getD j 0 = 0 → cs.getD j 0 = 0
  kraft : ∀ v, freq.getD v 0 ≠ 0 → ((L v).map fun j => (1 / 2 : ℚ) ^ cs.getD j 0).sum = 1
  int : ∃ z : ℤ, totalKraft cs = z

theorem EInv.init {f0 : List Nat} (h : f0.length = 257) : EInv f0 f0 (List.replicate 257 (-1)) (List.replicate 257 0) fun v => [v] := by
  have hm := MInv.init h
  refine ⟨hm.lf, hm.lo, hm.lc, hm.chain, hm.nodup, hm.disj, hm.used, hm.unused, hm.kraft, 257, ?_⟩
  have : totalKraft (List.replicate 257 0) = ∑ j ∈ Finset.range 257, (1 : ℚ) := by
    apply Finset.sum_congr rfl
    intro j hj
    rw [List.getD_eq_getElem?_getD, List.getElem?_replicate, if_pos (Finset.mem_range.mp hj), Option.getD_some, pow_zero]
  rw [this, Finset.sum_const, Finset.card_range]
  norm_num

/-- Halving the weights of some symbols. -/
theorem totalKraft_step {cs cs' : List Nat} {M : List Nat} (hn : M.Nodup) (hlt : ∀ j ∈ M, j < 257)
    (hcs : ∀ j, cs'.getD j 0 = cs.getD j 0 + if j ∈ M then 1 else 0) :
    totalKraft cs' = totalKraft cs - (M.map fun j => (1 / 2 : ℚ) ^ cs.getD j 0).sum * (1 / 2) := by
  have hsub : M.toFinset ⊆ Finset.range 257 := fun j hj => Finset.mem_range.mpr (hlt j (List.mem_toFinset.mp hj))
  have hM : (M.map fun j => (1 / 2 : ℚ) ^ cs.getD j 0).sum = ∑ j ∈ M.toFinset, (1 / 2 : ℚ) ^ cs.getD j 0 := (List.sum_toFinset _ hn).symm
  unfold totalKraft
  rw [hM, ← Finset.sum_sdiff hsub, ← Finset.sum_sdiff (f := fun j => (1 / 2 : ℚ) ^ cs.getD j 0) hsub]
  have e1 : ∑ j ∈ Finset.range 257 \ M.toFinset, (1 / 2 : ℚ) ^ cs'.getD j 0 = ∑ j ∈ Finset.range 257 \ M.toFinset, (1 / 2 : ℚ) ^ cs.getD j 0 := by
    apply Finset.sum_congr rfl
    intro j hj
    rw [hcs, if_neg (by have := (Finset.mem_sdiff.mp hj).2; rwa [List.mem_toFinset] at this), Nat.add_zero]
  have e2 : ∑ j ∈ M.toFinset, (1 / 2 : ℚ) ^ cs'.getD j 0 = (∑ j ∈ M.toFinset, (1 / 2 : ℚ) ^ cs.getD j 0) * (1 / 2) := by
    rw [Finset.sum_mul]
    apply Finset.sum_congr rfl
    intro j hj
    rw [hcs, if_pos (List.mem_toFinset.mp hj), pow_succ]
  rw [e1, e2]
  ring

theorem EInv.step {f0 freq : List Nat} {others : List Int} {cs : List Nat} {L : Nat → List Nat} (h : EInv f0 freq others cs L) {v1 v2 : Nat}
    (h1 : freq.getD v1 0 ≠ 0) (h2 : freq.getD v2 0 ≠ 0) (hne : v1 ≠ v2) (s : Nat) {cs' : List Nat} (hcl : cs'.length = 257)
    (hcs : ∀ j, cs'.getD j 0 = cs.getD j 0 + if j ∈ L v1 ++ L v2 then 1 else 0) :
    EInv f0 ((freq.set v1 s).set v2 0)
      (others.set ((L v1).getLast (h.chain v1 h1).1.ne_nil) (v2 : Int)) cs' (fun v => if v = v1 then L v1 ++ L v2 else L v) := by
  have l1 : v1 < freq.length := lt_of_getD_ne h1
  have l2 : v2 < freq.length := lt_of_getD_ne h2
  have hg : ∀ v, ((freq.set v1 s).set v2 0).getD v 0 = if v = v2 then 0 else if v = v1 then s else freq.getD v 0 := by
    intro v
    rw [getD_set _ _ _ _ _ (by simpa using l2), getD_set _ _ _ _ _ l1]
  have hroot : ∀ v, ((freq.set v1 s).set v2 0).getD v 0 ≠ 0 → (v ≠ v2 ∧ freq.getD v 0 ≠ 0) := by
    intro v
    rw [hg]
    by_cases e2 : v = v2
    · simp [e2]
    · by_cases e1 : v = v1
      · subst e1; simp only [e2, if_false, if_true]; exact fun _ => ⟨e2, h1⟩
      · simp [e1, e2]
  have hlast : (L v1).getLast (h.chain v1 h1).1.ne_nil ∈ L v1 := List.getLast_mem _
  have hcsOut : ∀ v, v ≠ v1 → v ≠ v2 → freq.getD v 0 ≠ 0 → ∀ j ∈ L v, cs'.getD j 0 = cs.getD j 0 := by
    intro v e1 e2 hv j hj
    have n1 : j ∉ L v1 := h.disj v v1 hv h1 e1 j hj
    have n2 : j ∉ L v2 := h.disj v v2 hv h2 e2 j hj
    rw [hcs, if_neg (by simp [n1, n2])]
    rfl
  have hcsIn : ∀ j ∈ L v1 ++ L v2, cs'.getD j 0 = cs.getD j 0 + 1 := by
    intro j hj
    rw [hcs, if_pos hj]
  have hnd : (L v1 ++ L v2).Nodup := List.nodup_append.mpr ⟨h.nodup v1 h1, h.nodup v2 h2, fun a ha b hb hab => h.disj v1 v2 h1 h2 hne a ha (hab ▸ hb)⟩
  refine ⟨by simpa using h.lf, by simpa using h.lo, hcl, ?_, ?_, ?_, ?_, ?_, ?_, ?_⟩
  · intro v hv
    obtain ⟨e2, hv'⟩ := hroot v hv
    beta_reduce
    split
    · rename_i e1
      subst e1
      refine ⟨(h.chain v h1).1.append h.lo (h.chain v2 h2).1 (h.nodup v h1) (h.disj v v2 h1 h2 hne) (h.chain v2 h2).2, ?_⟩
      have := (h.chain v h1).2
      rw [List.head?_append_of_ne_nil _ (h.chain v h1).1.ne_nil]
      exact this
    · rename_i e1
      exact ⟨(h.chain v hv').1.set_other h.lo ((h.chain v1 h1).1.lt _ hlast) (fun hm => h.disj v v1 hv' h1 e1 _ hm hlast) _, (h.chain v hv').2⟩
  · intro v hv
    obtain ⟨e2, hv'⟩ := hroot v hv
    beta_reduce
    split
    · exact hnd
    · exact h.nodup v hv'
  · intro v u hv hu hvu j
    obtain ⟨e2, hv'⟩ := hroot v hv
    obtain ⟨e2', hu'⟩ := hroot u hu
    beta_reduce
    split
    · rename_i e1
      subst e1
      rw [if_neg (fun e => hvu e.symm)]
      intro hj
      rcases List.mem_append.mp hj with hj | hj
      · exact h.disj v u h1 hu' hvu j hj
      · exact h.disj v2 u h2 hu' (fun e => e2' e.symm) j hj
    · rename_i e1
      intro hj
      split
      · rename_i e1'
        rw [List.mem_append, not_or]
        exact ⟨h.disj v v1 hv' h1 e1 j hj, h.disj v v2 hv' h2 e2 j hj⟩
      · exact h.disj v u hv' hu' hvu j hj
  · intro v hv j
    obtain ⟨e2, hv'⟩ := hroot v hv
    beta_reduce
    split
    · intro hj
      rcases List.mem_append.mp hj with hj | hj
      · exact h.used v1 h1 j hj
      · exact h.used v2 h2 j hj
    · exact h.used v hv' j
  · intro j hj
    rw [hcs, if_neg, h.unused j hj]
    intro hm
    rcases List.mem_append.mp hm with hm | hm
    · exact h.used v1 h1 j hm hj
    · exact h.used v2 h2 j hm hj
  · intro v hv
    obtain ⟨e2, hv'⟩ := hroot v hv
    beta_reduce
    split
    · rw [List.map_append, List.sum_append]
      rw [map_sum_half (f := fun j => (1 / 2 : ℚ) ^ cs.getD j 0) ?_ (h.kraft v1 h1), map_sum_half (f := fun j => (1 / 2 : ℚ) ^ cs.getD j 0) ?_ (h.kraft v2 h2)]
      · norm_num
      · intro j hj; rw [hcsIn j (List.mem_append_right _ hj), pow_succ]
      · intro j hj; rw [hcsIn j (List.mem_append_left _ hj), pow_succ]
    · rename_i e1
      refine Eq.trans ?_ (h.kraft v hv')
      congr 1
      exact List.map_congr_left fun j hj => by rw [hcsOut v e1 e2 hv' j hj]
  · obtain ⟨z, hz⟩ := h.int
    refine ⟨z - 1, ?_⟩
    rw [totalKraft_step hnd ?_ hcs, hz, List.map_append, List.sum_append, h.kraft v1 h1, h.kraft v2 h2]
    · push_cast; ring
    · intro j hj
      rcases List.mem_append.mp hj with hj | hj
      · exact (h.chain v1 h1).1.lt j hj
      · exact (h.chain v2 h2).1.lt j hj

section
variable {A : Fail → Prop} (hA : Lax A) {pf : Platform}
include hA

theorem mergeLoop_has (f0 : List Nat) (fuel : Nat) {freq : List Nat} {others : List Int} {cs : List Nat} {L : Nat → List Nat}
    (h : EInv f0 freq others cs L) (hf : rootCount freq < fuel) :
    RHas A (fun cs' => cs'.length = 257 ∧ (∀ j, f0.getD j 0 = 0 → cs'.getD j 0 = 0) ∧ ∃ z : ℤ, totalKraft cs' = z) (mergeLoop pf fuel freq others cs) := by
  induction fuel generalizing freq others cs L with
  | zero => omega
  | succ fuel ih =>
    have hdone : cs.length = 257 ∧ (∀ j, f0.getD j 0 = 0 → cs.getD j 0 = 0) ∧ ∃ z : ℤ, totalKraft cs = z := ⟨h.lc, h.unused, h.int⟩
    cases e1 : (findMin none freq 0 (4294967295, none)).2 with
    | none => unfold mergeLoop; rw [e1]; exact .ok hdone
    | some v1 =>
      obtain ⟨h1, _, -⟩ := findMin_some e1
      cases e2 : (findMin (some v1) freq 0 (4294967295, none)).2 with
      | none => unfold mergeLoop; rw [e1]; dsimp only; rw [e2]; exact .ok hdone
      | some v2 =>
        obtain ⟨h2, hne, -⟩ := findMin_some e2
        have hne' : v1 ≠ v2 := fun e => hne (by rw [e])
        have l1 := lt_of_getD_ne h1
        have l2 := lt_of_getD_ne h2
        have hc1 := h.chain v1 h1
        have hc2 := h.chain v2 h2
        obtain ⟨cs1, b1, b2, b3⟩ := bumpChain_ok h.lo (L v1) hc1.1 (h.nodup v1 h1) 258 (by have := chain_length (h.nodup v1 h1) hc1.1.lt; omega) cs h.lc v1 hc1.2
        have hlast : (L v1).getLast hc1.1.ne_nil ∈ L v1 := List.getLast_mem _
        have hlt := hc1.1.lt _ hlast
        have hc2' : IsChain (others.set ((L v1).getLast hc1.1.ne_nil) (v2 : Int)) (L v2) := hc2.1.set_other h.lo hlt (h.disj v1 v2 h1 h2 hne' _ hlast) _
        obtain ⟨cs2, d1, d2, d3⟩ := bumpChain_ok (by simpa using h.lo) (L v2) hc2' (h.nodup v2 h2) 258
          (by have := chain_length (h.nodup v2 h2) hc2.1.lt; omega) cs1 b2 v2 hc2.2
        have hcs : ∀ j, cs2.getD j 0 = cs.getD j 0 + if j ∈ L v1 ++ L v2 then 1 else 0 := by
          intro j
          rw [d3, b3]
          by_cases m1 : j ∈ L v1
          · have m2 := h.disj v1 v2 h1 h2 hne' j m1
            simp [m1, m2]
          · by_cases m2 : j ∈ L v2 <;> simp [m1, m2]
        unfold mergeLoop
        rw [e1]
        dsimp only
        rw [e2]
        dsimp only
        rw [idx_eq_getD 0 l1]
        simp only [ok_bind]
        rw [idx_eq_getD 0 l2]
        simp only [ok_bind]
        refine (RHas.of_only (ckU_only hA _ _ _)).bind fun s _ => ?_
        rw [setIdx_ok l1]
        simp only [ok_bind]
        rw [setIdx_ok (by simpa using l2)]
        simp only [ok_bind]
        rw [b1]
        simp only [ok_bind]
        rw [setIdx_ok (by rw [h.lo]; exact hlt)]
        simp only [ok_bind]
        rw [d1]
        simp only [ok_bind]
        refine ih (h.step h1 h2 hne' s d2 hcs) ?_
        have a := rootCount_set freq v1 s l1
        have b := rootCount_set (freq.set v1 s) v2 0 (by simpa using l2)
        rw [getD_set _ _ _ _ _ l1, if_neg (Ne.symm hne'), if_neg h2, if_pos rfl] at b
        rw [if_neg h1] at a
        split at a <;> omega

omit hA in
/-- The weights of the used code sizes add up to a multiple of the full weight. -/
theorem kraft_dvd {cs U : List Nat} (hUn : U.Nodup) (hU : ∀ j, j ∈ U ↔ cs.getD j 0 ≠ 0) (hlt : ∀ j ∈ U, j < 257) (h32 : ∀ j, cs.getD j 0 ≤ 32)
    (hz : ∃ z : ℤ, totalKraft cs = z) : 2 ^ 32 ∣ (U.map fun j => wt (cs.getD j 0)).sum := by
  obtain ⟨z, hz⟩ := hz
  have hsub : U.toFinset ⊆ Finset.range 257 := fun j hj => Finset.mem_range.mpr (hlt j (List.mem_toFinset.mp hj))
  have hM : (U.map fun j => (1 / 2 : ℚ) ^ cs.getD j 0).sum = ∑ j ∈ U.toFinset, (1 / 2 : ℚ) ^ cs.getD j 0 := (List.sum_toFinset _ hUn).symm
  have e0 : ∑ j ∈ Finset.range 257 \ U.toFinset, (1 / 2 : ℚ) ^ cs.getD j 0 = ((Finset.range 257 \ U.toFinset).card : ℚ) := by
    rw [Finset.card_eq_sum_ones, Nat.cast_sum]
    apply Finset.sum_congr rfl
    intro j hj
    have hj' := (Finset.mem_sdiff.mp hj).2
    rw [List.mem_toFinset, hU] at hj'
    rw [not_not.mp hj', pow_zero, Nat.cast_one]
  unfold totalKraft at hz
  rw [← Finset.sum_sdiff hsub, e0, ← hM] at hz
  have hk := kraft_nat (cs := cs) (U := U) (fun j _ => h32 j)
  have hk' : (((U.map fun j => wt (cs.getD j 0)).sum : ℤ) : ℚ) = ((2 ^ 32 * (z - (Finset.range 257 \ U.toFinset).card) : ℤ) : ℚ) := by
    rw [Int.cast_natCast, hk]
    push_cast
    rw [← hz]
    ring
  have hk'' := Int.cast_injective (α := ℚ) hk'
  have : (2 ^ 32 : ℤ) ∣ (((U.map fun j => wt (cs.getD j 0)).sum : Nat) : ℤ) := ⟨_, hk''⟩
  exact_mod_cast this

theorem dropLast_only {bits : List Nat} (hpf : pf.Valid) (hl : bits.length = 33) (i : Nat) (hi : i ≤ 16) (fuel : Nat) (hf : i + 1 < fuel) : ROnly A (dropLast pf bits fuel i) := by
  induction i generalizing fuel with
  | zero =>
    obtain ⟨fuel, rfl⟩ : ∃ m, fuel = m + 2 := ⟨fuel - 2, by omega⟩
    unfold dropLast
    refine (idx_only hA _ _).bind fun b => .ite ?_ ((ckU_only hA _ _ _).bind fun _ => setIdx_only hA _ _ _)
    refine (debugAssert_only hA _ _).bind fun _ => ?_
    refine (ckUsize_only hA _ _).bind_of fun j hj => ?_
    have hj33 : bits.length ≤ j := by
      rw [hl]
      unfold ckUsize ckU at hj
      have hb : pf.wordBits = 32 ∨ pf.wordBits = 64 := by
        rcases hpf with h | h <;> simp [Platform.wordBits, h]
      rw [if_neg (by simp)] at hj
      split at hj
      · cases hj
      · cases hj
        rcases hb with hb | hb <;> rw [hb] <;> decide
    unfold dropLast
    have : idx bits j = .error (.panic .index) := by unfold idx; rw [List.getElem?_eq_none hj33]
    rw [this]
    exact .panic hA (by decide)
  | succ i ih =>
    obtain ⟨fuel, rfl⟩ : ∃ m, fuel = m + 1 := ⟨fuel - 1, by omega⟩
    unfold dropLast
    refine (idx_only hA _ _).bind fun b => .ite ?_ ((ckU_only hA _ _ _).bind fun _ => setIdx_only hA _ _ _)
    refine (debugAssert_only hA _ _).bind fun _ => ?_
    rw [ckUsize_ok hpf (by omega) (by omega)]
    simp only [ok_bind]
    have e : (((i + 1 : Nat) : Int) - 1).toNat = i := by omega
    rw [e]
    exact ih (by omega) fuel (by omega)

/-- `new_optimized` ends if at most 255 symbols are used, whatever their frequencies are. -/
theorem newOptimized_ends (hpf : pf.Valid) {freq : List Nat} (hlen : freq.length = 257) (hfew : rootCount freq ≤ 255) : ROnly A (HuffmanTable.newOptimized pf freq) := by
  unfold HuffmanTable.newOptimized
  have hroots : rootCount freq ≤ freq.length := List.countP_le_length
  have hmerge := mergeLoop_has hA (pf := pf) freq 258 (EInv.init hlen) (by omega)
  refine hmerge.1.bind_of fun cs hcs => ?_
  obtain ⟨hcl, hun, hz⟩ := hmerge.2 cs hcs
  refine (countBits_only hA cs _).bind_of fun bits hbits => ?_
  have hdep := countBits_depth (by simp) hbits
  have h32 : ∀ j, cs.getD j 0 ≤ 32 := by
    intro j
    by_cases hj : j < cs.length
    · rw [List.getD_eq_getElem?_getD, List.getElem?_eq_getElem hj, Option.getD_some]
      exact hdep _ (List.getElem_mem hj)
    · rw [List.getD_eq_getElem?_getD, List.getElem?_eq_none (by omega)]
      exact Nat.zero_le _
  obtain ⟨U, hUe⟩ : ∃ U, U = (List.range 257).filter fun j => decide (cs.getD j 0 ≠ 0) := ⟨_, rfl⟩
  have hUn : U.Nodup := hUe ▸ List.nodup_range.filter _
  have hU : ∀ j, j ∈ U ↔ cs.getD j 0 ≠ 0 := by
    intro j
    rw [hUe, List.mem_filter, List.mem_range, decide_eq_true_iff]
    exact ⟨fun hj => hj.2, fun hj => ⟨by have := lt_of_getD_ne hj; omega, hj⟩⟩
  have hUlt : ∀ j ∈ U, j < 257 := fun j hj => by have := lt_of_getD_ne ((hU j).mp hj); omega
  have hUlen : U.length ≤ 255 := by
    refine le_trans ?_ hfew
    have : rootCount freq = ((List.range 257).filter fun j => decide (freq.getD j 0 ≠ 0)).length := by
      unfold rootCount
      conv_lhs => rw [list_eq_map_getD freq, hlen]
      rw [List.countP_map, List.countP_eq_length_filter]
      rfl
    rw [this]
    refine (List.subperm_of_subset hUn fun j hj => ?_).length_le
    rw [List.mem_filter, List.mem_range, decide_eq_true_iff]
    exact ⟨hUlt j hj, fun h0 => (hU j).mp hj (hun j h0)⟩
  have hperm := filter_pos_perm hcl hUn hU
  have hlen' : (cs.filter (0 < ·)).length = U.length := by rw [hperm.length_eq, List.length_map]
  have hw0 : ∀ w, wsum w (List.replicate 33 0) = 0 := by
    intro w
    apply Finset.sum_eq_zero
    intro k hk
    rw [List.getD_eq_getElem?_getD, List.getElem?_replicate, if_pos (Finset.mem_range.mp hk), Option.getD_some, Nat.zero_mul]
  obtain ⟨bits', hb1, hb2, hb3, hb4⟩ := countBits_ok cs (List.replicate 33 0) (by simp) hdep (by rw [hw0, hlen']; omega)
  rw [hb1 pf] at hbits
  cases hbits
  have hinv : LInvK (U.map fun j => wt (cs.getD j 0)).sum U.length 32 bits := by
    refine ⟨hb2, ?_, ?_, ?_, ?_⟩
    · rw [hb3]; rfl
    · rw [hb4, hw0, List.map_const', List.sum_replicate, hlen']; simp
    · rw [hb4, hw0, Nat.zero_add, (hperm.map wt).sum_eq, List.map_map]
      rfl
    · intro k hk
      rw [List.getD_eq_getElem?_getD, List.getElem?_eq_none (by omega)]
      rfl
  obtain ⟨bits2, hl1, hl2, hl3⟩ := limitLoopK_ok (kraft_dvd hUn hU hUlt h32 hz) hUlen 16 (le_refl _) hinv
  rw [hl1 pf hpf]
  simp only [ok_bind]
  exact (dropLast_only hA hpf hl2.len 16 (le_refl _) 33 (by omega)).bind fun _ => (createLookupTable_only hA _ _).bind fun _ => .ok _

/-! ### The statistics -/

/-- Only symbols of `S` (and the reserved one) have been counted. -/
structure Counted (S f : List Nat) : Prop where
  len : f.length = 257
  syms : ∀ j, f.getD j 0 ≠ 0 → j ∈ 256 :: S

omit hA in
theorem Counted.init (S : List Nat) : Counted S initFreq :=
  ⟨initFreq_length, fun j hj => by
    rw [initFreq_getD] at hj
    split at hj
    · simp [*]
    · exact absurd rfl hj⟩

theorem bumpFreq_has {S f : List Nat} (h : Counted S f) {i : Nat} (hi : i ∈ S) (hi' : i < 257) : RHas A (Counted S) (bumpFreq pf f i) := by
  unfold bumpFreq
  rw [idx_eq_getD 0 (by rw [h.len]; exact hi')]
  simp only [ok_bind]
  refine (RHas.of_only (ckU_only hA _ _ _)).bind fun s _ => ?_
  rw [setIdx_ok (by rw [h.len]; exact hi')]
  refine .ok ⟨by simpa using h.len, fun j hj => ?_⟩
  rw [getD_set _ _ _ _ _ (by rw [h.len]; exact hi')] at hj
  split at hj
  · subst_vars; exact List.mem_cons_of_mem _ hi
  · exact h.syms j hj

theorem dcStats_has {bs : List (List Int)} (hb : ∀ b ∈ bs, GoodBlock b) {f : List Nat} (hf : Counted dcSymbols f) : RHas A (Counted dcSymbols) (dcStats pf bs f) := by
  unfold dcStats
  refine RHas.bind (P := fun s => (-1024 ≤ s.1 ∧ s.1 ≤ 1016) ∧ Counted dcSymbols s.2) (RHas.forFoldR ⟨by omega, hf⟩ ?_) fun s hs => .ok hs.2
  rintro ⟨p, f⟩ b hbm ⟨hp, hf⟩
  have hg := hb b hbm
  have hd := hg.dc
  dsimp only at hp ⊢
  have hcat : catOf (b.getD 0 0 - p) ≤ 11 := catOf_le (by omega)
  rw [idx_eq_getD 0 (by rw [hg.len]; omega)]
  simp only [ok_bind]
  rw [ckI16_ok (by omega) (by omega)]
  simp only [ok_bind]
  rw [getNumBits_eq pf _ (by omega)]
  simp only [ok_bind]
  refine (bumpFreq_has hA hf ?_ (by omega)).bind fun f' hf' => .ok ⟨hd, hf'⟩
  simp only [dcSymbols, List.mem_range]
  omega

theorem zrlStats_has (fuel z : Nat) (hfu : z / 16 < fuel) (hz : z < 256) {f : List Nat} (hf : Counted acSymbols f) :
    RHas A (fun r => r.1 = z % 16 ∧ Counted acSymbols r.2) (zrlStats pf fuel z f) := by
  induction fuel generalizing z f with
  | zero => omega
  | succ fuel ih =>
    unfold zrlStats
    by_cases h : z > 15
    · rw [if_pos h]
      refine (bumpFreq_has hA hf (by decide +kernel) (by omega)).bind fun f' hf' => ?_
      rw [ckU8_ok (by omega) (by omega)]
      simp only [ok_bind]
      have e : ((z : Int) - 16).toNat = z - 16 := by omega
      rw [e]
      refine (ih (z - 16) (by omega) (by omega) hf').mono fun r hr => ⟨?_, hr.2⟩
      rw [hr.1]
      omega
    · rw [if_neg h]
      exact .ok ⟨by dsimp only; omega, hf⟩

theorem acStatsLoop_has (l : List Int) (z : Nat) (hz : z + l.length < 256) (hl : ∀ v ∈ l, v.natAbs ≤ 1023) {f : List Nat} (hf : Counted acSymbols f) :
    RHas A (fun r => Counted acSymbols r.2) (acStatsLoop pf l z f) := by
  induction l generalizing z f with
  | nil => exact .ok hf
  | cons v vs ih =>
    rw [List.length_cons] at hz
    have hvs : ∀ v ∈ vs, v.natAbs ≤ 1023 := fun x hx => hl x (by simp [hx])
    unfold acStatsLoop
    by_cases h0 : v = 0
    · rw [if_pos h0, ckU8_ok (by omega) (by omega)]
      simp only [ok_bind]
      exact ih (z + 1) (by omega) hvs hf
    · rw [if_neg h0]
      have hva := hl v (by simp)
      have hcat : catOf v ≤ 10 := catOf_le (by omega)
      have hpos := catOf_pos h0
      refine (zrlStats_has hA 17 z (by omega) (by omega) hf).bind ?_
      rintro ⟨z', f'⟩ ⟨rfl, hf'⟩
      dsimp only at hf' ⊢
      rw [getNumBits_eq pf v (by omega)]
      simp only [ok_bind]
      have hsh : shlU pf 8 (z % 16) 4 = .ok (z % 16 * 16) := by
        unfold shlU ckShift
        rw [if_pos (by omega), ok_bind, show (Int.toNat 4) = 4 from rfl, Nat.mod_eq_of_lt (by omega)]
      have hor : z % 16 * 16 ||| catOf v = z % 16 * 16 + catOf v := by
        rw [Nat.mul_comm, ← Nat.two_pow_add_eq_or_of_lt (i := 4) (by omega)]
      rw [hsh]
      simp only [ok_bind]
      rw [hor]
      refine (bumpFreq_has hA hf' ?_ (by omega)).bind fun f'' hf'' => ih 0 (by omega) hvs hf''
      simp only [acSymbols, List.mem_cons, List.mem_flatMap, List.mem_range, List.mem_map]
      right; right
      exact ⟨z % 16, by omega, catOf v - 1, by omega, by omega⟩

theorem acStatsBlock_has {b : List Int} (hb : GoodBlock b) {r : Nat × Nat} (h1 : 1 ≤ r.1) (h2 : r.1 ≤ r.2) (h3 : r.2 ≤ 64) {f : List Nat}
    (hf : Counted acSymbols f) : RHas A (Counted acSymbols) (acStatsBlock pf r.1 r.2 b f) := by
  have hlen : ((b.drop r.1).take (r.2 - r.1)).length ≤ r.2 - r.1 := List.length_take_le _ _
  have hbl := band_le hb (r := r) h1
  unfold acStatsBlock
  have hsl : slice b r.1 r.2 = .ok ((b.drop r.1).take (r.2 - r.1)) := by
    unfold slice
    rw [if_pos ⟨h2, by rw [hb.len]; exact h3⟩]
  rw [hsl]
  simp only [ok_bind]
  refine (acStatsLoop_has hA _ 0 (by omega) hbl hf).bind ?_
  rintro ⟨z, f'⟩ hf'
  dsimp only at hf' ⊢
  split
  · exact bumpFreq_has hA hf' (by decide +kernel) (by omega)
  · exact .ok hf'

theorem acStats_has (hpf : pf.Valid) {progressive : Option UInt8} (hp : ∀ n, progressive = some n → 2 ≤ n.toNat ∧ n.toNat ≤ 64) {bs : List (List Int)}
    (hb : ∀ b ∈ bs, GoodBlock b) {f : List Nat} (hf : Counted acSymbols f) : RHas A (Counted acSymbols) (acStats pf progressive bs f) := by
  have inner : ∀ r ∈ acRanges progressive, ∀ f : List Nat, Counted acSymbols f →
      RHas A (Counted acSymbols) (forFoldR bs f (fun freq block => acStatsBlock pf r.1 r.2 block freq)) := by
    intro r hr f hf
    obtain ⟨r1, r2, r3⟩ := (acRanges_ok hp).1 r hr
    exact RHas.forFoldR hf fun s b hbm hs => acStatsBlock_has hA (hb b hbm) r1 r2 r3 hs
  cases progressive with
  | none => exact inner (1, 64) (by simp [acRanges]) f hf
  | some n =>
    obtain ⟨h2, h64⟩ := hp n rfl
    unfold acStats
    dsimp only
    rw [acBands_ok hpf h2 h64]
    simp only [ok_bind]
    refine RHas.forFoldR hf fun f r hr hf => ?_
    exact (RHas.of_only (debugAssert_only hA _ _)).bind fun _ _ => inner r hr f hf

theorem optimizeTable_ends (hpf : pf.Valid) {progressive : Option UInt8} (hp : ∀ n, progressive = some n → 2 ≤ n.toNat ∧ n.toNat ≤ 64) {cs : List Component} {blocks : Blocks} (table : Nat)
    (hb : ∀ ci ∈ cs.zipIdx, ∃ bs, blocks[ci.2]? = some bs ∧ ∀ b ∈ bs, GoodBlock b) : ROnly A (optimizeTable pf progressive cs blocks table) := by
  have hnew : ∀ {S f : List Nat}, Counted S f → S.length ≤ 254 → ROnly A (HuffmanTable.newOptimized pf f) := fun hc hl =>
    newOptimized_ends hA hpf hc.len (le_trans (rootCount_le hc.syms) (by rw [List.length_cons]; omega))
  unfold optimizeTable
  have hfold : RHas A (fun s : Bool × Bool × List Nat × List Nat => Counted dcSymbols s.2.2.1 ∧ Counted acSymbols s.2.2.2)
      (forFoldR cs.zipIdx (false, false, initFreq, initFreq) (statsComponent pf progressive blocks table)) := by
    refine RHas.forFoldR ⟨.init _, .init _⟩ ?_
    rintro s ci hci ⟨hd, ha⟩
    obtain ⟨bs, hbs, hgood⟩ := hb ci hci
    unfold statsComponent
    have hidx : idx blocks ci.2 = .ok bs := by unfold idx; rw [hbs]
    rw [hidx]
    simp only [ok_bind]
    have hac : ∀ (a c : Bool) (df af : List Nat), Counted dcSymbols df → Counted acSymbols af →
        RHas A (fun s : Bool × Bool × List Nat × List Nat => Counted dcSymbols s.2.2.1 ∧ Counted acSymbols s.2.2.2)
          (if ci.1.acHuffmanTable = table then do
            let f ← acStats pf progressive bs af
            .ok (a, true, df, f)
          else .ok (a, c, df, af)) := by
      intro a c df af hd ha
      split
      · exact (acStats_has hA hpf hp hgood ha).bind fun f hf => .ok ⟨hd, hf⟩
      · exact .ok ⟨hd, ha⟩
    split
    · exact (RHas.of_only (debugAssert_only hA _ _)).bind fun _ _ => (dcStats_has hA hgood hd).bind fun f hf => hac _ _ _ _ hf ha
    · exact hac _ _ _ _ hd ha
  refine hfold.1.bind_of fun s hs => ?_
  obtain ⟨hd, ha⟩ := hfold.2 s hs
  exact assertBind hA (assertBind hA ((hnew hd (by decide)).bind fun _ => (hnew ha (by decide +kernel)).bind fun _ => .ok _))

/-- `optimize_huffman_table` ends, whatever the image is. -/
theorem optimizeIf_ends (hpf : pf.Valid) {e : Encoder} (hp : ∀ n, e.progressiveScans = some n → 2 ≤ n.toNat ∧ n.toNat ≤ 64) {image : ImageBuffer} (hw : image.width ≠ 0) (hh : image.height ≠ 0)
    {op : Operations} {F : List Int → List Int} (hop : OpOk op F)
    {q0 q1 : QuantizationTable} {b : Blocks} (h0 : QuantizationTable.newWithQuality e.quantizationTables.1 e.quality.toNat true = .ok q0)
    (h1 : QuantizationTable.newWithQuality e.quantizationTables.2 e.quality.toNat false = .ok q1)
    (h : encodeBlocks pf { e with components := initComponents e.samplingFactor image.colorType } op image (q0, q1) = .ok b) :
    ROnly A (Encoder.optimizeIf pf { e with components := initComponents e.samplingFactor image.colorType } b) := by
  unfold Encoder.optimizeIf
  dsimp only
  split
  swap
  · exact .ok _
  obtain ⟨hg, hnc⟩ := initComponents_grid e.samplingFactor image.colorType
  rw [newWithQuality_eq] at h0 h1
  cases h0
  cases h1
  have hq : ∀ c ∈ initComponents e.samplingFactor image.colorType, c.quantizationTable < 2 := by
    cases image.colorType <;> simp [initComponents, mkComponent]
  have hb := encodeBlocks_good hop (steps_length _ _ _) (steps_length _ _ _) (steps_range _ _ _) (steps_range _ _ _) hw hh (e := { e with components := initComponents e.samplingFactor image.colorType }) hg hq h
  have hb' : ∀ ci ∈ (initComponents e.samplingFactor image.colorType).zipIdx, ∃ bs, b[ci.2]? = some bs ∧ ∀ b ∈ bs, GoodBlock b := fun ci hci => by
    obtain ⟨bs, h1, -, h3, -⟩ := hb ci hci
    exact ⟨bs, h1, h3⟩
  have key := fun table => optimizeTable_ends hA hpf hp table hb'
  unfold Encoder.optimizeHuffman
  dsimp only
  refine (key 0).bind fun _ => ?_
  split
  · exact (key 1).bind fun _ => .ok _
  · exact .ok _

end

end Jpeg
