import Verif.Proofs.Optimized
import Verif.Proofs.Tables
import Verif.Proofs.Layout
/-! The symbol statistics behind the optimised Huffman tables. -/
namespace Jpeg

/-! ### Counting symbols -/

/-- Count one symbol. -/
def bump (f : List Nat) (s : Nat) : List Nat := f.set s (f.getD s 0 + 1)
/-- Count symbols. -/
def bumpAll (f : List Nat) (l : List Nat) : List Nat := l.foldl bump f

theorem bumpAll_append (f a b : List Nat) : bumpAll f (a ++ b) = bumpAll (bumpAll f a) b := by simp [bumpAll]

@[simp] theorem bump_length (f : List Nat) (s : Nat) : (bump f s).length = f.length := by simp [bump]

@[simp] theorem bumpAll_length (f l : List Nat) : (bumpAll f l).length = f.length := by
  induction l generalizing f with
  | nil => rfl
  | cons a l ih => exact (ih (bump f a)).trans (bump_length f a)

theorem bump_sum {f : List Nat} {s : Nat} (h : s < f.length) : (bump f s).sum = f.sum + 1 := by
  have := sum_set_nat f s (f.getD s 0 + 1) h
  unfold bump
  omega

theorem bumpAll_sum {f l : List Nat} (h : ∀ s ∈ l, s < f.length) : (bumpAll f l).sum = f.sum + l.length := by
  induction l generalizing f with
  | nil => rfl
  | cons a l ih =>
    have e : bumpAll f (a :: l) = bumpAll (bump f a) l := rfl
    rw [e, ih (by intro s hs; rw [bump_length]; exact h s (by simp [hs])), bump_sum (h a (by simp)), List.length_cons]
    omega

theorem bumpAll_getD {f l : List Nat} (h : ∀ s ∈ l, s < f.length) (v : Nat) : (bumpAll f l).getD v 0 = f.getD v 0 + l.count v := by
  induction l generalizing f with
  | nil => rfl
  | cons a l ih =>
    have e : bumpAll f (a :: l) = bumpAll (bump f a) l := rfl
    rw [e, ih (by intro s hs; rw [bump_length]; exact h s (by simp [hs]))]
    unfold bump
    rw [getD_set _ _ _ _ _ (h a (by simp)), List.count_cons]
    by_cases hv : v = a
    · subst hv; simp; omega
    · have : ¬ a = v := fun e => hv e.symm
      simp [hv, this]

theorem bumpFreq_ok (pf : Platform) {f : List Nat} {s : Nat} (h : s < f.length) (hs : f.sum + 1 < 4294967296) : bumpFreq pf f s = .ok (bump f s) := by
  unfold bumpFreq
  rw [idx_eq_getD 0 h]
  simp only [ok_bind]
  have := getD_le_sum f s
  rw [ckU32_ok (by omega) (by omega)]
  simp only [ok_bind]
  have e : ((f.getD s 0 : Int) + 1).toNat = f.getD s 0 + 1 := by omega
  rw [e, setIdx_ok h]
  rfl

/-- Folding steps that count symbols. -/
theorem forFoldR_bump {α : Type} {l : List α} {body : List Nat → α → R (List Nat)} {syms : α → List Nat} {n : Nat}
    (hb : ∀ x ∈ l, ∀ f : List Nat, f.length = n → f.sum + (syms x).length < 4294967296 → body f x = .ok (bumpAll f (syms x)))
    (hlt : ∀ x ∈ l, ∀ s ∈ syms x, s < n)
    {f : List Nat} (hf : f.length = n) (hsum : f.sum + (l.flatMap syms).length < 4294967296) :
    forFoldR l f body = .ok (bumpAll f (l.flatMap syms)) := by
  induction l generalizing f with
  | nil => rfl
  | cons x xs ih =>
    rw [List.flatMap_cons, List.length_append] at hsum
    rw [forFoldR, hb x (by simp) f hf (by omega)]
    show forFoldR xs (bumpAll f (syms x)) body = _
    rw [ih (fun y hy => hb y (by simp [hy])) (fun y hy => hlt y (by simp [hy])) (by rw [bumpAll_length]; exact hf)
      (by rw [bumpAll_sum (by rw [hf]; exact hlt x (by simp))]; omega), List.flatMap_cons, bumpAll_append]

/-! ### The statistics of one component -/

/-- DC symbols of a sequence of blocks after a block with DC coefficient `p`. -/
def dcSyms : List (List Int) → Int → List Nat
  | [], _ => []
  | b :: bs, p => catOf (b.getD 0 0 - p) :: dcSyms bs (b.getD 0 0)

/-- AC symbols of the band `r.1..r.2` of a block. -/
def acSyms (r : Nat × Nat) (b : List Int) : List Nat := (acToks ((b.drop r.1).take (r.2 - r.1)) 0).map Tok.sym

/-- The blocks are those of an 8 bit image. -/
structure GoodBlock (b : List Int) : Prop where
  len : b.length = 64
  dc : -1024 ≤ b.getD 0 0 ∧ b.getD 0 0 ≤ 1016
  ac : ∀ k, 1 ≤ k → k < 64 → (b.getD k 0).natAbs ≤ 1021

theorem dcSyms_length (bs : List (List Int)) (p : Int) : (dcSyms bs p).length = bs.length := by
  induction bs generalizing p with
  | nil => rfl
  | cons b bs ih => simp [dcSyms, ih]

theorem dcSyms_mem {bs : List (List Int)} (hb : ∀ b ∈ bs, GoodBlock b) {p : Int} (hp : -1024 ≤ p ∧ p ≤ 1016) : ∀ s ∈ dcSyms bs p, s ∈ dcSymbols := by
  induction bs generalizing p with
  | nil => intro s hs; simp [dcSyms] at hs
  | cons b bs ih =>
    intro s hs
    have hd := (hb b (by simp)).dc
    rcases List.mem_cons.mp hs with rfl | hs
    · have : catOf (b.getD 0 0 - p) ≤ 11 := catOf_le (by omega)
      simp only [dcSymbols, List.mem_range]
      omega
    · exact ih (fun b hb' => hb b (by simp [hb'])) hd s hs

theorem band_le {b : List Int} (h : GoodBlock b) {r : Nat × Nat} (h1 : 1 ≤ r.1) : ∀ v ∈ (b.drop r.1).take (r.2 - r.1), v.natAbs ≤ 1023 := by
  intro v hv
  have hv := List.mem_of_mem_take hv
  obtain ⟨i, hi, rfl⟩ := List.getElem_of_mem hv
  rw [List.length_drop, h.len] at hi
  rw [List.getElem_drop]
  have := h.ac (r.1 + i) (by omega) (by omega)
  rw [List.getD_eq_getElem?_getD, List.getElem?_eq_getElem (by rw [h.len]; omega), Option.getD_some] at this
  omega

theorem acSyms_mem {b : List Int} (h : GoodBlock b) {r : Nat × Nat} (h1 : 1 ≤ r.1) : ∀ s ∈ acSyms r b, s ∈ acSymbols := by
  intro s hs
  simp only [acSyms, List.mem_map] at hs
  obtain ⟨k, hk, rfl⟩ := hs
  exact acToks_syms (band_le h h1) 0 k hk

theorem dcSymbols_lt : ∀ s ∈ dcSymbols, s < 256 := by decide
theorem acSymbols_lt : ∀ s ∈ acSymbols, s < 256 := by decide +kernel

theorem acToks_length (l : List Int) (z : Nat) : (acToks l z).length ≤ l.length + z := by
  induction l generalizing z with
  | nil =>
    unfold acToks
    split
    · simp; omega
    · simp
  | cons v vs ih =>
    unfold acToks
    split
    · have := ih (z + 1); simp only [List.length_cons]; omega
    · have := ih 0
      rw [List.length_append, List.length_replicate, List.length_cons, List.length_cons]
      omega

theorem acSyms_length (r : Nat × Nat) (b : List Int) : (acSyms r b).length ≤ r.2 - r.1 := by
  rw [acSyms, List.length_map]
  have := acToks_length ((b.drop r.1).take (r.2 - r.1)) 0
  have h2 : ((b.drop r.1).take (r.2 - r.1)).length ≤ r.2 - r.1 := List.length_take_le _ _
  omega

theorem acToks_ne_nil {l : List Int} {z : Nat} (h : l ≠ [] ∨ 0 < z) : acToks l z ≠ [] := by
  induction l generalizing z with
  | nil =>
    unfold acToks
    rw [if_pos (h.resolve_left (by simp))]
    simp
  | cons v vs ih =>
    unfold acToks
    split
    · exact ih (Or.inr (by omega))
    · simp

theorem dcStats_ok (pf : Platform) {bs : List (List Int)} (hb : ∀ b ∈ bs, GoodBlock b) {f : List Nat} (hf : f.length = 257)
    (hs : f.sum + bs.length < 4294967296) : dcStats pf bs f = .ok (bumpAll f (dcSyms bs 0)) := by
  unfold dcStats
  have key : ∀ (bs : List (List Int)) (p : Int) (f : List Nat), (∀ b ∈ bs, GoodBlock b) → (-1024 ≤ p ∧ p ≤ 1016) → f.length = 257 → f.sum + bs.length < 4294967296 →
      ∃ q, forFoldR bs (p, f) (fun s block => do
        let value ← idx block 0
        let diff ← ckI pf 16 (value - s.1)
        let n ← getNumBits pf diff
        let freq ← bumpFreq pf s.2 n
        .ok (value, freq)) = .ok (q, bumpAll f (dcSyms bs p)) := by
    intro bs
    induction bs with
    | nil => intro p f _ _ _ _; exact ⟨p, rfl⟩
    | cons b bs ih =>
      intro p f hb hp hf hs
      have hg := hb b (by simp)
      have hd := hg.dc
      have hcat : catOf (b.getD 0 0 - p) ≤ 11 := catOf_le (by omega)
      rw [List.length_cons] at hs
      obtain ⟨q, hq⟩ := ih (b.getD 0 0) (bump f (catOf (b.getD 0 0 - p))) (fun b hb' => hb b (by simp [hb'])) hd (by simpa using hf)
        (by rw [bump_sum (by omega)]; omega)
      refine ⟨q, ?_⟩
      rw [forFoldR, idx_eq_getD 0 (by rw [hg.len]; omega)]
      simp only [ok_bind]
      rw [ckI16_ok (by omega) (by omega)]
      simp only [ok_bind]
      rw [getNumBits_eq pf _ (by omega)]
      simp only [ok_bind]
      rw [bumpFreq_ok pf (by omega) (by omega)]
      simp only [ok_bind]
      exact hq
  obtain ⟨q, hq⟩ := key bs 0 f hb (by omega) hf hs
  rw [hq]
  rfl

theorem zrlStats_ok (pf : Platform) (fuel z : Nat) (hfu : z / 16 < fuel) (hz : z < 256) {f : List Nat} (hf : f.length = 257) (hs : f.sum + z / 16 < 4294967296) :
    zrlStats pf fuel z f = .ok (z % 16, bumpAll f (List.replicate (z / 16) 0xF0)) := by
  induction fuel generalizing z f with
  | zero => omega
  | succ fuel ih =>
    unfold zrlStats
    by_cases h : z > 15
    · rw [if_pos h, bumpFreq_ok pf (by omega) (by omega)]
      simp only [ok_bind]
      rw [ckU8_ok (by omega) (by omega)]
      simp only [ok_bind]
      have e : ((z : Int) - 16).toNat = z - 16 := by omega
      rw [e, ih (z - 16) (by omega) (by omega) (by simpa using hf) (by rw [bump_sum (by omega)]; omega)]
      have e1 : z / 16 = (z - 16) / 16 + 1 := by omega
      have e2 : (z - 16) % 16 = z % 16 := by omega
      rw [e1, e2, List.replicate_succ]
      rfl
    · rw [if_neg h, show z / 16 = 0 by omega, show z % 16 = z by omega]
      rfl

theorem loopToks_mem {l : List Int} {z : Nat} : ∀ k ∈ (loopToks l z).1, k ∈ acToks l z := by
  intro k hk
  rw [acToks_eq]
  exact List.mem_append_left _ hk

theorem acStatsLoop_ok (pf : Platform) (l : List Int) (z : Nat) (hz : z + l.length < 256) (hl : ∀ v ∈ l, v.natAbs ≤ 1023) {f : List Nat} (hf : f.length = 257)
    (hs : f.sum + (loopToks l z).1.length < 4294967296) :
    acStatsLoop pf l z f = .ok ((loopToks l z).2, bumpAll f ((loopToks l z).1.map Tok.sym)) := by
  induction l generalizing z f with
  | nil => rfl
  | cons v vs ih =>
    rw [List.length_cons] at hz
    have hvs : ∀ v ∈ vs, v.natAbs ≤ 1023 := fun x hx => hl x (by simp [hx])
    unfold acStatsLoop
    simp only [loopToks] at hs ⊢
    by_cases h0 : v = 0
    · rw [if_pos h0] at hs ⊢
      rw [if_pos h0, ckU8_ok (by omega) (by omega)]
      simp only [ok_bind]
      exact ih (z + 1) (by omega) hvs hf hs
    · rw [if_neg h0] at hs ⊢
      rw [if_neg h0]
      dsimp only at hs ⊢
      rw [List.length_append, List.length_replicate, List.length_cons] at hs
      have hva := hl v (by simp)
      have hcat : catOf v ≤ 10 := catOf_le (by omega)
      rw [zrlStats_ok pf 17 z (by omega) (by omega) hf (by omega)]
      simp only [ok_bind]
      rw [getNumBits_eq pf v (by omega)]
      simp only [ok_bind]
      have hsh : shlU pf 8 (z % 16) 4 = .ok (z % 16 * 16) := by
        unfold shlU ckShift
        rw [if_pos (by omega), ok_bind, show (Int.toNat 4) = 4 from rfl, Nat.mod_eq_of_lt (by omega)]
      have hor : z % 16 * 16 ||| catOf v = z % 16 * 16 + catOf v := by
        rw [Nat.mul_comm, ← Nat.two_pow_add_eq_or_of_lt (i := 4) (by omega)]
      have hrl : ∀ s ∈ List.replicate (z / 16) 0xF0, s < f.length := by
        intro s hs'
        have := (List.mem_replicate.mp hs').2
        omega
      rw [hsh]
      simp only [ok_bind]
      rw [hor, bumpFreq_ok pf (by rw [bumpAll_length]; omega) (by rw [bumpAll_sum hrl, List.length_replicate]; omega)]
      simp only [ok_bind]
      rw [ih 0 (by omega) hvs (by simpa using hf) (by
        rw [bump_sum (by rw [bumpAll_length]; omega), bumpAll_sum hrl, List.length_replicate]
        omega)]
      rw [List.map_append, List.map_cons, List.map_replicate, bumpAll_append]
      rfl

theorem acStatsBlock_ok (pf : Platform) {b : List Int} (hb : GoodBlock b) {r : Nat × Nat} (h1 : 1 ≤ r.1) (h2 : r.1 ≤ r.2) (h3 : r.2 ≤ 64) {f : List Nat}
    (hf : f.length = 257) (hs : f.sum + (acSyms r b).length < 4294967296) : acStatsBlock pf r.1 r.2 b f = .ok (bumpAll f (acSyms r b)) := by
  have hlen : ((b.drop r.1).take (r.2 - r.1)).length ≤ r.2 - r.1 := List.length_take_le _ _
  have hbl := band_le hb (r := r) h1
  have hlt : ∀ s ∈ acSyms r b, s < 257 := fun s hs => by have := acSymbols_lt s (acSyms_mem hb h1 s hs); omega
  unfold acStatsBlock
  have hsl : slice b r.1 r.2 = .ok ((b.drop r.1).take (r.2 - r.1)) := by
    unfold slice
    rw [if_pos ⟨h2, by rw [hb.len]; exact h3⟩]
  rw [hsl]
  simp only [ok_bind]
  unfold acSyms at hs hlt ⊢
  generalize (b.drop r.1).take (r.2 - r.1) = l at *
  rw [acToks_eq, List.map_append] at hs hlt ⊢
  rw [List.length_append, List.length_map] at hs
  rw [acStatsLoop_ok pf l 0 (by omega) hbl hf (by omega)]
  simp only [ok_bind]
  have hlt1 : ∀ s ∈ (loopToks l 0).1.map Tok.sym, s < f.length := fun s hs' => by have := hlt s (List.mem_append_left _ hs'); omega
  split
  · rename_i hz
    rw [if_pos hz] at hs
    rw [bumpFreq_ok pf (by rw [bumpAll_length]; omega) (by
      rw [bumpAll_sum hlt1, List.length_map]
      simp only [List.map_cons, List.map_nil, List.length_cons, List.length_nil] at hs
      omega), bumpAll_append]
    rfl
  · rw [List.map_nil, List.append_nil]

/-- The AC bands of a mode, as `start..end`. -/
def acRanges : Option UInt8 → List (Nat × Nat)
  | none => [(1, 64)]
  | some n => bandList n.toNat

/-- All AC symbols of a component. -/
def acAll (progressive : Option UInt8) (bs : List (List Int)) : List Nat := (acRanges progressive).flatMap fun r => bs.flatMap (acSyms r)

theorem bandList_sum : ∀ n, n < 65 → 2 ≤ n → ((bandList n).map fun b => b.2 - b.1).sum ≤ 63 ∧ ((bandList n).any fun b => decide (b.1 < b.2)) = true := by
  decide +kernel

theorem acRanges_ok {progressive : Option UInt8} (hp : ∀ n, progressive = some n → 2 ≤ n.toNat ∧ n.toNat ≤ 64) :
    (∀ r ∈ acRanges progressive, 1 ≤ r.1 ∧ r.1 ≤ r.2 ∧ r.2 ≤ 64) ∧ ((acRanges progressive).map fun b => b.2 - b.1).sum ≤ 63 ∧
      ∃ r ∈ acRanges progressive, r.1 < r.2 := by
  cases progressive with
  | none =>
    refine ⟨?_, by decide, (1, 64), by simp [acRanges], by decide⟩
    intro r hr
    simp only [acRanges, List.mem_singleton] at hr
    subst hr
    decide
  | some n =>
    obtain ⟨h2, h64⟩ := hp n rfl
    obtain ⟨s1, s2⟩ := bandList_sum n.toNat (by omega) h2
    refine ⟨?_, s1, ?_⟩
    · intro r hr
      simp only [acRanges, bandList, List.mem_map, List.mem_range] at hr
      obtain ⟨s, hs, rfl⟩ := hr
      have := band_ok (m := n.toNat - 1) (by omega) (by omega) hs
      exact ⟨this.1, this.2.1, this.2.2.1⟩
    · rw [List.any_eq_true] at s2
      obtain ⟨r, hr, hlt⟩ := s2
      exact ⟨r, hr, by simpa using hlt⟩

theorem flatMap_length_le {α β : Type} (l : List α) (f : α → List β) (n : Nat) (h : ∀ x ∈ l, (f x).length ≤ n) : (l.flatMap f).length ≤ l.length * n := by
  induction l with
  | nil => simp
  | cons x xs ih =>
    have := ih (fun y hy => h y (by simp [hy]))
    have := h x (by simp)
    rw [List.flatMap_cons, List.length_append, List.length_cons, Nat.add_mul]
    omega

theorem acAll_length {progressive : Option UInt8} (hp : ∀ n, progressive = some n → 2 ≤ n.toNat ∧ n.toNat ≤ 64) (bs : List (List Int)) :
    (acAll progressive bs).length ≤ 63 * bs.length := by
  have key : ∀ rs : List (Nat × Nat), (rs.flatMap fun r => bs.flatMap (acSyms r)).length ≤ (rs.map fun b => b.2 - b.1).sum * bs.length := by
    intro rs
    induction rs with
    | nil => simp
    | cons r rs ih =>
      rw [List.flatMap_cons, List.length_append, List.map_cons, List.sum_cons, Nat.add_mul]
      have := flatMap_length_le bs (acSyms r) (r.2 - r.1) (fun b _ => acSyms_length r b)
      rw [Nat.mul_comm] at this
      omega
  exact le_trans (key _) (Nat.mul_le_mul_right _ (acRanges_ok hp).2.1)

/-! #### Bound by the number of nonzero coefficients -/

def nz (l : List Int) : Nat := l.countP fun v => v ≠ 0

theorem acToks_length_nz (l : List Int) (z : Nat) : (acToks l z).length ≤ nz l + (l.length + z) / 16 + 1 := by
  induction l generalizing z with
  | nil =>
    unfold acToks
    split <;> simp
  | cons v l ih =>
    unfold acToks
    by_cases hv : v = 0
    · rw [if_pos hv]
      have := ih (z + 1)
      have e : nz (v :: l) = nz l := by simp [nz, hv]
      rw [e, List.length_cons]
      have e2 : l.length + (z + 1) = l.length + 1 + z := by omega
      rw [e2] at this
      exact this
    · rw [if_neg hv, List.length_append, List.length_replicate, List.length_cons, List.length_cons]
      have := ih 0
      have e : nz (v :: l) = nz l + 1 := by simp [nz, hv]
      rw [e]
      omega

/-- Bands in increasing order. -/
def Chained : Nat → List (Nat × Nat) → Prop
  | _, [] => True
  | s, r :: rs => s ≤ r.1 ∧ r.1 ≤ r.2 ∧ r.2 ≤ 64 ∧ Chained r.2 rs

instance decChained : (s : Nat) → (rs : List (Nat × Nat)) → Decidable (Chained s rs)
  | _, [] => isTrue trivial
  | s, r :: rs => by
    unfold Chained
    have := decChained r.2 rs
    infer_instance

theorem bandList_chained : ∀ n, n < 65 → 2 ≤ n → Chained 1 (bandList n) ∧ (bandList n).length = n - 1 := by
  decide +kernel

theorem chained_nz (b : List Int) (rs : List (Nat × Nat)) (s : Nat) (h : Chained s rs) :
    (rs.map fun r => nz ((b.drop r.1).take (r.2 - r.1))).sum ≤ nz (b.drop s) := by
  induction rs generalizing s with
  | nil => simp
  | cons r rs ih =>
    obtain ⟨h1, h2, h3, h4⟩ := h
    have := ih r.2 h4
    rw [List.map_cons, List.sum_cons]
    have e1 : b.drop s = (b.drop s).take (r.1 - s) ++ ((b.drop r.1).take (r.2 - r.1) ++ b.drop r.2) := by
      have a1 := (List.take_append_drop (r.1 - s) (b.drop s)).symm
      rw [List.drop_drop, show s + (r.1 - s) = r.1 by omega] at a1
      have a2 := (List.take_append_drop (r.2 - r.1) (b.drop r.1)).symm
      rw [List.drop_drop, show r.1 + (r.2 - r.1) = r.2 by omega] at a2
      rw [← a2]
      exact a1
    rw [e1]
    unfold nz at this ⊢
    rw [List.countP_append, List.countP_append]
    omega

/-- Number of bands. -/
def bandCount : Option UInt8 → Nat
  | none => 1
  | some n => n.toNat - 1

theorem acRanges_chained {progressive : Option UInt8} (hp : ∀ n, progressive = some n → 2 ≤ n.toNat ∧ n.toNat ≤ 64) :
    Chained 1 (acRanges progressive) ∧ (acRanges progressive).length = bandCount progressive := by
  cases progressive with
  | none => exact ⟨⟨by omega, by omega, by omega, trivial⟩, rfl⟩
  | some n =>
    obtain ⟨h2, h64⟩ := hp n rfl
    exact bandList_chained n.toNat (by omega) h2

theorem acAll_length_nz {progressive : Option UInt8} (hp : ∀ n, progressive = some n → 2 ≤ n.toNat ∧ n.toNat ≤ 64) (bs : List (List Int)) :
    (acAll progressive bs).length ≤ (bs.map fun b => nz (b.drop 1)).sum + (3 + bandCount progressive) * bs.length := by
  obtain ⟨c1, c2⟩ := acRanges_chained hp
  have h63 := (acRanges_ok hp).2.1
  rw [← c2]
  have swap : ∀ rs : List (Nat × Nat), (rs.flatMap fun r => bs.flatMap (acSyms r)).length = (bs.map fun b => (rs.map fun r => (acSyms r b).length).sum).sum := by
    intro rs
    induction rs with
    | nil => simp
    | cons r rs ih =>
      rw [List.flatMap_cons, List.length_append, ih, List.length_flatMap]
      simp only [List.map_cons, List.sum_cons]
      rw [List.sum_map_add]
  have one : ∀ b : List Int, ∀ rs : List (Nat × Nat), (rs.map fun r => (acSyms r b).length).sum ≤
      (rs.map fun r => nz ((b.drop r.1).take (r.2 - r.1))).sum + (rs.map fun r => r.2 - r.1).sum / 16 + rs.length := by
    intro b rs
    induction rs with
    | nil => simp
    | cons r rs ih =>
      simp only [List.map_cons, List.sum_cons, List.length_cons]
      have h1 : (acSyms r b).length ≤ nz ((b.drop r.1).take (r.2 - r.1)) + (r.2 - r.1) / 16 + 1 := by
        unfold acSyms
        rw [List.length_map]
        have := acToks_length_nz ((b.drop r.1).take (r.2 - r.1)) 0
        have hl : ((b.drop r.1).take (r.2 - r.1)).length ≤ r.2 - r.1 := by rw [List.length_take]; omega
        omega
      omega
  unfold acAll
  rw [swap]
  clear swap
  induction bs with
  | nil => simp
  | cons b bs ih =>
    simp only [List.map_cons, List.sum_cons, List.length_cons, Nat.mul_add, Nat.mul_one]
    have h1 := one b (acRanges progressive)
    have h2 := chained_nz b _ _ c1
    omega

theorem acAll_mem {progressive : Option UInt8} (hp : ∀ n, progressive = some n → 2 ≤ n.toNat ∧ n.toNat ≤ 64) {bs : List (List Int)} (hb : ∀ b ∈ bs, GoodBlock b) :
    ∀ s ∈ acAll progressive bs, s ∈ acSymbols := by
  intro s hs
  simp only [acAll, List.mem_flatMap] at hs
  obtain ⟨r, hr, b, hbm, hs⟩ := hs
  exact acSyms_mem (hb b hbm) ((acRanges_ok hp).1 r hr).1 s hs

theorem acAll_ne_nil {progressive : Option UInt8} (hp : ∀ n, progressive = some n → 2 ≤ n.toNat ∧ n.toNat ≤ 64) {bs : List (List Int)} (hb : ∀ b ∈ bs, GoodBlock b)
    (hne : bs ≠ []) : acAll progressive bs ≠ [] := by
  obtain ⟨h1, _, r, hr, hlt⟩ := acRanges_ok hp
  obtain ⟨b, bs', rfl⟩ := List.exists_cons_of_ne_nil hne
  have hg := hb b (by simp)
  have : acSyms r b ≠ [] := by
    unfold acSyms
    rw [ne_eq, List.map_eq_nil_iff]
    refine acToks_ne_nil (Or.inl ?_)
    have hl : ((b.drop r.1).take (r.2 - r.1)).length = r.2 - r.1 := by
      rw [List.length_take, List.length_drop, hg.len]
      have := h1 r hr
      omega
    intro he
    rw [he] at hl
    simp at hl
    omega
  obtain ⟨s, hs⟩ := List.exists_mem_of_ne_nil _ this
  apply List.ne_nil_of_mem (a := s)
  simp only [acAll, List.mem_flatMap]
  exact ⟨r, hr, b, by simp, hs⟩

theorem acStats_ok {pf : Platform} (hpf : pf.Valid) {progressive : Option UInt8} (hp : ∀ n, progressive = some n → 2 ≤ n.toNat ∧ n.toNat ≤ 64) {bs : List (List Int)}
    (hb : ∀ b ∈ bs, GoodBlock b) (hne : bs ≠ []) {f : List Nat} (hf : f.length = 257) (hs : f.sum + (acAll progressive bs).length < 4294967296) :
    acStats pf progressive bs f = .ok (bumpAll f (acAll progressive bs)) := by
  have inner : ∀ r ∈ acRanges progressive, ∀ f : List Nat, f.length = 257 → f.sum + (bs.flatMap (acSyms r)).length < 4294967296 →
      forFoldR bs f (fun freq block => acStatsBlock pf r.1 r.2 block freq) = .ok (bumpAll f (bs.flatMap (acSyms r))) := by
    intro r hr f hf hs
    obtain ⟨r1, r2, r3⟩ := (acRanges_ok hp).1 r hr
    exact forFoldR_bump (n := 257) (fun b hbm f hf hs => acStatsBlock_ok pf (hb b hbm) r1 r2 r3 hf hs)
      (fun b hbm s hs => by have := acSymbols_lt s (acSyms_mem (hb b hbm) r1 s hs); omega) hf hs
  cases progressive with
  | none =>
    have e : acAll none bs = bs.flatMap (acSyms (1, 64)) := by simp [acAll, acRanges]
    rw [e] at hs ⊢
    exact inner (1, 64) (by simp [acRanges]) f hf hs
  | some n =>
    obtain ⟨h2, h64⟩ := hp n rfl
    unfold acStats
    dsimp only
    rw [acBands_ok hpf h2 h64]
    simp only [ok_bind]
    refine forFoldR_bump (n := 257) (syms := fun r => bs.flatMap (acSyms r)) ?_ ?_ hf hs
    · intro r hr f hf hs
      have hemp : bs.isEmpty = false := by cases bs with
        | nil => exact absurd rfl hne
        | cons _ _ => rfl
      rw [hemp]
      simp only [Bool.not_false, debugAssert_true, ok_bind]
      exact inner r hr f hf hs
    · intro r hr s hs
      simp only [List.mem_flatMap] at hs
      obtain ⟨b, hbm, hs⟩ := hs
      have := acSymbols_lt s (acSyms_mem (hb b hbm) ((acRanges_ok hp).1 r hr).1 s hs)
      omega

end Jpeg
