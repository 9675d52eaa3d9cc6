import Verif.Proofs.AnyImage
/-! What a debug build that got through a scan has shown. -/
namespace Jpeg
open _root_.Spec

/-! ### Symbols that were written have a code -/

theorem debugAssert_inv {pf : Platform} (hc : pf.checked = true) {b : Bool} {u : Unit} (h : debugAssert pf b = .ok u) : b = true := by
  unfold debugAssert at h
  cases b with
  | true => rfl
  | false => rw [hc] at h; simp at h

theorem getForValue_inv {pf : Platform} (hc : pf.checked = true) {t : HuffmanTable} (ht : TableOk t) {v : Nat} {r : Nat × Nat} (hv : v < 256)
    (h : t.getForValue pf v = .ok r) : v ∈ t.values := by
  by_contra hn
  unfold HuffmanTable.getForValue at h
  obtain ⟨a, h1, h⟩ := bind_inv h
  obtain ⟨_, h2, h⟩ := bind_inv h
  have h3 := debugAssert_inv hc h2
  rw [idx, ht.none v hv hn] at h1
  obtain rfl := Except.ok.inj h1
  simp at h3

theorem writeDc_inv {pf : Platform} (hc : pf.checked = true) {t : HuffmanTable} (ht : TableOk t) {v p : Int} (hd : (v - p).natAbs ≤ 16383)
    {s s' : BitState} {o : Bytes} {u : Unit} (h : Emits (writeDc pf v p t) s o u s') : catOf (v - p) ∈ t.values := by
  unfold writeDc at h
  obtain ⟨d, h1, h⟩ := Emits.lift_bind_inv h
  rw [ckI16_ok (by omega) (by omega)] at h1
  obtain rfl := Except.ok.inj h1
  obtain ⟨d, h1, h⟩ := Emits.lift_bind_inv h
  rw [getCode_eq pf _ hd] at h1
  obtain rfl := Except.ok.inj h1
  unfold huffmanEncodeValue at h
  obtain ⟨r, h1, -⟩ := Emits.lift_bind_inv h
  exact getForValue_inv hc ht (Nat.lt_of_le_of_lt (bitLen_le (show _ < 2 ^ 14 by omega)) (by omega)) h1

/-! ### The first block after every restart is coded without a prediction -/

theorem Emits.forEach_inv {α : Type} {l : List α} {body : α → WM Unit} {s s' : BitState} {o : Bytes} {u : Unit} (h : Emits (WM.forEach l body) s o u s') :
    ∀ x ∈ l, ∃ s o s', Emits (body x) s o () s' := by
  induction l generalizing s o with
  | nil => simp
  | cons y l ih =>
    obtain ⟨o1, a1, s1, o2, h1, h2, -⟩ := Emits.bind_inv h
    intro x hx
    rcases List.mem_cons.mp hx with rfl | hx
    · exact ⟨_, _, _, h1⟩
    · exact ih h2 x hx

theorem scanLoop_restarts {α σ : Type} {pf : Platform} {n : Nat} (hn : 0 < n) (h16 : n < 65536) {reset : σ → σ} {body : α → σ → WM σ} {xs : List α}
    {a b : Rst × σ} {s s' : BitState} {o : Bytes} (hg : a.1.toGo ≤ n) (h : Emits (scanLoop pf n reset body xs a) s o b s') :
    ∀ k x, xs[a.1.toGo + k * n]? = some x → ∃ s0 s o b s', Emits (body x (reset s0)) s o b s' := by
  induction xs generalizing a s o with
  | nil => simp
  | cons y xs ih =>
    obtain ⟨o1, a1, s1, o2, h1, h2, -⟩ := Emits.bind_inv h
    obtain ⟨_, s2, t2, _, g1, g2, -⟩ := Emits.bind_inv h1
    obtain ⟨_, s3, t3, _, g3, g4, -⟩ := Emits.bind_inv g2
    obtain ⟨rst, g5, g6⟩ := Emits.lift_bind_inv g4
    obtain ⟨-, hs, -⟩ := Emits.unique (Emits.pure (rst, s3) _) g6
    subst hs
    intro k x hx
    by_cases hz : a.1.toGo = 0
    · unfold restartBefore at g1
      rw [if_pos ⟨hn, hz⟩] at g1
      obtain ⟨_, _, _, _, -, e1, -⟩ := Emits.bind_inv g1
      obtain ⟨_, _, _, _, -, e2, -⟩ := Emits.bind_inv e1
      obtain ⟨-, hs, -⟩ := Emits.unique (Emits.pure (reset a.2) _) e2
      subst hs
      unfold restartAfter at g5
      rw [if_pos hn, if_pos hz, ckU16_ok (by omega) (by omega)] at g5
      obtain rfl := Except.ok.inj g5
      rw [hz, Nat.zero_add] at hx
      cases k with
      | zero =>
        rw [Nat.zero_mul] at hx
        obtain rfl := Option.some.inj hx
        exact ⟨_, _, _, _, _, g3⟩
      | succ k =>
        refine ih (a := (⟨_, ((n : Int) - 1).toNat⟩, s3)) (by dsimp only; omega) h2 k x ?_
        have : (k + 1) * n = ((n : Int) - 1).toNat + k * n + 1 := by rw [Nat.succ_mul]; omega
        rw [this, List.getElem?_cons_succ] at hx
        exact hx
    · unfold restartAfter at g5
      rw [if_pos hn, if_neg hz, ckU16_ok (by omega) (by omega)] at g5
      obtain rfl := Except.ok.inj g5
      refine ih (a := (⟨_, ((a.1.toGo : Int) - 1).toNat⟩, s3)) (by dsimp only; omega) h2 k x ?_
      have : a.1.toGo + k * n = ((a.1.toGo : Int) - 1).toNat + k * n + 1 := by omega
      rw [this, List.getElem?_cons_succ] at hx
      exact hx

/-- In a scan, the blocks at the multiples of the restart interval are coded from the initial prediction. -/
theorem scanLoop_starts {α σ : Type} {pf : Platform} {n : Nat} (hn : 0 < n) (h16 : n < 65536) {reset : σ → σ} {body : α → σ → WM σ} {xs : List α} {s0 : σ}
    {b : Rst × σ} {s s' : BitState} {o : Bytes} (h : Emits (scanLoop pf n reset body xs (⟨0, n⟩, s0)) s o b s') :
    ∀ j x, xs[j * n]? = some x → (∃ s o b s', Emits (body x s0) s o b s') ∨ ∃ s1 s o b s', Emits (body x (reset s1)) s o b s' := by
  intro j x hx
  cases j with
  | zero =>
    left
    rw [Nat.zero_mul] at hx
    cases xs with
    | nil => simp at hx
    | cons y xs =>
      obtain rfl := Option.some.inj hx
      obtain ⟨o1, a1, s1, o2, h1, h2, -⟩ := Emits.bind_inv h
      obtain ⟨_, s2, t2, _, g1, g2, -⟩ := Emits.bind_inv h1
      obtain ⟨_, s3, t3, _, g3, g4, -⟩ := Emits.bind_inv g2
      unfold restartBefore at g1
      rw [if_neg (by dsimp only; omega)] at g1
      obtain ⟨-, hs, -⟩ := Emits.unique (Emits.pure s0 _) g1
      subst hs
      exact ⟨_, _, _, _, g3⟩
  | succ j =>
    right
    refine scanLoop_restarts hn h16 (Nat.le_refl _) h j x ?_
    rw [Nat.succ_mul, Nat.add_comm] at hx
    exact hx

section
variable {pf : Platform} (hc : pf.checked = true) {e : Encoder} (hn : 0 < e.interval) {blocks : Blocks} {c : Component} {i : Nat} (hdc : c.dcHuffmanTable < 2)
  (ht : TableOk (tabOf e.huffmanTables c.dcHuffmanTable).dc) {bs : List (List Int)} (hbs : blocks[i]? = some bs) {s s' : BitState} {o : Bytes} {u : Unit}
include hc hn hdc ht hbs

theorem sequentialScan_inv (h : Emits (sequentialScan pf e blocks (c, i)) s o u s') (j : Nat) {b : List Int} (hb : bs[j * e.interval]? = some b)
    (hl : b.length = 64) (hd : (b.getD 0 0).natAbs ≤ 16383) : catOf (b.getD 0 0) ∈ (tabOf e.huffmanTables c.dcHuffmanTable).dc.values := by
  unfold sequentialScan at h
  obtain ⟨_, _, _, _, -, h, -⟩ := Emits.bind_inv h
  obtain ⟨bs', h1, h⟩ := Emits.lift_bind_inv h
  unfold idx at h1
  rw [hbs] at h1
  obtain rfl := Except.ok.inj h1
  obtain ⟨_, _, _, _, h, -, -⟩ := Emits.bind_inv h
  have key : ∃ s o b' s', Emits (writeDc pf (b.getD 0 0) 0 (tabOf e.huffmanTables c.dcHuffmanTable).dc) s o b' s' := by
    have inv : ∀ {s o b' s'}, Emits (WM.lift (pairIdx e.huffmanTables c.dcHuffmanTable) >>= fun dct => WM.lift (pairIdx e.huffmanTables c.acHuffmanTable) >>= fun act =>
        writeBlock pf b 0 dct.dc act.ac >>= fun _ => WM.lift (idx b 0)) s o b' s' →
        ∃ s o b' s', Emits (writeDc pf (b.getD 0 0) 0 (tabOf e.huffmanTables c.dcHuffmanTable).dc) s o b' s' := by
      intro s o b' s' h
      obtain ⟨_, h1, h⟩ := Emits.lift_bind_inv h
      rw [pairIdx_tab e.huffmanTables hdc] at h1
      obtain rfl := Except.ok.inj h1
      obtain ⟨_, h1, h⟩ := Emits.lift_bind_inv h
      obtain ⟨_, _, _, _, h, -, -⟩ := Emits.bind_inv h
      unfold writeBlock at h
      obtain ⟨_, h2, h⟩ := Emits.lift_bind_inv h
      rw [idx_eq_getD 0 (by omega)] at h2
      obtain rfl := Except.ok.inj h2
      obtain ⟨_, _, _, _, h, -, -⟩ := Emits.bind_inv h
      exact ⟨_, _, _, _, h⟩
    rcases scanLoop_starts hn (interval_lt e) h j b hb with ⟨_, _, _, _, h⟩ | ⟨_, _, _, _, _, h⟩
    · exact inv h
    · exact inv h
  obtain ⟨_, _, _, _, key⟩ := key
  have := writeDc_inv hc ht (by omega) key
  rwa [Int.sub_zero] at this

theorem dcScan_inv (h : Emits (dcScan pf e blocks (c, i)) s o u s') (j : Nat) {b : List Int} (hb : bs[j * e.interval]? = some b)
    (hl : b.length = 64) (hd : (b.getD 0 0).natAbs ≤ 16383) : catOf (b.getD 0 0) ∈ (tabOf e.huffmanTables c.dcHuffmanTable).dc.values := by
  unfold dcScan at h
  obtain ⟨_, _, _, _, -, h, -⟩ := Emits.bind_inv h
  obtain ⟨bs', h1, h⟩ := Emits.lift_bind_inv h
  unfold idx at h1
  rw [hbs] at h1
  obtain rfl := Except.ok.inj h1
  obtain ⟨_, _, _, _, h, -, -⟩ := Emits.bind_inv h
  have key : ∃ s o b' s', Emits (writeDc pf (b.getD 0 0) 0 (tabOf e.huffmanTables c.dcHuffmanTable).dc) s o b' s' := by
    have inv : ∀ {s o b' s'}, Emits (WM.lift (idx b 0) >>= fun dc => WM.lift (pairIdx e.huffmanTables c.dcHuffmanTable) >>= fun dct =>
        writeDc pf dc 0 dct.dc >>= fun _ => WM.pure dc) s o b' s' →
        ∃ s o b' s', Emits (writeDc pf (b.getD 0 0) 0 (tabOf e.huffmanTables c.dcHuffmanTable).dc) s o b' s' := by
      intro s o b' s' h
      obtain ⟨_, h2, h⟩ := Emits.lift_bind_inv h
      rw [idx_eq_getD 0 (by omega)] at h2
      obtain rfl := Except.ok.inj h2
      obtain ⟨_, h1, h⟩ := Emits.lift_bind_inv h
      rw [pairIdx_tab e.huffmanTables hdc] at h1
      obtain rfl := Except.ok.inj h1
      obtain ⟨_, _, _, _, h, -, -⟩ := Emits.bind_inv h
      exact ⟨_, _, _, _, h⟩
    rcases scanLoop_starts hn (interval_lt e) h j b hb with ⟨_, _, _, _, h⟩ | ⟨_, _, _, _, _, h⟩
    · exact inv h
    · exact inv h
  obtain ⟨_, _, _, _, key⟩ := key
  have := writeDc_inv hc ht (by omega) key
  rwa [Int.sub_zero] at this
end

/-! ### Counters that did not overflow -/

theorem ckU_inv {pf : Platform} (hc : pf.checked = true) {bits : Nat} {v : Int} {n : Nat} (h : ckU pf bits v = .ok n) :
    0 ≤ v ∧ v < (2 : Int) ^ bits ∧ (n : Int) = v := by
  unfold ckU at h
  split at h
  · rename_i hv
    obtain rfl := Except.ok.inj h
    exact ⟨hv.1, hv.2, Int.toNat_of_nonneg hv.1⟩
  · simp [hc] at h

theorem idx_inv {l : List Nat} {i n : Nat} (h : idx l i = .ok n) : i < l.length ∧ n = l.getD i 0 := by
  by_cases hi : i < l.length
  · rw [idx_eq_getD 0 hi] at h
    exact ⟨hi, (Except.ok.inj h).symm⟩
  · unfold idx at h
    rw [List.getElem?_eq_none (by omega)] at h
    simp at h

/-- `f'` is `f` after counting `n` symbols, and all counters fit into 32 bits. -/
structure TallyIs (f f' : List Nat) (n : Nat) : Prop where
  sum : f'.sum = f.sum + n
  fits : (∀ x ∈ f, x < 4294967296) → ∀ x ∈ f', x < 4294967296

theorem TallyIs.refl (f : List Nat) : TallyIs f f 0 := ⟨rfl, fun h => h⟩
theorem TallyIs.trans {f g k : List Nat} {m n : Nat} (h1 : TallyIs f g m) (h2 : TallyIs g k n) : TallyIs f k (m + n) :=
  ⟨by rw [h2.sum, h1.sum, Nat.add_assoc], fun h => h2.fits (h1.fits h)⟩

section
variable {pf : Platform} (hc : pf.checked = true)
include hc

theorem bumpFreq_counted {f f' : List Nat} {i : Nat} (h : bumpFreq pf f i = .ok f') : TallyIs f f' 1 := by
  unfold bumpFreq at h
  obtain ⟨a, h1, h'⟩ := bind_inv h
  clear h
  obtain ⟨hi, rfl⟩ := idx_inv h1
  obtain ⟨b, h2, h⟩ := bind_inv h'
  obtain ⟨-, g2, g3⟩ := ckU_inv hc h2
  rw [setIdx_ok hi] at h
  obtain rfl := Except.ok.inj h
  have := sum_set_nat f i b hi
  refine ⟨by omega, fun hf x hx => ?_⟩
  rcases List.mem_or_eq_of_mem_set hx with hx | rfl
  · exact hf x hx
  · have : (2 : Int) ^ 32 = 4294967296 := by decide
    omega

theorem zrlStats_counted (fuel z : Nat) {f : List Nat} {r : Nat × List Nat} (h : zrlStats pf fuel z f = .ok r) :
    r.1 = z % 16 ∧ TallyIs f r.2 (z / 16) := by
  induction fuel generalizing z f with
  | zero => simp [zrlStats] at h
  | succ fuel ih =>
    unfold zrlStats at h
    split at h
    · obtain ⟨f1, h1, h⟩ := bind_inv h
      obtain ⟨z1, h2, h⟩ := bind_inv h
      obtain ⟨g1, g2, g3⟩ := ckU_inv hc h2
      obtain ⟨e1, e2⟩ := ih z1 h
      refine ⟨by omega, ?_⟩
      have := (bumpFreq_counted hc h1).trans e2
      rwa [show 1 + z1 / 16 = z / 16 by omega] at this
    · obtain rfl := Except.ok.inj h
      rw [show z / 16 = 0 by omega]
      exact ⟨by dsimp only; omega, .refl f⟩

theorem acStatsLoop_counted (l : List Int) (z : Nat) {f : List Nat} {r : Nat × List Nat} (h : acStatsLoop pf l z f = .ok r) :
    r.1 = (loopToks l z).2 ∧ TallyIs f r.2 (loopToks l z).1.length := by
  induction l generalizing z f with
  | nil =>
    obtain rfl := Except.ok.inj h
    exact ⟨rfl, .refl f⟩
  | cons v vs ih =>
    unfold acStatsLoop at h
    unfold loopToks
    by_cases h0 : v = 0
    · rw [if_pos h0] at h ⊢
      obtain ⟨z1, h2, h⟩ := bind_inv h
      obtain ⟨g1, g2, g3⟩ := ckU_inv hc h2
      obtain rfl : z1 = z + 1 := by omega
      exact ih _ h
    · rw [if_neg h0] at h ⊢
      obtain ⟨r1, h1, h⟩ := bind_inv h
      obtain ⟨n, -, h⟩ := bind_inv h
      obtain ⟨hi, -, h⟩ := bind_inv h
      obtain ⟨f2, h2, h⟩ := bind_inv h
      obtain ⟨e1, e2⟩ := zrlStats_counted hc _ _ h1
      obtain ⟨e3, e4⟩ := ih 0 h
      refine ⟨e3, ?_⟩
      have := (e2.trans (bumpFreq_counted hc h2)).trans e4
      rw [List.length_append, List.length_replicate, List.length_cons]
      rwa [Nat.add_assoc, Nat.add_comm 1] at this

theorem acStatsBlock_counted {a b : Nat} {bl : List Int} {f f' : List Nat} (h : acStatsBlock pf a b bl f = .ok f') :
    TallyIs f f' (acSyms (a, b) bl).length := by
  unfold acStatsBlock at h
  obtain ⟨l, h1, h'⟩ := bind_inv h
  clear h
  unfold slice at h1
  split at h1
  · obtain rfl := Except.ok.inj h1
    obtain ⟨r, h2, h⟩ := bind_inv h'
    obtain ⟨e1, e2⟩ := acStatsLoop_counted hc _ _ h2
    unfold acSyms
    rw [List.length_map, acToks_eq, List.length_append, ← e1]
    dsimp only at h ⊢
    split at h
    · rename_i hz
      rw [if_pos hz]
      exact e2.trans (bumpFreq_counted hc h)
    · rename_i hz
      rw [if_neg hz]
      obtain rfl := Except.ok.inj h
      exact e2
  · simp at h1

omit hc in
theorem forFoldR_counted {α : Type} {l : List α} {body : List Nat → α → R (List Nat)} {len : α → Nat}
    (hb : ∀ x ∈ l, ∀ f f' : List Nat, body f x = .ok f' → TallyIs f f' (len x)) {f f' : List Nat} (h : forFoldR l f body = .ok f') :
    TallyIs f f' (l.map len).sum := by
  induction l generalizing f with
  | nil =>
    obtain rfl := Except.ok.inj h
    exact .refl f
  | cons x xs ih =>
    obtain ⟨f1, h1, h2⟩ := bind_inv (show (body f x >>= fun s => forFoldR xs s body) = .ok f' from h)
    rw [List.map_cons, List.sum_cons]
    exact (hb x (by simp) _ _ h1).trans (ih (fun y hy => hb y (by simp [hy])) h2)

theorem acStats_counted (hpf : pf.Valid) {progressive : Option UInt8} (hp : ∀ n, progressive = some n → 2 ≤ n.toNat ∧ n.toNat ≤ 64) {bs : List (List Int)}
    {f f' : List Nat} (h : acStats pf progressive bs f = .ok f') : TallyIs f f' (acAll progressive bs).length := by
  have inner : ∀ (r : Nat × Nat) (f f' : List Nat), forFoldR bs f (fun freq block => acStatsBlock pf r.1 r.2 block freq) = .ok f' →
      TallyIs f f' (bs.flatMap (acSyms r)).length := by
    intro r f f' h
    rw [List.length_flatMap]
    exact forFoldR_counted (fun b _ f f' h => acStatsBlock_counted hc h) h
  cases progressive with
  | none =>
    have e : acAll none bs = bs.flatMap (acSyms (1, 64)) := by simp [acAll, acRanges]
    rw [e]
    exact inner (1, 64) f f' h
  | some n =>
    obtain ⟨h2, h64⟩ := hp n rfl
    unfold acStats at h
    dsimp only at h
    rw [acBands_ok hpf h2 h64] at h
    simp only [ok_bind] at h
    unfold acAll
    rw [List.length_flatMap]
    refine forFoldR_counted (fun r _ f f' h => ?_) h
    obtain ⟨_, -, h⟩ := bind_inv h
    exact inner r f f' h

theorem statsFold_counted (hpf : pf.Valid) {progressive : Option UInt8} (hp : ∀ n, progressive = some n → 2 ≤ n.toNat ∧ n.toNat ≤ 64) {blocks : Blocks} {table : Nat}
    (l : List (Component × Nat)) {s r : Bool × Bool × List Nat × List Nat} (h : forFoldR l s (statsComponent pf progressive blocks table) = .ok r) :
    TallyIs s.2.2.2 r.2.2.2 (l.flatMap (acOf progressive table blocks)).length := by
  induction l generalizing s with
  | nil =>
    obtain rfl := Except.ok.inj h
    exact .refl _
  | cons ci l ih =>
    obtain ⟨s1, h1, h2⟩ := bind_inv (show (statsComponent pf progressive blocks table s ci >>= fun s => forFoldR l s _) = .ok r from h)
    rw [List.flatMap_cons, List.length_append]
    refine TallyIs.trans ?_ (ih h2)
    unfold statsComponent at h1
    obtain ⟨bs, g1, h1⟩ := bind_inv h1
    have hget : blocks.getD ci.2 [] = bs := by
      unfold idx at g1
      rw [List.getD_eq_getElem?_getD]
      cases hb : blocks[ci.2]? with
      | none => rw [hb] at g1; simp at g1
      | some x => rw [hb] at g1; exact Except.ok.inj g1
    have fin : ∀ s2 : Bool × Bool × List Nat × List Nat, s2.2.2.2 = s.2.2.2 → (if ci.1.acHuffmanTable = table then do
        let f ← acStats pf progressive bs s2.2.2.2
        .ok (s2.1, true, s2.2.2.1, f)
      else .ok s2) = .ok s1 → TallyIs s.2.2.2 s1.2.2.2 (acOf progressive table blocks ci).length := by
      intro s2 hs2 h1
      unfold acOf
      split at h1
      · rename_i ht
        rw [if_pos ht, hget, ← hs2]
        obtain ⟨f, g3, h1⟩ := bind_inv h1
        obtain rfl := Except.ok.inj h1
        exact acStats_counted hc hpf hp g3
      · rename_i ht
        rw [if_neg ht, ← hs2]
        obtain rfl := Except.ok.inj h1
        exact .refl _
    dsimp only at h1
    split at h1
    · obtain ⟨_, -, h1⟩ := bind_inv h1
      obtain ⟨f, -, h1⟩ := bind_inv h1
      exact fin (true, s.2.1, f, s.2.2.2) rfl h1
    · exact fin s rfl h1

omit hc in
theorem sum_single {l : List Nat} {v : Nat} (h : ∀ u, l.getD u 0 ≠ 0 → u = v) : l.sum = l.getD v 0 := by
  by_cases hv : v < l.length
  · have h1 := sum_set_nat l v 0 hv
    have h2 : (l.set v 0).sum = 0 := by
      rw [List.sum_eq_zero_iff_forall_eq_nat]
      intro x hx
      obtain ⟨i, hi, rfl⟩ := List.getElem_of_mem hx
      have : (l.set v 0).getD i 0 = 0 := by
        rw [getD_set _ _ _ _ _ hv]
        split
        · rfl
        · rename_i hne
          by_contra h0
          exact hne (h i h0)
      rwa [List.getD_eq_getElem?_getD, List.getElem?_eq_getElem hi] at this
    omega
  · have : l.sum = 0 := by
      rw [List.sum_eq_zero_iff_forall_eq_nat]
      intro x hx
      obtain ⟨i, hi, rfl⟩ := List.getElem_of_mem hx
      by_contra h0
      have := h i (by rw [List.getD_eq_getElem?_getD, List.getElem?_eq_getElem hi]; exact h0)
      omega
    rw [this, List.getD_eq_getElem?_getD, List.getElem?_eq_none (by omega)]
    rfl

omit hc in
theorem findMin_none' {freq : List Nat} (hs : ∀ x ∈ freq, x < 4294967296) {skip : Option Nat} (h : (findMin skip freq 0 (4294967295, none)).2 = none) :
    ∀ v, freq.getD v 0 ≠ 0 → some v = skip := by
  intro v hv
  have hl := lt_of_getD_ne hv
  by_contra hne
  rcases findMin_spec skip freq 0 (4294967295, none) with ⟨_, h2⟩ | ⟨k, _, h1, _⟩
  · have h3 := h2 v hl (by omega) (by rw [Nat.zero_add]; exact hne)
    have h4 : freq.getD v 0 < 4294967296 := by
      rw [List.getD_eq_getElem?_getD, List.getElem?_eq_getElem hl]
      exact hs _ (List.getElem_mem hl)
    dsimp only at *
    omega
  · rw [h1] at h; cases h

/-- The merge loop adds up all the counters. -/
theorem mergeLoop_total (fuel : Nat) {freq : List Nat} {others : List Int} {cs cs' : List Nat} (hf : ∀ x ∈ freq, x < 4294967296)
    (h : mergeLoop pf fuel freq others cs = .ok cs') : freq.sum < 4294967296 := by
  have single : ∀ v, (∀ u, freq.getD u 0 ≠ 0 → u = v) → freq.sum < 4294967296 := by
    intro v hv
    rw [sum_single hv, List.getD_eq_getElem?_getD]
    cases hx : freq[v]? with
    | none => simp
    | some x => exact hf x (List.mem_of_getElem? hx)
  induction fuel generalizing freq others cs with
  | zero => simp [mergeLoop] at h
  | succ fuel ih =>
    unfold mergeLoop at h
    cases e1 : (findMin none freq 0 (4294967295, none)).2 with
    | none => exact single 0 fun u hu => by have := findMin_none' hf e1 u hu; cases this
    | some v1 =>
      rw [e1] at h
      dsimp only at h
      cases e2 : (findMin (some v1) freq 0 (4294967295, none)).2 with
      | none => exact single v1 fun u hu => Option.some.inj (findMin_none' hf e2 u hu)
      | some v2 =>
        rw [e2] at h
        dsimp only at h
        obtain ⟨h2, hne, -⟩ := findMin_some e2
        obtain ⟨f1, a1, h⟩ := bind_inv h
        obtain ⟨f2, a2, h⟩ := bind_inv h
        obtain ⟨s, a3, h⟩ := bind_inv h
        obtain ⟨q1, a4, h⟩ := bind_inv h
        obtain ⟨q2, a5, h⟩ := bind_inv h
        obtain ⟨_, -, h⟩ := bind_inv h
        obtain ⟨_, -, h⟩ := bind_inv h
        obtain ⟨_, -, h⟩ := bind_inv h
        obtain ⟨l1, rfl⟩ := idx_inv a1
        obtain ⟨l2, rfl⟩ := idx_inv a2
        obtain ⟨-, b1, b2⟩ := ckU_inv hc a3
        rw [setIdx_ok l1] at a4
        obtain rfl := Except.ok.inj a4
        rw [setIdx_ok (by simpa using l2)] at a5
        obtain rfl := Except.ok.inj a5
        have c1 := sum_set_nat freq v1 s l1
        have c2 := sum_set_nat (freq.set v1 s) v2 0 (by simpa using l2)
        rw [getD_set _ _ _ _ _ l1, if_neg (fun e => hne (by rw [e]))] at c2
        have hf' : ∀ x ∈ (freq.set v1 s).set v2 0, x < 4294967296 := by
          intro x hx
          rcases List.mem_or_eq_of_mem_set hx with hx | rfl
          · rcases List.mem_or_eq_of_mem_set hx with hx | rfl
            · exact hf x hx
            · have : (2 : Int) ^ 32 = 4294967296 := by decide
              omega
          · omega
        have := ih hf' h (fun v hv => by
          rw [sum_single hv, List.getD_eq_getElem?_getD]
          cases hx : ((freq.set v1 s).set v2 0)[v]? with
          | none => simp
          | some x => exact hf' x (List.mem_of_getElem? hx))
        omega

/-- A debug build that made optimised tables counted fewer than 2^32 - 1 symbols. -/
theorem optimizeTable_total (hpf : pf.Valid) {progressive : Option UInt8} (hp : ∀ n, progressive = some n → 2 ≤ n.toNat ∧ n.toNat ≤ 64)
    {cs : List Component} {blocks : Blocks} {table : Nat} {p : HuffPair} (h : optimizeTable pf progressive cs blocks table = .ok p) :
    (cs.zipIdx.flatMap (acOf progressive table blocks)).length < 4294967295 := by
  unfold optimizeTable at h
  obtain ⟨s, h1, h⟩ := bind_inv h
  obtain ⟨_, -, h⟩ := bind_inv h
  obtain ⟨_, -, h⟩ := bind_inv h
  obtain ⟨_, -, h⟩ := bind_inv h
  obtain ⟨t, h2, -⟩ := bind_inv h
  have hcnt := statsFold_counted hc hpf hp _ h1
  unfold HuffmanTable.newOptimized at h2
  obtain ⟨_, h3, -⟩ := bind_inv h2
  have h4 := mergeLoop_total hc 258 (hcnt.fits (by
    intro x hx
    dsimp only at hx
    unfold initFreq at hx
    rcases List.mem_append.mp hx with hx | hx
    · rw [(List.mem_replicate.mp hx).2]; omega
    · rw [List.mem_singleton.mp hx]; omega)) h3
  have h5 := hcnt.sum
  dsimp only at h5
  rw [initFreq_sum] at h5
  omega
end

/-- In a debug build, optimised tables code the blocks whenever the scans with the DC values were written. -/
theorem optimizesWell_checked {pf : Platform} (hpf : pf.Valid) (hc : pf.checked = true) {e : Encoder} (hwf : e.Wf) (ho : e.optimizeHuffmanTable = true)
    {ct : JpegColorType} {w h : UInt16} (hw : w ≠ 0) (hh : h ≠ 0) : OptimizesWell pf e ct w h := by
  intro blocks E hE hbl e' he'
  obtain ⟨hg, hnc⟩ := initComponents_grid e.samplingFactor ct
  have hsz := countsOk_made hpf hwf ho hw hh hE hbl he' fun t p hp => optimizeTable_total hc hpf hwf.scans hp
  obtain ⟨t, h1, h2, h3⟩ := optimized_of hwf hE hbl hw hh ho hsz
  have he2 := he'
  rw [h1 pf hpf] at he2
  refine ⟨t, (Except.ok.inj he2).symm, h2, fun hdw => ?_⟩
  have hcounted := dcCounted_of hE hbl hw hh
  have htab := init_tables e.samplingFactor ct
  obtain ⟨t', g1, g2, -⟩ := codable_of hwf hE hbl hw hh ho (fun n hn' c fc hcf j p hp => by
    have hcf' : (initComponents e.samplingFactor ct)[c]?.map Component.frame = some fc := by
      rw [← List.getElem?_map]; exact hcf
    cases hcc : (initComponents e.samplingFactor ct)[c]? with
    | none => rw [hcc] at hcf'; cases hcf'
    | some cc =>
      rw [hcc] at hcf'
      obtain rfl := Option.some.inj hcf'
      have hcm : cc ∈ initComponents e.samplingFactor ct := List.mem_of_getElem? hcc
      rw [blocksWide_eq hg _ _ _ hcm, blocksHigh_eq hg _ _ _ hcm] at hp
      have hint : e.interval = n.toNat := by unfold Encoder.interval; rw [hn']; rfl
      have hpos : 0 < e.interval := by
        have := hwf.restart n hn'
        rw [hint]
        by_contra h0
        exact this (UInt16.toNat_inj.mp (by rw [show (0 : UInt16).toNat = 0 from rfl]; omega))
      obtain ⟨bs, hbs, f, hbf, hfb⟩ := hbl c cc hcc
      have hpm := mem_raster.mp (List.mem_of_getElem? hp)
      obtain ⟨hbl1, hbl2⟩ := hfb p.1 hpm.1 p.2 hpm.2
      have hb : bs[j * e.interval]? = some (f p.1 p.2) := by
        rw [hbf, List.getElem?_map, hint, hp]; rfl
      have hdcE := hE.dc c p.1 p.2
      have h0 : (f p.1 p.2).getD 0 0 = E c p.1 p.2 0 := hbl2 0 (by omega)
      have hmem : (cc, c) ∈ (initComponents e.samplingFactor ct).zipIdx := List.mem_zipIdx_iff_getElem?.mpr hcc
      have key : catOf ((f p.1 p.2).getD 0 0) ∈ (tabOf t cc.dcHuffmanTable).dc.values := by
        rcases hdw with ⟨s, o, s', hdw⟩ | ⟨s, o, s', hdw⟩
        · obtain ⟨_, _, _, hsc⟩ := hdw.forEach_inv _ hmem
          exact sequentialScan_inv hc (e := (e.atWork ct).withTables t) hpos (hg.ok.dc cc hcm) (h3 cc hcm).1.file.ok hbs hsc j hb hbl1 (by omega)
        · obtain ⟨_, _, _, hsc⟩ := hdw.forEach_inv _ hmem
          exact dcScan_inv hc (e := (e.atWork ct).withTables t) hpos (hg.ok.dc cc hcm) (h3 cc hcm).1.file.ok hbs hsc j hb hbl1 (by omega)
      rw [h0, catOf_eq] at key
      have := ((h3 cc hcm).1.mem _).mp key
      rw [hcounted]
      rw [(htab cc hcm).1] at this
      exact this) hsz
  have ht : (e.atWork ct).withTables t = (e.atWork ct).withTables t' := Except.ok.inj ((h1 pf hpf).symm.trans (g1 pf hpf))
  have htt : t = t' := congrArg Encoder.huffmanTables ht
  subst htt
  exact ⟨hE, g2.1, g2.2⟩

end Jpeg
