import Verif.Proofs.Cost
import Verif.Proofs.Size
/-! Costs of the whole encoder (C86), see `Verif.Proofs.Cost`. -/
namespace Jpeg

/-! ### Code words of at most 16 bits -/

theorem TableOk.short {t : HuffmanTable} (h : TableOk t) : Short t := by
  intro x hx
  obtain ⟨v, hv, rfl⟩ := List.getElem_of_mem hx
  rw [h.len] at hv
  by_cases hm : v ∈ t.values
  · obtain ⟨s, c, h1, -, -, h2, -⟩ := h.get hm
    rw [List.getElem?_eq_getElem (by rw [h.len]; exact hv)] at h1
    rw [Option.some.inj h1]
    exact h2
  · have := h.none v hv hm
    rw [List.getElem?_eq_getElem (by rw [h.len]; exact hv)] at this
    rw [Option.some.inj this]
    exact Nat.zero_le _

theorem lookupLoop_short {sizes codes : List Nat} (hs : ∀ s ∈ sizes, s ≤ 16) (vs : List Nat) : ∀ (i : Nat) (t t' : List (Nat × Nat)), (∀ x ∈ t, x.1 ≤ 16) →
    lookupLoop sizes codes vs i t = .ok t' → ∀ x ∈ t', x.1 ≤ 16 := by
  induction vs with
  | nil =>
    intro i t t' h h1
    have := Except.ok.inj h1
    subst this
    exact h
  | cons v vs ih =>
    intro i t t' h h1
    unfold lookupLoop at h1
    obtain ⟨s, hs1, h1⟩ := R.bind_ok h1
    obtain ⟨c, -, h1⟩ := R.bind_ok h1
    obtain ⟨u, hu, h1⟩ := R.bind_ok h1
    refine ih _ u t' ?_ h1
    unfold setIdx at hu
    split at hu
    · have := Except.ok.inj hu
      subst this
      intro x hx
      rcases List.mem_or_eq_of_mem_set hx with hx | rfl
      · exact h x hx
      · exact hs s (idx_mem hs1)
    · cases hu

theorem createLookupTable_short {pf : Platform} {lengths values : List Nat} {t : List (Nat × Nat)} (h : createLookupTable pf lengths values = .ok t) : ∀ x ∈ t, x.1 ≤ 16 := by
  unfold createLookupTable at h
  obtain ⟨sizes, h1, h⟩ := R.bind_ok h
  obtain ⟨codes, -, h⟩ := R.bind_ok h
  refine lookupLoop_short ?_ values 0 _ t ?_ h
  · unfold createSizes at h1
    dsimp only at h1
    split at h1
    · have := Except.ok.inj h1
      subst this
      intro s hs
      rcases List.mem_append.mp hs with hs | hs
      · obtain ⟨l, hl, hs⟩ := List.mem_flatten.mp hs
        obtain ⟨i, hi, rfl⟩ := List.mem_map.mp hl
        have := List.mem_range.mp hi
        rw [List.eq_of_mem_replicate hs]
        omega
      · rw [List.eq_of_mem_replicate hs]
        omega
    · cases h1
  · intro x hx
    rw [List.eq_of_mem_replicate hx]
    exact Nat.zero_le _

theorem newOptimized_short {pf : Platform} {freq : List Nat} {t : HuffmanTable} (h : HuffmanTable.newOptimized pf freq = .ok t) : Short t := by
  unfold HuffmanTable.newOptimized at h
  obtain ⟨cs, -, h⟩ := R.bind_ok h
  obtain ⟨b1, -, h⟩ := R.bind_ok h
  obtain ⟨b2, -, h⟩ := R.bind_ok h
  obtain ⟨b3, -, h⟩ := R.bind_ok h
  obtain ⟨t', ht, h⟩ := R.bind_ok h
  have := Except.ok.inj h
  subst this
  exact createLookupTable_short ht

theorem FullPair.fine {t : HuffPair} (h : FullPair t) : PairFine t := ⟨h.len, h.dc.ok.short, h.ac.ok.short⟩

theorem optimizeTable_fine {pf : Platform} {pr : Option UInt8} {cs : List Component} {blocks : Blocks} {k : Nat} {t : HuffPair} (h : optimizeTable pf pr cs blocks k = .ok t) : PairFine t := by
  have hl := optimizeTable_len h
  unfold optimizeTable at h
  obtain ⟨s, -, h⟩ := R.bind_ok h
  obtain ⟨_, -, h⟩ := R.bind_ok h
  obtain ⟨_, -, h⟩ := R.bind_ok h
  obtain ⟨dc, h1, h⟩ := R.bind_ok h
  obtain ⟨ac, h2, h⟩ := R.bind_ok h
  have := Except.ok.inj h
  subst this
  exact ⟨hl, newOptimized_short h1, newOptimized_short h2⟩

/-- Optimised tables change nothing else. -/
theorem optimizeIf_fine {pf : Platform} {e e' : Encoder} {blocks : Blocks} (hs : Fine e) (h : e.optimizeIf pf blocks = .ok e') :
    Fine e' ∧ e'.components = e.components ∧ e'.interval = e.interval := by
  unfold Encoder.optimizeIf at h
  split at h
  · unfold Encoder.optimizeHuffman at h
    obtain ⟨t0, h0, h⟩ := R.bind_ok h
    split at h
    · obtain ⟨t1, h1, h⟩ := R.bind_ok h
      have := Except.ok.inj h
      subst this
      exact ⟨⟨optimizeTable_fine h0, optimizeTable_fine h1⟩, rfl, rfl⟩
    · have := Except.ok.inj h
      subst this
      exact ⟨⟨optimizeTable_fine h0, hs.t1⟩, rfl, rfl⟩
  · have := Except.ok.inj h
    subst this
    exact ⟨hs, rfl, rfl⟩

/-! ### Questions to the image buffer -/

section
variable {α β : Type} {W H C : Nat} {pf : Platform}

theorem FM.Costs.answer {n k N K : Nat} {s : BitState} {b f : Nat} (hn : n ≤ N) (hk : k ≤ K) (h : Charged pf n k s b f) (r : R α) {Q : α → Prop} (hQ : ∀ a, r = .ok a → Q a) :
    (FM.answer s r).Acc W H C (fun b f => 4 * b ≤ N ∧ f ≤ K) (fun a s' b f => Q a ∧ Charged pf n k s' b f) b f := by
  cases r with
  | ok a => exact ⟨hQ a rfl, h⟩
  | error e => exact h.within hn hk
theorem FM.Costs.width : FM.Costs W H C pf 0 0 FM.width fun w => w.toNat ≤ W :=
  fun _ _ _ _ hn hk _ _ _ h r hr => FM.Costs.answer (by omega) (by omega) h r hr
theorem FM.Costs.height : FM.Costs W H C pf 0 0 FM.height fun h => h.toNat ≤ H :=
  fun _ _ _ _ hn hk _ _ _ h r hr => FM.Costs.answer (by omega) (by omega) h r hr
theorem FM.Costs.color : FM.Costs W H C pf 0 0 FM.color fun c => c.numComponents ≤ C :=
  fun _ _ _ _ hn hk _ _ _ h r hr => FM.Costs.answer (by omega) (by omega) h r hr
theorem FM.Costs.size {c r : Nat} {g : UInt16 → UInt16 → FM β} {T : β → Prop} (hg : ∀ w h : UInt16, w.toNat ≤ W → h.toNat ≤ H → FM.Costs W H C pf c r (g w h) T) :
    FM.Costs W H C pf c r (FM.width >>= fun w => FM.height >>= fun h => g w h) T :=
  FM.Costs.bind (c2 := c) (r2 := r) FM.Costs.width (fun w hw => FM.Costs.bind (c2 := c) (r2 := r) FM.Costs.height (fun h hh => hg w h hw hh) (by omega) (by omega)) (by omega) (by omega)
theorem FM.Costs.wm_bind {c1 c2 c r : Nat} {m : WM α} {Q : α → Prop} {g : α → FM β} {T : β → Prop} (hm : WM.Costs W H C pf c1 m Q) (hg : ∀ a, Q a → FM.Costs W H C pf c2 r (g a) T)
    (hc : c1 + c2 ≤ c) : FM.Costs W H C pf c r (FM.wm m >>= g) T := FM.Costs.bind hm hg hc (by omega)

/-! ### Blocks and rows -/

theorem mapR_length {l : List α} {f : α → R β} : ∀ {bs : List β}, mapR l f = .ok bs → bs.length = l.length := by
  induction l with
  | nil =>
    intro bs h
    have := Except.ok.inj h
    subst this
    rfl
  | cons x l ih =>
    intro bs h
    obtain ⟨y, -, h⟩ := R.bind_ok (r := f x) h
    obtain ⟨ys, h1, h⟩ := R.bind_ok (r := mapR l f) h
    have := Except.ok.inj h
    subst this
    simp [ih h1]
theorem mapR_mem {l : List α} {f : α → R β} : ∀ {bs : List β}, mapR l f = .ok bs → ∀ b ∈ bs, ∃ a ∈ l, f a = .ok b := by
  induction l with
  | nil =>
    intro bs h
    have := Except.ok.inj h
    subst this
    simp
  | cons x l ih =>
    intro bs h
    obtain ⟨y, hy, h⟩ := R.bind_ok (r := f x) h
    obtain ⟨ys, h1, h⟩ := R.bind_ok (r := mapR l f) h
    have := Except.ok.inj h
    subst this
    intro b hb
    rcases List.mem_cons.mp hb with rfl | hb
    · exact ⟨x, by simp, hy⟩
    · obtain ⟨a, ha, h2⟩ := ih h1 b hb
      exact ⟨a, by simp [ha], h2⟩

theorem ceilDiv_le_ceil {v d n : Nat} (h : ceilDiv v d = .ok n) : 0 < d ∧ n ≤ (v + d - 1) / d := by
  unfold ceilDiv at h
  split at h
  · cases h
  · rename_i hd
    have := Except.ok.inj h
    subst this
    refine ⟨by omega, ?_⟩
    rw [Nat.le_div_iff_mul_le (by omega)]
    have h1 := Nat.div_add_mod v d
    have h2 : d * (v / d) = v / d * d := Nat.mul_comm _ _
    split
    · rw [Nat.add_mul]
      omega
    · rw [Nat.add_zero]
      omega

theorem sum_le_length_mul {f : α → Nat} {c : Nat} {l : List α} (h : ∀ x ∈ l, f x ≤ c) : (l.map f).sum ≤ l.length * c := by
  induction l with
  | nil => simp
  | cons x l ih =>
    have h1 := h x (by simp)
    have h2 := ih fun y hy => h y (by simp [hy])
    simp only [List.map_cons, List.sum_cons, List.length_cons, Nat.add_mul]
    omega

theorem componentBlocks_length {op : Operations} {q : QuantizationTable × QuantizationTable} {rows : Rows} {maxH maxV numCols numRows bw : Nat} {ci : Component × Nat} {bs : List (List Int)}
    (h : componentBlocks pf op q rows maxH maxV numCols numRows bw ci = .ok bs) : bs.length ≤ numRows * numCols := by
  unfold componentBlocks at h
  obtain ⟨hs, -, h⟩ := R.bind_ok h
  obtain ⟨vs, -, h⟩ := R.bind_ok h
  obtain ⟨cols, h1, h⟩ := R.bind_ok h
  obtain ⟨rws, h2, h⟩ := R.bind_ok h
  obtain ⟨_, -, h⟩ := R.bind_ok h
  obtain ⟨_, -, h⟩ := R.bind_ok h
  obtain ⟨bb, h3, h⟩ := R.bind_ok h
  have := Except.ok.inj h
  subst this
  have key : ∀ {v d n : Nat}, ceilDiv v d = .ok n → n ≤ v := by
    intro v d n hh
    obtain ⟨hd, hn⟩ := ceilDiv_le_ceil hh
    refine Nat.le_trans hn ?_
    by_cases hv : v = 0
    · subst hv
      rw [Nat.div_eq_of_lt (by omega)]
    · have : (v + d - 1) / d < v + 1 := by
        rw [Nat.div_lt_iff_lt_mul (by omega)]
        obtain ⟨a, rfl⟩ : ∃ a, v = a + 1 := ⟨v - 1, by omega⟩
        obtain ⟨c, rfl⟩ : ∃ c, d = c + 1 := ⟨d - 1, by omega⟩
        have : (a + 1 + 1) * (c + 1) = a * c + a + 2 * c + 2 := by ring
        rw [this]
        have := Nat.zero_le (a * c)
        omega
      omega
  rw [List.length_flatten]
  have hl : ∀ b ∈ bb, b.length ≤ numCols := by
    intro b hb
    obtain ⟨y, -, hy⟩ := mapR_mem h3 b hb
    have := mapR_length hy
    rw [List.length_range] at this
    rw [this]
    exact key h1
  have h4 := mapR_length h3
  rw [List.length_range] at h4
  refine Nat.le_trans (sum_le_length_mul hl) ?_
  rw [h4]
  exact Nat.mul_le_mul_right _ (key h2)

/-- One row is asked for. -/
theorem fillLineL_costs (w h : UInt16) (y bw : Nat) (rows : Rows) : LM.Costs W H C pf 0 1 (fillLineL w h y bw rows) fun _ => True :=
  LM.Costs.bind (c2 := 0) (r2 := 0) (LM.Costs.fill _ _) (fun _ _ => (LM.Costs.lift _).weaken (Nat.le_refl 0) (Nat.le_refl 0) fun _ _ => trivial) (Nat.le_refl _) (Nat.le_refl _)

/-- Enough blocks for any component. -/
def roomy (W H : Nat) : Nat := (W + 31) / 8 * ((H + 31) / 8)

theorem ckUsize_le {a n : Nat} (h : ckUsize pf (a : Int) = .ok n) : n ≤ a := by
  have := ckU_le h (by omega)
  omega

/-- Whole rows of MCUs. -/
theorem mcu_le {v m n X : Nat} (hm : 1 ≤ m ∧ m ≤ 4) (h : ceilDiv v (8 * m) = .ok n) (hv : v ≤ X) : n * m ≤ (X + 31) / 8 := by
  obtain ⟨-, h⟩ := ceilDiv_le_ceil h
  rw [Nat.le_div_iff_mul_le (by omega)] at h ⊢
  have : n * m * 8 = n * (8 * m) := by ring
  omega

theorem encodeBlocksL_costs {e : Encoder} (hg : ∃ mh mv, Grid e.components mh mv) (op : Operations) (w h : UInt16) (q : QuantizationTable × QuantizationTable)
    (hw : w.toNat ≤ W) (hh : h.toNat ≤ H) : LM.Costs W H C pf 0 (H + 31) (encodeBlocksL pf e op w h q) fun blocks => ∀ b ∈ blocks, b.length ≤ roomy W H := by
  obtain ⟨mh, mv, hg⟩ := hg
  unfold encodeBlocksL
  rw [hg.max]
  dsimp only
  with_reducible
    refine LM.Costs.lift_bind fun a ha => LM.Costs.lift_bind fun numCols hnc => LM.Costs.lift_bind fun b hb => LM.Costs.lift_bind fun numRows hnr => ?_
    refine LM.Costs.lift_bind fun _ _ => LM.Costs.lift_bind fun _ _ => LM.Costs.lift_bind fun bw hbw => LM.Costs.lift_bind fun _ _ => ?_
    refine LM.Costs.lift_bind fun _ _ => LM.Costs.lift_bind fun _ _ => ?_
    refine LM.Costs.bind (c2 := 0) (r2 := 0) (LM.Costs.forFold (c := 0) (r := 1) fun _ _ _ => fillLineL_costs _ _ _ _ _) (fun rows _ => ?_) (by simp) ?_
  · with_reducible
      refine LM.Costs.lift_bind fun nc hnc => LM.Costs.lift_bind fun nr hnr => LM.Costs.lift_bind fun _ _ => LM.Costs.lift_bind fun _ _ => LM.Costs.lift_bind fun _ _ => ?_
    refine (LM.Costs.lift _).weaken (Nat.le_refl 0) (Nat.le_refl 0) fun blocks hbl b hb => ?_
    obtain ⟨ci, -, hci⟩ := mapR_mem hbl b hb
    refine Nat.le_trans (componentBlocks_length hci) ?_
    rw [Nat.mul_comm]
    have h1 := mcu_le (m := 1) (by decide) hnc hw
    have h2 := mcu_le (m := 1) (by decide) hnr hh
    rw [Nat.mul_one] at h1 h2
    exact Nat.mul_le_mul h1 h2
  · have h1 := mcu_le hg.mv hb hh
    have h2 := ckUsize_le hnr
    simp only [List.length_range, Nat.mul_one, Nat.add_zero]
    omega

theorem fillMcuRowL_costs (w h : UInt16) (maxV bw blockY : Nat) (rows : Rows) : LM.Costs W H C pf 0 (8 * maxV) (fillMcuRowL pf w h maxV bw blockY rows) fun _ => True := by
  unfold fillMcuRowL
  refine (LM.Costs.forFold (c := 0) (r := 1) fun _ _ _ => ?_).weaken (by simp) (by simp) fun _ h => h
  exact LM.Costs.lift_bind fun _ _ => fillLineL_costs _ _ _ _ _

theorem interleavedRowsL_costs (hpf : pf.Valid) {e : Encoder} (he : Fine e) (hg : ∃ mh mv, Grid e.components mh mv) (op : Operations) (w h : UInt16) (q : QuantizationTable × QuantizationTable)
    (hw : w.toNat ≤ W) (hh : h.toNat ≤ H) :
    LM.Costs W H C pf (e.components.length * (roomy W H * (rstCost e.interval + 2000)) + 7) (H + 31) (e.interleavedRowsL pf op w h q) fun _ => True := by
  obtain ⟨mh, mv, hg⟩ := hg
  have hmh := hg.mh
  have hmv := hg.mv
  have hH : ∀ c ∈ e.components, c.horizontalSamplingFactor ≤ mh := fun c hc => by rcases hg.h c hc with h | h <;> omega
  have hV : ∀ c ∈ e.components, c.verticalSamplingFactor ≤ mv := fun c hc => by rcases hg.v c hc with h | h <;> omega
  unfold Encoder.interleavedRowsL
  rw [hg.max]
  dsimp only
  with_reducible
    refine LM.Costs.lift_bind fun numCols hnc => LM.Costs.lift_bind fun numRows hnr => LM.Costs.lift_bind fun _ _ => LM.Costs.lift_bind fun _ _ => LM.Costs.lift_bind fun _ _ => ?_
    refine LM.Costs.bind (c2 := 7) (r2 := 0) (LM.Costs.forFold (c := numCols * (rstCost e.interval + e.components.length * (mv * (mh * 2000)))) (r := 8 * mv) fun st y _ => ?_)
      (fun _ _ => finalize_costs hpf) ?_ ?_
  · with_reducible
      refine LM.Costs.bind (c2 := numCols * (rstCost e.interval + e.components.length * (mv * (mh * 2000)))) (r2 := 0) (fillMcuRowL_costs _ _ _ _ _ _) (fun rows _ => ?_) (by omega) (by omega)
      refine LM.Costs.bind (c1 := numCols * (rstCost e.interval + e.components.length * (mv * (mh * 2000)))) (r1 := 0) (c2 := 0) (r2 := 0) (Q := fun _ => True) ?_ (fun _ _ => LM.Costs.pure _ trivial) (by omega) (by omega)
    exact (scanLoop_costs hpf _ _ (fun x _ s => encodeMcu_costs hpf he op q rows mh mv _ x s hH hV) _).weaken (by simp) (Nat.le_refl 0) fun _ h => h
  · have h1 : numCols * mh ≤ (W + 31) / 8 := mcu_le hmh hnc hw
    have h2 : numRows * mv ≤ (H + 31) / 8 := mcu_le hmv hnr hh
    have h3 : numCols * mh * (numRows * mv) ≤ roomy W H := Nat.mul_le_mul h1 h2
    have h4 : numCols * numRows ≤ numCols * mh * (numRows * mv) := Nat.mul_le_mul (Nat.le_mul_of_pos_right _ (by omega)) (Nat.le_mul_of_pos_right _ (by omega))
    have hn : 1 ≤ e.components.length := by rcases hg.nc with h | h | h <;> omega
    rw [List.length_range]
    have e1 : numRows * (numCols * (rstCost e.interval + e.components.length * (mv * (mh * 2000)))) =
        numCols * numRows * rstCost e.interval + e.components.length * (numCols * mh * (numRows * mv) * 2000) := by ring
    rw [e1, Nat.mul_add, Nat.mul_add]
    have h5 : numCols * numRows * rstCost e.interval ≤ e.components.length * (roomy W H * rstCost e.interval) :=
      Nat.le_trans (Nat.mul_le_mul_right _ (Nat.le_trans h4 h3)) (Nat.le_mul_of_pos_left _ hn)
    have h6 : e.components.length * (numCols * mh * (numRows * mv) * 2000) ≤ e.components.length * (roomy W H * 2000) := Nat.mul_le_mul_left _ (Nat.mul_le_mul_right _ h3)
    omega
  · have h2 : numRows * mv ≤ (H + 31) / 8 := mcu_le hmv hnr hh
    rw [List.length_range, show numRows * (8 * mv) = 8 * (numRows * mv) by ring]
    omega

/-! ### The encoder -/

theorem writeFrameHeaderF_costs {e : Encoder} (he : Fine e) (hn : e.components.length ≤ 4) (q : QuantizationTable × QuantizationTable) :
    FM.Costs W H C pf 5096 0 (e.writeFrameHeaderF pf q) fun _ => True := by
  unfold Encoder.writeFrameHeaderF
  with_reducible
    refine FM.Costs.size fun w h _ _ => ?_
    refine FM.Costs.wm_bind (c2 := 5008) (writeFrameHeader_costs w h hn _) (fun _ _ => ?_) (by decide)
    refine FM.Costs.wm_bind (c2 := 4732) (writeQuantizationSegment_costs _ _) (fun _ _ => ?_) (by decide)
    refine FM.Costs.wm_bind (c2 := 4456) (writeQuantizationSegment_costs _ _) (fun _ _ => ?_) (by decide)
    refine FM.Costs.wm_bind (c2 := 3348) (writeHuffmanSegment_costs _ _ he.t0.len.dc) (fun _ _ => ?_) (by decide)
    refine FM.Costs.wm_bind (c2 := 2240) (writeHuffmanSegment_costs _ _ he.t0.len.ac) (fun _ _ => ?_) (by decide)
    refine FM.Costs.bind (c2 := 2240) (r2 := 0) FM.Costs.color (fun ct _ => ?_) (by decide) (by decide)
    refine FM.Costs.wm_bind (c2 := 24) (writeChromaHuffman_costs _ he.t1.len.dc he.t1.len.ac) (fun _ _ => ?_) (by decide)
    exact writeDriOpt_costs _

/-- The number of scans of a component. -/
def Encoder.scanCount (e : Encoder) : Nat := (e.progressiveScans.map UInt8.toNat).getD 1

/-- What `n` components with `s` scans each cost. -/
def scansCost (n W H s rst : Nat) : Nat := 5096 + n * (47 * s) + n * (roomy W H * (1984 + s * (rst + 16)))

theorem scansCost_mono {n m W H s rst : Nat} (h : n ≤ m) : scansCost n W H s rst ≤ scansCost m W H s rst := by
  unfold scansCost
  have h1 := Nat.mul_le_mul_right (47 * s) h
  have h2 := Nat.mul_le_mul_right (roomy W H * (1984 + s * (rst + 16))) h
  omega

theorem zipIdx_sum (l : List α) (c : Nat) : ((l.zipIdx).map fun _ => c).sum = l.length * c := by
  simp

theorem encodeScansF_costs (hpf : pf.Valid) {e : Encoder} (he : Fine e) (hg : ∃ mh mv, Grid e.components mh mv) (hs : ∀ n, e.progressiveScans = some n → 2 ≤ n.toNat ∧ n.toNat ≤ 64)
    (op : Operations) (q : QuantizationTable × QuantizationTable) :
    FM.Costs W H C pf (scansCost e.components.length W H e.scanCount (rstCost e.interval)) (H + 31) (e.encodeScansF pf op q) fun _ => True := by
  have hn : 1 ≤ e.components.length ∧ e.components.length ≤ 4 := by
    obtain ⟨mh, mv, hg⟩ := hg
    rcases hg.nc with h | h | h <;> omega
  have hblocks : FM.Costs W H C pf 0 (H + 31) (encodeBlocksF pf e op q) fun blocks => ∀ b ∈ blocks, b.length ≤ roomy W H :=
    FM.Costs.size fun w h hw hh => encodeBlocksL_costs hg op w h q hw hh
  unfold Encoder.encodeScansF Encoder.scanCount
  split
  · rename_i n hsome
    obtain ⟨h2, h64⟩ := hs n hsome
    rw [hsome]
    change FM.Costs W H C pf (scansCost e.components.length W H n.toNat (rstCost e.interval)) _ _ _
    unfold Encoder.encodeProgressiveF
    rw [acBands_ok hpf h2 h64]
    with_reducible
      refine FM.Costs.bind (c2 := scansCost e.components.length W H n.toNat (rstCost e.interval)) (r2 := 0) hblocks (fun blocks hb => ?_) (by omega) (by omega)
      refine FM.Costs.lift_bind fun e' he' => ?_
    obtain ⟨hf, hc, hi⟩ := optimizeIf_fine he he'
    rw [← hc, ← hi]
    rw [← hc] at hn
    obtain ⟨hsum, -⟩ := bandList_sum n.toNat (by omega) h2
    obtain ⟨-, hlen⟩ := bandList_chained n.toNat (by omega) h2
    have hbands := fun bs : List (Nat × Nat) => WM.Costs.forEach (W := W) (H := H) (C := C) (pf := pf) (l := bs)
      (body := fun band => WM.forEach e'.components.zipIdx (acScan pf e' blocks band))
      (fun band => e'.components.length * (47 + roomy W H * (rstCost e'.interval + (31 * (band.2 - band.1) + 16)))) fun band _ =>
        (WM.Costs.forEach (fun _ => 47 + roomy W H * (rstCost e'.interval + (31 * (band.2 - band.1) + 16))) fun ci _ => acScan_costs hpf hf hb band ci).weaken (by simp) (Nat.le_refl 0) fun _ h => h
    have hcost : ∀ bs : List (Nat × Nat), (bs.map fun band => e'.components.length * (47 + roomy W H * (rstCost e'.interval + (31 * (band.2 - band.1) + 16)))).sum =
        e'.components.length * (47 * bs.length) + e'.components.length * (roomy W H * (bs.length * (rstCost e'.interval + 16) + 31 * (bs.map fun b => b.2 - b.1).sum)) := by
      intro bs
      induction bs with
      | nil => simp
      | cons b bs ih =>
        simp only [List.map_cons, List.sum_cons, List.length_cons, ih]
        ring
    have hbands := hbands (bandList n.toNat)
    rw [hcost, hlen] at hbands
    with_reducible
      refine FM.Costs.bind (c2 := e'.components.length * (47 + roomy W H * (rstCost e'.interval + 31)) + (e'.components.length * (47 * (n.toNat - 1)) +
        e'.components.length * (roomy W H * ((n.toNat - 1) * (rstCost e'.interval + 16) + 31 * ((bandList n.toNat).map fun b => b.2 - b.1).sum)))) (r2 := 0) (writeFrameHeaderF_costs hf hn.2 q) (fun _ _ => ?_) ?_ (by omega)
      refine FM.Costs.wm_bind (c1 := e'.components.length * (47 + roomy W H * (rstCost e'.interval + 31))) (Q := fun _ => True) ?_ (fun _ _ => ?_) (Nat.le_refl _)
    · exact (WM.Costs.forEach (fun _ => 47 + roomy W H * (rstCost e'.interval + 31)) fun ci _ => dcScan_costs hpf hf hb ci).weaken (by simp) (Nat.le_refl 0) fun _ h => h
    · refine FM.Costs.lift_bind fun bands hbs => ?_
      have := Except.ok.inj hbs
      subst this
      exact hbands
    · unfold scansCost
      obtain ⟨m, hm⟩ : ∃ m, n.toNat = m + 1 := ⟨n.toNat - 1, by omega⟩
      generalize ((bandList n.toNat).map fun b => b.2 - b.1).sum = T at hsum
      rw [hm, Nat.add_sub_cancel]
      have h3 : roomy W H * (m * (rstCost e'.interval + 16) + 31 * T) + roomy W H * (rstCost e'.interval + 31) ≤ roomy W H * (1984 + (m + 1) * (rstCost e'.interval + 16)) := by
        rw [← Nat.mul_add]
        refine Nat.mul_le_mul_left _ ?_
        rw [Nat.add_mul]
        omega
      have h4 := Nat.mul_le_mul_left e'.components.length h3
      rw [Nat.mul_add e'.components.length] at h4
      have h5 : e'.components.length * (47 * (m + 1)) = e'.components.length * (47 * m) + e'.components.length * 47 := by ring
      rw [h5, Nat.mul_add]
      omega
  · rename_i hnone
    rw [hnone]
    change FM.Costs W H C pf (scansCost e.components.length W H 1 (rstCost e.interval)) _ _ _
    split
    · unfold Encoder.encodeSequentialF
      with_reducible
        refine FM.Costs.bind (c2 := scansCost e.components.length W H 1 (rstCost e.interval)) (r2 := 0) hblocks (fun blocks hb => ?_) (by omega) (by omega)
        refine FM.Costs.lift_bind fun e' he' => ?_
      obtain ⟨hf, hc, hi⟩ := optimizeIf_fine he he'
      rw [← hc, ← hi]
      rw [← hc] at hn
      with_reducible
        refine FM.Costs.bind (c2 := e'.components.length * (47 + roomy W H * (rstCost e'.interval + 2000))) (r2 := 0) (writeFrameHeaderF_costs hf hn.2 q) (fun _ _ => ?_) ?_ (by omega)
      · exact (WM.Costs.forEach (fun _ => 47 + roomy W H * (rstCost e'.interval + 2000)) fun ci _ => sequentialScan_costs hpf hf hb ci).weaken (by simp) (Nat.le_refl 0) fun _ h => h
      · unfold scansCost
        have : 1984 + 1 * (rstCost e'.interval + 16) = rstCost e'.interval + 2000 := by omega
        rw [this, Nat.mul_add]
        omega
    · unfold Encoder.encodeInterleavedF
      with_reducible
        refine FM.Costs.bind (c2 := 32 + 8 * e.components.length + (e.components.length * (roomy W H * (rstCost e.interval + 2000)) + 7)) (r2 := H + 31) (writeFrameHeaderF_costs he hn.2 q) (fun _ _ => ?_) ?_ (by omega)
        refine FM.Costs.wm_bind (c2 := e.components.length * (roomy W H * (rstCost e.interval + 2000)) + 7) (writeScanHeader_costs _ _) (fun _ _ => ?_) (by omega)
        exact FM.Costs.size fun w h hw hh => interleavedRowsL_costs hpf he hg op w h q hw hh
      unfold scansCost
      have : 1984 + 1 * (rstCost e.interval + 16) = rstCost e.interval + 2000 := by omega
      rw [this]
      omega

/-- What a call of `encode_image` costs. -/
def Encoder.cost (e : Encoder) (C W H : Nat) : Nat :=
  152 + 4 * (e.appSegments.map fun s => s.2.length + 4).sum + scansCost C W H e.scanCount (rstCost e.interval)

theorem encodeImageInternalF_costs (hpf : pf.Valid) {e : Encoder} (hwf : e.Wf) (op : Operations) : FM.Costs W H C pf (e.cost C W H) (H + 31) (e.encodeImageInternalF pf op) fun _ => True := by
  have hz : FM.Costs W H C pf (e.cost C W H) (H + 31) zeroDimensionsF fun _ => True :=
    FM.Costs.size fun w h _ _ => (FM.Costs.lift (α := Unit) _).weaken (by omega) (by omega) fun _ _ => trivial
  unfold Encoder.encodeImageInternalF
  refine FM.Costs.bind' (c2 := e.cost C W H) (r2 := H + 31) FM.Costs.width (fun w _ => ?_) (by omega) (by omega)
  split
  · exact hz
  refine FM.Costs.bind' (c2 := e.cost C W H) (r2 := H + 31) FM.Costs.height (fun h _ => ?_) (by omega) (by omega)
  split
  · exact hz
  unfold Encoder.encodeCheckedF Encoder.cost
  have hsum : 4 * (e.appSegments.map fun s => s.2.length + 4).sum = (e.appSegments.map fun s => 4 * (s.2.length + 4)).sum := by
    generalize e.appSegments = l
    induction l with
    | nil => rfl
    | cons a l ih => simp only [List.map_cons, List.sum_cons, ← ih]; ring
  rw [hsum]
  with_reducible
    refine FM.Costs.lift_bind fun _ _ => FM.Costs.lift_bind fun _ _ => ?_
    refine FM.Costs.bind (c2 := 152 + (e.appSegments.map fun s => 4 * (s.2.length + 4)).sum + scansCost C W H e.scanCount (rstCost e.interval)) (r2 := H + 31) FM.Costs.color
      (fun ct hct => ?_) (by omega) (by omega)
  obtain ⟨hg, hnc⟩ := initComponents_grid e.samplingFactor ct
  have hfine : Fine { e with components := initComponents e.samplingFactor ct } := ⟨hwf.t0.fine, hwf.t1.fine⟩
  have hscan := encodeScansF_costs (W := W) (H := H) (C := C) hpf hfine ⟨_, _, hg⟩ hwf.scans op
  have hm : scansCost (initComponents e.samplingFactor ct).length W H e.scanCount (rstCost e.interval) ≤ scansCost C W H e.scanCount (rstCost e.interval) :=
    scansCost_mono (by rw [hnc]; exact hct)
  generalize scansCost C W H e.scanCount (rstCost e.interval) = S at hm
  have hscan := fun q => (hscan q).weaken hm (Nat.le_refl _) fun _ h => h
  with_reducible
    refine FM.Costs.wm_bind (c2 := 144 + (e.appSegments.map fun s => 4 * (s.2.length + 4)).sum + S) (writeMarker_costs _) (fun _ _ => ?_) (by omega)
    refine FM.Costs.wm_bind (c2 := 72 + (e.appSegments.map fun s => 4 * (s.2.length + 4)).sum + S) (writeHeader_costs _) (fun _ _ => ?_) (by omega)
    refine FM.Costs.wm_bind (c2 := 8 + (e.appSegments.map fun s => 4 * (s.2.length + 4)).sum + S) (writeAdobe_costs _) (fun _ _ => ?_) (by omega)
    refine FM.Costs.wm_bind (c2 := 8 + S) (WM.Costs.forEach (fun s => 4 * (s.2.length + 4)) fun s _ => writeSegment_costs _ _) (fun _ _ => ?_) (by dsimp only; omega)
    refine FM.Costs.bind (c1 := S) (c2 := 8) (r2 := 0) (hscan _) (fun _ _ => ?_) (by omega) (by omega)
    exact writeMarker_costs _
end

end Jpeg
