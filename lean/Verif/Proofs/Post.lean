import Verif.Proofs.Bundle
/-! What a successful run of a debug build tells: every DC symbol written has a code. -/
namespace Jpeg

/-- If `m` succeeds (on a writer that never fails), from whatever bit state, its result satisfies `Q`. -/
def WM.Post {α : Type} (m : WM α) (Q : α → Prop) : Prop := ∀ s a s', (m s).exec.2 = .ok (a, s') → Q a

theorem WM.Post.bind {α β : Type} {m : WM α} {f : α → WM β} {Q : α → Prop} {Q' : β → Prop} (hm : m.Post Q) (hf : ∀ a, Q a → (f a).Post Q') :
    (m >>= f).Post Q' := by
  intro s b s' h
  change ((m s).bind _).exec.2 = _ at h
  rw [Prog.exec_bind] at h
  dsimp only at h
  cases hr : (m s).exec.2 with
  | error e => rw [hr] at h; cases h
  | ok r =>
    rw [hr] at h
    exact hf r.1 (hm s r.1 r.2 hr) r.2 b s' h

theorem WM.Post.trivial {α : Type} (m : WM α) : m.Post fun _ => True := fun _ _ _ _ => True.intro

theorem WM.Post.mono {α : Type} {m : WM α} {Q Q' : α → Prop} (hm : m.Post Q) (h : ∀ a, Q a → Q' a) : m.Post Q' :=
  fun s a s' hr => h a (hm s a s' hr)

/-- A fact learnt early survives. -/
theorem WM.Post.const {α : Type} (m : WM α) {Q : Prop} (h : Q) : m.Post fun _ => Q := fun _ _ _ _ => h

theorem WM.Post.lift {α : Type} {r : R α} {Q : α → Prop} (h : ∀ a, r = .ok a → Q a) : (WM.lift r).Post Q := by
  intro s a s' hr
  cases r with
  | error e => cases hr
  | ok x =>
    change Except.ok (x, s) = _ at hr
    injection hr with hr
    injection hr with h1 h2
    exact h a (by rw [h1])

theorem WM.Post.pure {α : Type} {a : α} {Q : α → Prop} (h : Q a) : (WM.pure a).Post Q := by
  intro s b s' hr
  change Except.ok (a, s) = _ at hr
  injection hr with hr
  injection hr with h1 h2
  exact h1 ▸ h

theorem WM.Post.forEach {α : Type} {l : List α} {body : α → WM Unit} {Q : α → Prop} (h : ∀ x ∈ l, (body x).Post fun _ => Q x) :
    (WM.forEach l body).Post fun _ => ∀ x ∈ l, Q x := by
  induction l with
  | nil => exact WM.Post.pure (by simp)
  | cons x l ih =>
    refine WM.Post.bind (Q := fun _ => Q x) (h x (by simp)) fun _ hx => ?_
    refine WM.Post.mono (ih fun y hy => h y (by simp [hy])) fun _ hl y hy => ?_
    rcases List.mem_cons.mp hy with rfl | hy
    · exact hx
    · exact hl y hy

/-- In a debug build a symbol without a code is noticed. -/
theorem getForValue_mem {pf : Platform} (hc : pf.checked = true) {t : HuffmanTable} (ht : TableOk t) {v : Nat} (hv : v < 256) {r : Nat × Nat}
    (h : t.getForValue pf v = .ok r) : v ∈ t.values := by
  by_contra hn
  have h0 := ht.none v hv hn
  unfold HuffmanTable.getForValue idx debugAssert at h
  rw [h0, hc] at h
  cases h

theorem writeDc_post {pf : Platform} (hc : pf.checked = true) {t : HuffmanTable} (ht : TableOk t) {v p : Int} (hd : (v - p).natAbs ≤ 16383) :
    (writeDc pf v p t).Post fun _ => catOf (v - p) ∈ t.values := by
  unfold writeDc
  refine WM.Post.bind (Q := fun d => d = v - p) (WM.Post.lift fun d h => ?_) fun d hd' => ?_
  · rw [ckI16_ok (by omega) (by omega)] at h
    exact (Except.ok.inj h).symm
  subst hd'
  refine WM.Post.bind (Q := fun r => r.1 = catOf (v - p)) (WM.Post.lift fun r h => ?_) ?_
  · rw [getCode_eq pf _ hd] at h
    exact (congrArg Prod.fst (Except.ok.inj h)).symm
  rintro ⟨size, val⟩ rfl
  unfold huffmanEncodeValue
  refine WM.Post.bind (Q := fun _ => catOf (v - p) ∈ t.values) (WM.Post.lift fun r h => ?_) fun _ hq => WM.Post.const _ hq
  have : catOf (v - p) ≤ 14 := bitLen_le (by omega)
  exact getForValue_mem hc ht (by omega) h

/-- The body of a scan is run in a fresh state at the start and after every restart. -/
theorem scanLoop_post {α σ : Type} {pf : Platform} {n : Nat} (hn : n < 65536) {reset : σ → σ} {s0 : σ} (hr : ∀ s, reset s = s0) {body : α → σ → WM σ}
    {Q : α → Prop} (items : List α) (hb : ∀ x ∈ items, (body x s0).Post fun _ => Q x) :
    ∀ r g s, g ≤ n → 0 < n → (scanLoop pf n reset body items (⟨r, g⟩, s)).Post fun _ => ∀ k x, items[g + k * n]? = some x → Q x := by
  induction items with
  | nil => intro r g s _ _; exact WM.Post.const _ (by simp)
  | cons a items ih =>
    intro r g s hg h0
    have ih := ih fun x hx => hb x (by simp [hx])
    refine WM.Post.bind (Q := fun st : Rst × σ => (g = 0 → Q a ∧ st.1.toGo = n - 1) ∧ (g ≠ 0 → st.1.toGo = g - 1)) ?_ ?_
    · refine WM.Post.bind (Q := fun s' => g = 0 → s' = s0) ?_ fun s' hs' => ?_
      · unfold restartBefore
        split
        · refine WM.Post.bind (WM.Post.trivial _) fun _ _ => WM.Post.bind (WM.Post.trivial _) fun _ _ => WM.Post.pure fun _ => hr _
        · rename_i h
          exact WM.Post.pure fun hg0 => absurd ⟨h0, hg0⟩ h
      refine WM.Post.bind (Q := fun _ => g = 0 → Q a) ?_ fun s'' hq => ?_
      · by_cases hg0 : g = 0
        · rw [hs' hg0]
          exact (hb a (by simp)).mono fun _ h _ => h
        · exact WM.Post.const _ fun h => absurd h hg0
      refine WM.Post.bind (Q := fun rst : Rst => (g = 0 → rst.toGo = n - 1) ∧ (g ≠ 0 → rst.toGo = g - 1)) (WM.Post.lift fun rst h => ?_) fun rst h => ?_
      · unfold restartAfter at h
        rw [if_pos h0] at h
        dsimp only at h
        split at h
        · rename_i hg0
          rw [ckU16_ok (by omega) (by omega)] at h
          have := Except.ok.inj h
          subst this
          exact ⟨fun _ => by dsimp only; omega, fun h => absurd hg0 h⟩
        · rename_i hg0
          rw [ckU16_ok (by omega) (by omega)] at h
          have := Except.ok.inj h
          subst this
          exact ⟨fun h => absurd h hg0, fun _ => by dsimp only; omega⟩
      · exact WM.Post.pure ⟨fun h' => ⟨hq h', h.1 h'⟩, h.2⟩
    · rintro ⟨⟨r', g'⟩, s'⟩ ⟨h1, h2⟩
      refine (ih r' g' s' ?_ h0).mono fun _ hq k x hx => ?_
      · by_cases hg0 : g = 0
        · have := (h1 hg0).2; dsimp only at this; omega
        · have := h2 hg0; dsimp only at this; omega
      · by_cases hg0 : g = 0
        · obtain ⟨hqa, h3⟩ := h1 hg0
          dsimp only at h3
          subst hg0
          cases k with
          | zero =>
            simp only [Nat.zero_mul, Nat.add_zero, List.getElem?_cons_zero, Option.some.injEq] at hx
            exact hx ▸ hqa
          | succ k =>
            refine hq k x ?_
            rw [show 0 + (k + 1) * n = (g' + k * n) + 1 by rw [h3, Nat.succ_mul]; omega, List.getElem?_cons_succ] at hx
            exact hx
        · have h2 := h2 hg0
          dsimp only at h2
          refine hq k x ?_
          rw [show g + k * n = (g' + k * n) + 1 by omega, List.getElem?_cons_succ] at hx
          exact hx

/-- The same, with the first item. -/
theorem scanLoop_post' {α σ : Type} {pf : Platform} {n : Nat} (hn : n < 65536) {reset : σ → σ} {s0 : σ} (hr : ∀ s, reset s = s0) {body : α → σ → WM σ}
    {Q : α → Prop} (items : List α) (hb : ∀ x ∈ items, (body x s0).Post fun _ => Q x) :
    (scanLoop pf n reset body items (⟨0, n⟩, s0)).Post fun _ => ∀ k x, items[k * n]? = some x → Q x := by
  have hfirst : (scanLoop pf n reset body items (⟨0, n⟩, s0)).Post fun _ => ∀ x, items[0]? = some x → Q x := by
    cases items with
    | nil => exact WM.Post.const _ (by simp)
    | cons a items =>
      refine WM.Post.bind (Q := fun _ => Q a) ?_ fun _ hq => WM.Post.const _ fun x hx => by
        simp only [List.getElem?_cons_zero, Option.some.injEq] at hx; exact hx ▸ hq
      refine WM.Post.bind (Q := fun s' => s' = s0) ?_ fun s' hs' => ?_
      · unfold restartBefore
        dsimp only
        rw [if_neg (by omega)]
        exact WM.Post.pure rfl
      · subst hs'
        exact WM.Post.bind (hb a (by simp)) fun _ h => WM.Post.bind (WM.Post.trivial _) fun _ _ => WM.Post.const _ h
  by_cases h0 : n = 0
  · subst h0
    exact hfirst.mono fun _ h k x hx => h x (by simpa using hx)
  · have hrest := scanLoop_post (pf := pf) hn hr items hb 0 n s0 le_rfl (by omega)
    intro s a s' h k x hx
    cases k with
    | zero => exact hfirst s a s' h x (by simpa using hx)
    | succ k => exact hrest s a s' h k x (by rw [← hx, Nat.succ_mul, Nat.add_comm])

section
variable {pf : Platform} (hc : pf.checked = true) {e : Encoder} {blocks : Blocks} {c : Component} {i : Nat} (hi : e.interval < 65536) (hd : c.dcHuffmanTable < 2)
  (ht : TableOk (tabOf e.huffmanTables c.dcHuffmanTable).dc) {bs : List (List Int)} (hbs : blocks[i]? = some bs) (hg : ∀ b ∈ bs, GoodBlock b)
include hc hi hd ht hbs hg

theorem sequentialScan_post : (sequentialScan pf e blocks (c, i)).Post fun _ => ∀ k b, bs[k * e.interval]? = some b →
    catOf (b.getD 0 0) ∈ (tabOf e.huffmanTables c.dcHuffmanTable).dc.values := by
  unfold sequentialScan
  refine WM.Post.bind (WM.Post.trivial _) fun _ _ => ?_
  refine WM.Post.bind (Q := fun b => b = bs) (WM.Post.lift fun b h => ?_) ?_
  · unfold idx at h
    dsimp only at h
    rw [hbs] at h
    exact (Except.ok.inj h).symm
  rintro _ rfl
  refine WM.Post.bind (scanLoop_post' hi (fun _ => rfl) _ (Q := fun b => catOf (b.getD 0 0) ∈ (tabOf e.huffmanTables c.dcHuffmanTable).dc.values) fun b hb => ?_)
    fun _ hq => WM.Post.const _ hq
  refine WM.Post.bind (Q := fun p => p = tabOf e.huffmanTables c.dcHuffmanTable) (WM.Post.lift fun p h => ?_) ?_
  · rw [pairIdx_tab _ hd] at h
    exact (Except.ok.inj h).symm
  rintro _ rfl
  refine WM.Post.bind (WM.Post.trivial _) fun _ _ => ?_
  refine WM.Post.bind (Q := fun _ => catOf (b.getD 0 0) ∈ (tabOf e.huffmanTables c.dcHuffmanTable).dc.values) ?_ fun _ hq => WM.Post.const _ hq
  unfold writeBlock
  have hgb := hg b hb
  refine WM.Post.bind (Q := fun d => d = b.getD 0 0) (WM.Post.lift fun d h => ?_) ?_
  · unfold idx at h
    have : b[0]? = some (b.getD 0 0) := by rw [List.getD_eq_getElem?_getD, List.getElem?_eq_getElem (by rw [hgb.len]; omega)]; rfl
    rw [this] at h
    exact (Except.ok.inj h).symm
  rintro _ rfl
  refine WM.Post.bind (writeDc_post hc ht (p := 0) (by have := hgb.dc; omega)) fun _ hq => WM.Post.const _ (by rwa [Int.sub_zero] at hq)

theorem dcScan_post : (dcScan pf e blocks (c, i)).Post fun _ => ∀ k b, bs[k * e.interval]? = some b →
    catOf (b.getD 0 0) ∈ (tabOf e.huffmanTables c.dcHuffmanTable).dc.values := by
  unfold dcScan
  refine WM.Post.bind (WM.Post.trivial _) fun _ _ => ?_
  refine WM.Post.bind (Q := fun b => b = bs) (WM.Post.lift fun b h => ?_) ?_
  · unfold idx at h
    dsimp only at h
    rw [hbs] at h
    exact (Except.ok.inj h).symm
  rintro _ rfl
  refine WM.Post.bind (scanLoop_post' hi (fun _ => rfl) _ (Q := fun b => catOf (b.getD 0 0) ∈ (tabOf e.huffmanTables c.dcHuffmanTable).dc.values) fun b hb => ?_)
    fun _ hq => WM.Post.const _ hq
  have hgb := hg b hb
  refine WM.Post.bind (Q := fun d => d = b.getD 0 0) (WM.Post.lift fun d h => ?_) ?_
  · unfold idx at h
    have : b[0]? = some (b.getD 0 0) := by rw [List.getD_eq_getElem?_getD, List.getElem?_eq_getElem (by rw [hgb.len]; omega)]; rfl
    rw [this] at h
    exact (Except.ok.inj h).symm
  rintro _ rfl
  refine WM.Post.bind (Q := fun p => p = tabOf e.huffmanTables c.dcHuffmanTable) (WM.Post.lift fun p h => ?_) ?_
  · rw [pairIdx_tab _ hd] at h
    exact (Except.ok.inj h).symm
  rintro _ rfl
  refine WM.Post.bind (writeDc_post hc ht (p := 0) (by have := hgb.dc; omega)) fun _ hq => WM.Post.const _ (by rwa [Int.sub_zero] at hq)

end

section
variable {op : Operations} {F : List Int → List Int} (hop : OpOk op F) {pf : Platform} (hpf : pf.Valid) (hc : pf.checked = true) {e : Encoder}
  {image : ImageBuffer} {P : Nat → Nat → Nat → UInt8} (hdl : Delivers image P) (hw : image.width ≠ 0) (hh : image.height ≠ 0)
include hop hpf hc hdl hw hh

/-- A debug build that succeeds with optimised tables has met no restart with an uncounted symbol. -/
theorem encode_post (hfit : Fits pf (maxSamplingSize (initComponents e.samplingFactor image.colorType)).1 (maxSamplingSize (initComponents e.samplingFactor image.colorType)).2
      image.width.toNat image.height.toNat) (ho : e.optimizeHuffmanTable = true) {t : HuffPair × HuffPair}
    (hopt : (e.atWork image.colorType).optimizeIf pf (e.blocks F image P) = .ok ((e.atWork image.colorType).withTables t))
    (htab : ∀ c ∈ initComponents e.samplingFactor image.colorType, TableOk (tabOf t c.dcHuffmanTable).dc) :
    (e.encodeImageInternal pf op image).Post fun _ => ∀ (c : Component) (i : Nat) (bs : List (List Int)), (initComponents e.samplingFactor image.colorType)[i]? = some c →
      (e.blocks F image P)[i]? = some bs → ∀ k b, bs[k * e.interval]? = some b → catOf (b.getD 0 0) ∈ (tabOf t c.dcHuffmanTable).dc.values := by
  have hw' : image.width.toNat ≠ 0 := by intro h; exact hw (by rw [← UInt16.toNat_inj]; simpa using h)
  have hh' : image.height.toNat ≠ 0 := by intro h; exact hh (by rw [← UInt16.toNat_inj]; simpa using h)
  obtain ⟨hg, hnc⟩ := initComponents_grid e.samplingFactor image.colorType
  have hbl := encodeBlocks_ok hdl hw' hh' hpf hop (steps_length e.quantizationTables.1 e.quality.toNat true)
    (steps_length e.quantizationTables.2 e.quality.toNat false) (steps_range _ _ _) (steps_range _ _ _) (e := e.atWork image.colorType) hg hnc.symm hfit
  have hri : e.interval < 65536 := by
    unfold Encoder.interval
    cases e.restartInterval with
    | none => simp
    | some n => simpa using n.toNat_lt
  have hbg := blocks_good hop P hw hh (e := e) (image := image)
  unfold Encoder.encodeImageInternal
  rw [if_neg (by simp [hw, hh])]
  refine WM.Post.bind (Q := fun q => q = mkQ e.steps0) (WM.Post.lift fun q h => ?_) ?_
  · rw [newWithQuality_eq] at h; exact (Except.ok.inj h).symm
  rintro _ rfl
  refine WM.Post.bind (Q := fun q => q = mkQ e.steps1) (WM.Post.lift fun q h => ?_) ?_
  · rw [newWithQuality_eq] at h; exact (Except.ok.inj h).symm
  rintro _ rfl
  dsimp only
  refine WM.Post.bind (WM.Post.trivial _) fun _ _ => WM.Post.bind (WM.Post.trivial _) fun _ _ => WM.Post.bind (WM.Post.trivial _) fun _ _ =>
    WM.Post.bind (WM.Post.trivial _) fun _ _ => ?_
  refine WM.Post.bind (Q := fun _ => ∀ (c : Component) (i : Nat) (bs : List (List Int)), (initComponents e.samplingFactor image.colorType)[i]? = some c →
      (e.blocks F image P)[i]? = some bs → ∀ k b, bs[k * e.interval]? = some b → catOf (b.getD 0 0) ∈ (tabOf t c.dcHuffmanTable).dc.values) ?_
    fun _ hq => WM.Post.const _ hq
  change ((e.atWork image.colorType).encodeScans pf op image (mkQ e.steps0, mkQ e.steps1)).Post _
  unfold Encoder.encodeScans
  have hblocks : ∀ b, encodeBlocks pf (e.atWork image.colorType) op image (mkQ e.steps0, mkQ e.steps1) = .ok b → b = e.blocks F image P := by
    intro b h
    rw [show encodeBlocks pf (e.atWork image.colorType) op image (mkQ e.steps0, mkQ e.steps1) = _ from hbl] at h
    exact (Except.ok.inj h).symm
  have hopt' : ∀ e', (e.atWork image.colorType).optimizeIf pf (e.blocks F image P) = .ok e' → e' = (e.atWork image.colorType).withTables t := by
    intro e' h
    rw [hopt] at h
    exact (Except.ok.inj h).symm
  split
  · unfold Encoder.encodeProgressive
    refine WM.Post.bind (WM.Post.lift hblocks) ?_
    rintro _ rfl
    refine WM.Post.bind (WM.Post.lift hopt') ?_
    rintro _ rfl
    refine WM.Post.bind (WM.Post.trivial _) fun _ _ => ?_
    refine WM.Post.bind (WM.Post.forEach (Q := fun ci => ∀ bs, (e.blocks F image P)[ci.2]? = some bs → ∀ k b, bs[k * e.interval]? = some b →
      catOf (b.getD 0 0) ∈ (tabOf t ci.1.dcHuffmanTable).dc.values) ?_) fun _ hq => WM.Post.const _ fun c i bs hc hb => ?_
    · rintro ⟨c, i⟩ hci
      obtain ⟨bs, h1, h2, h3, h4, h5⟩ := hbg (c, i) hci
      have hcm := List.mem_of_getElem? (List.mem_zipIdx_iff_getElem?.mp hci)
      refine (dcScan_post hc (e := (e.atWork image.colorType).withTables t) hri (by have := hg.ok.dc c hcm; omega) (htab c hcm) h1 h3).mono fun _ hq bs' hb' => ?_
      rw [h1] at hb'
      cases hb'
      exact hq
    · exact hq (c, i) (List.mem_zipIdx_iff_getElem?.mpr hc) bs hb
  · rw [if_pos (by rw [show (e.atWork image.colorType).optimizeHuffmanTable = true from ho]; rfl)]
    unfold Encoder.encodeSequential
    refine WM.Post.bind (WM.Post.lift hblocks) ?_
    rintro _ rfl
    refine WM.Post.bind (WM.Post.lift hopt') ?_
    rintro _ rfl
    refine WM.Post.bind (WM.Post.trivial _) fun _ _ => ?_
    refine WM.Post.mono (WM.Post.forEach (Q := fun ci => ∀ bs, (e.blocks F image P)[ci.2]? = some bs → ∀ k b, bs[k * e.interval]? = some b →
      catOf (b.getD 0 0) ∈ (tabOf t ci.1.dcHuffmanTable).dc.values) ?_) fun _ hq c i bs hc hb => ?_
    · rintro ⟨c, i⟩ hci
      obtain ⟨bs, h1, h2, h3, h4, h5⟩ := hbg (c, i) hci
      have hcm := List.mem_of_getElem? (List.mem_zipIdx_iff_getElem?.mp hci)
      refine (sequentialScan_post hc (e := (e.atWork image.colorType).withTables t) hri (by have := hg.ok.dc c hcm; omega) (htab c hcm) h1 h3).mono fun _ hq bs' hb' => ?_
      rw [h1] at hb'
      cases hb'
      exact hq
    · exact hq (c, i) (List.mem_zipIdx_iff_getElem?.mpr hc) bs hb

end

end Jpeg
