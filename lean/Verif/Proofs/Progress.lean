import Verif.Proofs.Bundle
/-! Baseline files are written MCU row by MCU row: what has been written when the first row of an MCU row is requested. -/
namespace Jpeg
open _root_.Spec

/-- `m` writes `out` and ends with the result `r`. -/
def Runs {α : Type} (m : WM α) (s : BitState) (out : Bytes) (r : R (α × BitState)) : Prop := (m s).exec = (out, r)

theorem Emits.runs_bind {α β : Type} {m : WM α} {f : α → WM β} {s s1 : BitState} {o1 o2 : Bytes} {a : α} {r : R (β × BitState)}
    (h1 : Emits m s o1 a s1) (h2 : Runs (f a) s1 o2 r) : Runs (m >>= f) s (o1 ++ o2) r := by
  unfold Emits at h1
  unfold Runs at *
  change ((m s).bind _).exec = _
  simp only [Prog.exec_bind, h1, h2]

theorem Runs.lift_ok {α β : Type} {x : R α} {a : α} {f : α → WM β} {s : BitState} {o : Bytes} {r : R (β × BitState)}
    (h : x = .ok a) (h2 : Runs (f a) s o r) : Runs (WM.lift x >>= f) s o r :=
  (Emits.lift s h).runs_bind h2

theorem Runs.fail_bind {α β : Type} {m : WM α} {f : α → WM β} {s : BitState} {o : Bytes} {x : Fail}
    (h : Runs m s o (.error x)) : Runs (m >>= f) s o (.error x) := by
  unfold Runs at *
  change ((m s).bind _).exec = _
  simp only [Prog.exec_bind, h, Prog.exec, List.append_nil]

theorem Runs.lift_fail {α : Type} {r : R α} {s : BitState} {x : Fail} (h : r = .error x) : Runs (WM.lift r) s [] (.error x) := by
  subst h; rfl

/-- A run of a sequence begins with the run of its first part. -/
theorem Emits.runs_any {α β : Type} {m : WM α} (f : α → WM β) {s s1 : BitState} {o1 : Bytes} {a : α}
    (h1 : Emits m s o1 a s1) : ∃ o2 r, Runs (f a) s1 o2 r ∧ Runs (m >>= f) s (o1 ++ o2) r :=
  ⟨_, _, rfl, h1.runs_bind rfl⟩

theorem Runs.bind_prefix {α β : Type} {m : WM α} {f : α → WM β} {s : BitState} {o : Bytes} {r : R (α × BitState)} (h : Runs m s o r) :
    ∃ o2 r', Runs (m >>= f) s (o ++ o2) r' := by
  unfold Runs at *
  change ∃ o2 r', ((m s).bind _).exec = _
  simp only [Prog.exec_bind, h]
  exact ⟨_, _, rfl⟩

theorem forFold_append {α β : Type} (l1 l2 : List α) (s : β) (body : β → α → WM β) {b b1 : BitState} {o1 : Bytes} {s1 : β}
    (h1 : Emits (WM.forFold l1 s body) b o1 s1 b1) {o2 : Bytes} {r : R (β × BitState)} (h2 : Runs (WM.forFold l2 s1 body) b1 o2 r) :
    Runs (WM.forFold (l1 ++ l2) s body) b (o1 ++ o2) r := by
  induction l1 generalizing s b o1 with
  | nil =>
    unfold Emits WM.forFold at h1
    cases h1
    exact h2
  | cons x l1 ih =>
    change ((WM.bind (body s x) fun s' => WM.forFold l1 s' body) b).exec = _ at h1
    change ((WM.bind (body s x) fun s' => WM.forFold (l1 ++ l2) s' body) b).exec = _
    unfold WM.bind at h1 ⊢
    rw [Prog.exec_bind] at h1 ⊢
    cases hx : (body s x b).exec.2 with
    | error e => rw [hx] at h1; simp [Prog.exec] at h1
    | ok a =>
      rw [hx] at h1
      obtain ⟨s', b'⟩ := a
      simp only at h1 ⊢
      have hc : (WM.forFold l1 s' body b').exec = ((WM.forFold l1 s' body b').exec.1, .ok (s1, b1)) :=
        Prod.ext rfl (Prod.ext_iff.mp h1).2
      have := ih s' hc
      unfold Runs at this
      have h0 : (body s x b).exec.1 ++ (WM.forFold l1 s' body b').exec.1 = o1 := (Prod.ext_iff.mp h1).1
      rw [this, ← h0]
      simp

theorem forFold_congr {α β : Type} (l : List α) (s : β) (f g : β → α → WM β) (h : ∀ s, ∀ x ∈ l, f s x = g s x) : WM.forFold l s f = WM.forFold l s g := by
  induction l generalizing s with
  | nil => rfl
  | cons x l ih =>
    change WM.bind (f s x) _ = WM.bind (g s x) _
    rw [h s x (by simp)]
    congr 1
    funext s'
    exact ih s' fun s y hy => h s y (by simp [hy])

theorem forFoldR_congr {α β : Type} (l : List α) (s : β) (f g : β → α → R β) (h : ∀ s, ∀ x ∈ l, f s x = g s x) : forFoldR l s f = forFoldR l s g := by
  induction l generalizing s with
  | nil => rfl
  | cons x l ih =>
    simp only [forFoldR]
    rw [h s x (by simp)]
    congr 1
    funext s'
    exact ih s' fun s y hy => h s y (by simp [hy])

theorem fillLine_agree {a b : ImageBuffer} (hw : a.width = b.width) {n y : Nat} (hf : ∀ y : UInt16, y.toNat < n → a.fillBuffers y = b.fillBuffers y)
    (ha : n ≤ a.height.toNat) (hb : n ≤ b.height.toNat) (hy : y < n) (bw : Nat) (rows : Rows) : fillLine a y bw rows = fillLine b y bw rows := by
  have h1 := a.height.toNat_lt
  unfold fillLine
  have e1 : min y (a.height.toNat - 1) = y := by omega
  have e2 : min y (b.height.toNat - 1) = y := by omega
  simp only [e1, e2]
  rw [hf (UInt16.ofNat y) (by rw [UInt16.toNat_ofNat']; rw [Nat.mod_eq_of_lt (by omega)]; exact hy), hw]

/-- The rows of an MCU row above row `n`. -/
theorem fillMcuRow_agree {pf : Platform} (hpf : pf.Valid) {a b : ImageBuffer} (hw : a.width = b.width) {n mv r y : Nat} (hn : n = r * (8 * mv))
    (hf : ∀ y : UInt16, y.toNat < n → a.fillBuffers y = b.fillBuffers y)
    (ha : n ≤ a.height.toNat) (hb : n ≤ b.height.toNat) (hy : y < r) (bw : Nat) (rows : Rows) :
    fillMcuRow pf a mv bw y rows = fillMcuRow pf b mv bw y rows := by
  unfold fillMcuRow
  refine forFoldR_congr _ _ _ _ fun s k hk => ?_
  have hk' := List.mem_range.mp hk
  have hlt := a.height.toNat_lt
  have e1 : y * 8 * mv = y * (8 * mv) := by ring
  have e2 : (y + 1) * (8 * mv) = y * (8 * mv) + 8 * mv := by ring
  have e3 : (y + 1) * (8 * mv) ≤ n := by rw [hn]; exact Nat.mul_le_mul_right _ hy
  rw [ckUsize_ok hpf (by omega) (by omega), ok_bind, ok_bind]
  exact fillLine_agree hw hf ha hb (by omega) bw s

theorem forFoldR_append {α β : Type} (l1 l2 : List α) (s : β) (body : β → α → R β) {s1 : β} (h : forFoldR l1 s body = .ok s1) :
    forFoldR (l1 ++ l2) s body = forFoldR l2 s1 body := by
  induction l1 generalizing s with
  | nil =>
    obtain rfl := Except.ok.inj h
    rfl
  | cons x l1 ih =>
    simp only [forFoldR, List.cons_append] at h ⊢
    cases hx : body s x with
    | error e => rw [hx] at h; cases h
    | ok s' =>
      rw [hx] at h
      exact ih s' h

/-- A row that is not available ends the loop. -/
theorem fillLines_stops {b : ImageBuffer} {x : Fail} {m : Nat} (hf : ∀ y : UInt16, y.toNat = m → ∀ rows, b.fillBuffers y rows = .error x) (hm : m < b.height.toNat)
    (l : List Nat) (bw : Nat) (rows : Rows) : forFoldR (m :: l) rows (fun rows y => fillLine b y bw rows) = .error x := by
  have hlt := b.height.toNat_lt
  have e2 : min m (b.height.toNat - 1) = m := by omega
  simp only [forFoldR]
  unfold fillLine
  dsimp only
  rw [e2, hf (UInt16.ofNat m) (by rw [UInt16.toNat_ofNat', Nat.mod_eq_of_lt (by omega)])]
  rfl

/-- The lines above row `m` are read, then row `m` is requested. -/
theorem fillLines_until {a b : ImageBuffer} {P : Nat → Nat → Nat → UInt8} (hd : Delivers a P) (hw : a.width.toNat ≠ 0) (hh : a.height.toNat ≠ 0)
    (hbw' : b.width = a.width) {x : Fail} {m : Nat}
    (hf : ∀ y : UInt16, y.toNat = m → ∀ rows, b.fillBuffers y rows = .error x) (hm : m < b.height.toNat) (hma : m < a.height.toNat)
    (hag : ∀ y : UInt16, y.toNat < m → b.fillBuffers y = a.fillBuffers y) {start k : Nat} (hk : start + k = m) (l : List Nat) {bw cap : Nat}
    (hbw : a.width.toNat ≤ bw) (D : Nat → Bytes) (hcap : ∀ c, c < a.colorType.numComponents → (D c).length + bw * k ≤ cap) :
    forFoldR ((List.range k).map (start + ·) ++ m :: l) (mkRows a.colorType.numComponents cap D) (fun rows y => fillLine b y bw rows) = .error x := by
  have h1 : forFoldR ((List.range k).map (start + ·)) (mkRows a.colorType.numComponents cap D) (fun rows y => fillLine b y bw rows) =
      forFoldR ((List.range k).map (start + ·)) (mkRows a.colorType.numComponents cap D) (fun rows y => fillLine a y bw rows) := by
    refine forFoldR_congr _ _ _ _ fun s y hy => ?_
    simp only [List.mem_map, List.mem_range] at hy
    obtain ⟨j, hj, rfl⟩ := hy
    exact fillLine_agree hbw' hag (by omega) (by omega) (by omega) bw s
  rw [fillLines_ok hd hw hh hbw _ D (by simpa using hcap)] at h1
  rw [forFoldR_append _ _ _ _ h1]
  exact fillLines_stops hf hm l bw _

/-- MCU row `r` cannot be read completely. -/
theorem fillMcuRow_stops {pf : Platform} (hpf : pf.Valid) {a b : ImageBuffer} {P : Nat → Nat → Nat → UInt8} (hd : Delivers a P) (hw : a.width.toNat ≠ 0)
    (hh : a.height.toNat ≠ 0) (hbw' : b.width = a.width) {x : Fail} {m : Nat}
    (hf : ∀ y : UInt16, y.toNat = m → ∀ rows, b.fillBuffers y rows = .error x) (hm : m < b.height.toNat) (hma : m < a.height.toNat)
    (hag : ∀ y : UInt16, y.toNat < m → b.fillBuffers y = a.fillBuffers y) {mv r : Nat} (h1 : r * (8 * mv) ≤ m) (h2 : m < (r + 1) * (8 * mv))
    {bw cap : Nat} (hbw : a.width.toNat ≤ bw) (hcap : bw * (8 * mv) ≤ cap) (hsz : (r + 1) * (8 * mv) < 2 ^ 32) (D : Nat → Bytes) :
    fillMcuRow pf b mv bw r (mkRows a.colorType.numComponents cap D) = .error x := by
  have e1 : ∀ k, k + r * 8 * mv = r * (8 * mv) + k := fun k => by ring
  have e2 : (r + 1) * (8 * mv) = r * (8 * mv) + 8 * mv := by ring
  have hclear : (mkRows a.colorType.numComponents cap D).map Buf.clear = mkRows a.colorType.numComponents cap fun _ => [] := by
    rw [mkRows, map_ofFn]
    unfold mkRows
    congr 1
    funext c
    split <;> rfl
  unfold fillMcuRow
  rw [hclear]
  have hmap : ∀ (l : List Nat) (rows : Rows), (∀ k ∈ l, k < 8 * mv) → forFoldR l rows (fun rows y => do
        let yy ← ckUsize pf ((y + r * 8 * mv : Nat) : Int)
        fillLine b yy bw rows) = forFoldR (l.map (r * (8 * mv) + ·)) rows (fun rows y => fillLine b y bw rows) := by
    intro l
    induction l with
    | nil => intro rows _; rfl
    | cons k l ih =>
      intro rows hk
      have hk' := hk k (by simp)
      simp only [forFoldR, List.map_cons]
      rw [ckUsize_ok hpf (by omega) (by rw [e1]; omega), ok_bind, Int.toNat_natCast, e1]
      congr 1
      funext rows'
      exact ih rows' fun k hk2 => hk k (by simp [hk2])
  rw [hmap _ _ fun k hk => List.mem_range.mp hk]
  obtain ⟨j, rfl⟩ : ∃ j, m = r * (8 * mv) + j := ⟨m - r * (8 * mv), by omega⟩
  obtain ⟨i, hi⟩ : ∃ i, 8 * mv = j + (1 + i) := ⟨8 * mv - j - 1, by omega⟩
  have hl : (List.range (8 * mv)).map (r * (8 * mv) + ·) =
      (List.range j).map (r * (8 * mv) + ·) ++ (r * (8 * mv) + j) :: ((List.range i).map fun k => r * (8 * mv) + (j + (1 + k))) := by
    conv_lhs => rw [show List.range (8 * mv) = List.range (j + (1 + i)) by rw [hi]]
    rw [List.range_add, List.range_add, List.map_append, List.map_append]
    simp [Function.comp_def]
  rw [hl]
  refine fillLines_until hd hw hh hbw' hf hm hma hag rfl _ hbw _ fun c _ => ?_
  rw [List.length_nil, Nat.zero_add]
  exact le_trans (Nat.mul_le_mul_left _ (by omega)) hcap

/-- Reading all rows of the image ends at a row that is not available. -/
theorem encodeBlocks_stops {pf : Platform} (hpf : pf.Valid) {a b : ImageBuffer} {P : Nat → Nat → Nat → UInt8} (hd : Delivers a P) (hw : a.width.toNat ≠ 0)
    (hh : a.height.toNat ≠ 0) (hbw' : b.width = a.width) (hbh' : b.height = a.height) {x : Fail} {m : Nat}
    (hf : ∀ y : UInt16, y.toNat = m → ∀ rows, b.fillBuffers y rows = .error x) (hm : m < b.height.toNat) (hma : m < a.height.toNat)
    (hag : ∀ y : UInt16, y.toNat < m → b.fillBuffers y = a.fillBuffers y) (op : Operations)
    (q : QuantizationTable × QuantizationTable) {e : Encoder} {mh mv : Nat} (hg : Grid e.components mh mv) (hnc : a.colorType.numComponents = e.components.length)
    (hfit : Fits pf mh mv a.width.toNat a.height.toNat) : encodeBlocks pf e op b q = .error x := by
  have hwl : a.width.toNat < 65536 := a.width.toNat_lt
  have hhl : a.height.toNat < 65536 := a.height.toNat_lt
  obtain ⟨wa, wb, wc⟩ := ceil_mul_lt hg.mh.1 hg.mh.2 (show 1 ≤ a.width.toNat by omega)
  obtain ⟨ha, hb, hc⟩ := ceil_mul_lt hg.mv.1 hg.mv.2 (show 1 ≤ a.height.toNat by omega)
  have hmh := hg.mh
  have hmv := hg.mv
  have hfl := hfit
  unfold Fits at hfl
  have h2 := two_pow_pred_le pf.wordBits
  unfold encodeBlocks
  rw [hg.max]
  dsimp only
  rw [ceilDiv_eq (by omega), ok_bind, hbw', hbh']
  have eW : (a.width.toNat + 8 * mh - 1) / (8 * mh) = _root_.Spec.ceilDiv a.width.toNat (8 * mh) := rfl
  have eH : (a.height.toNat + 8 * mv - 1) / (8 * mv) = _root_.Spec.ceilDiv a.height.toNat (8 * mv) := rfl
  rw [eW]
  generalize hA : _root_.Spec.ceilDiv a.width.toNat (8 * mh) = A at *
  generalize hB : _root_.Spec.ceilDiv a.height.toNat (8 * mv) = B at *
  have eA : A * (8 * mh) = A * mh * 8 := by ring
  have eB : B * (8 * mv) = B * mv * 8 := by ring
  rw [eA] at wa wb hfl
  rw [eB] at ha hb hfl
  have hAm : 1 ≤ A * mh := Nat.mul_pos wc hmh.1
  have hBm : 1 ≤ B * mv := Nat.mul_pos hc hmv.1
  have hAB : A * mh * (B * mv) * 64 = A * mh * 8 * (B * mv * 8) := by ring
  have hABb : A * mh * (B * mv) ≤ A * mh * (B * mv) * 64 := by omega
  have hw2 : (2 : Nat) ^ 31 ≤ 2 ^ pf.wordBits := by
    apply Nat.pow_le_pow_right (by omega)
    rcases hpf with h | h <;> simp [Platform.wordBits, h]
  obtain ⟨i, hi⟩ : ∃ i, B * mv * 8 = m + (1 + i) := ⟨B * mv * 8 - m - 1, by omega⟩
  have hl : List.range (B * mv * 8) = (List.range m).map (0 + ·) ++ m :: ((List.range i).map fun k => m + (1 + k)) := by
    rw [hi, List.range_add, List.range_add]
    simp [Function.comp_def]
  rw [ckUsize_of_lt (by omega), ok_bind, ceilDiv_eq (by omega), ok_bind, eH, ckUsize_of_lt (by omega), ok_bind,
    show decide (A * mh > 0) = true from decide_eq_true hAm, show decide (B * mv > 0) = true from decide_eq_true hBm,
    debugAssert_true, ok_bind, ok_bind, ckUsize_of_lt (by omega), ok_bind, ckUsize_of_lt (by omega), ok_bind,
    ckUsize_of_lt (by omega), ok_bind, initRows_ok pf hg.nc (by omega), ok_bind, ← hnc, hl,
    fillLines_until hd hw hh hbw' hf hm hma hag (by omega) _ wa (fun _ => []) (by
      intro c _
      rw [List.length_nil, Nat.zero_add, hAB, hi]
      exact Nat.mul_le_mul_left _ (by omega))]
  rfl

theorem stuff_length_le (l : Bytes) : (stuff l).length ≤ 2 * l.length := by
  induction l with
  | nil => simp [stuff]
  | cons b l ih =>
    rw [show b :: l = [b] ++ l from rfl, stuff_append, List.length_append, List.length_append]
    have : (stuff [b]).length ≤ 2 := by simp only [stuff, List.flatMap_cons, List.flatMap_nil, List.append_nil]; split <;> simp
    simp only [List.length_singleton]
    omega

section
variable {image : ImageBuffer} {P : Nat → Nat → Nat → UInt8} (hd : Delivers image P)
  (hw : image.width.toNat ≠ 0) (hh : image.height.toNat ≠ 0)
  {pf : Platform} (hpf : pf.Valid) {op : Operations} {F : List Int → List Int} (hop : OpOk op F) {s0 s1 : List Nat}
  (hl0 : s0.length = 64) (hl1 : s1.length = 64) (hs0 : ∀ v ∈ s0, 1 ≤ v ∧ v ≤ 2048) (hs1 : ∀ v ∈ s1, 1 ≤ v ∧ v ≤ 2048)
  {e : Encoder} {mh mv : Nat} (hg : Grid e.components mh mv) (hnc : image.colorType.numComponents = e.components.length)
  (hri : e.interval < 65536)
include hd hw hh hpf hop hl0 hl1 hs0 hs1 hg hnc hri

/-- The interleaved scan of an image of whole MCU rows, and of any higher image with the same rows above. -/
theorem interleaved_split {r : Nat} (hr : image.height.toNat = r * (8 * mv))
    (hok : ∀ g ∈ intervals e.interval (raster (_root_.Spec.ceilDiv image.height.toNat (8 * mv)) (_root_.Spec.ceilDiv image.width.toNat (8 * mh))),
      (scanCoder e.huffmanTables e.components 0 63 (coefsOf F s0 s1 image.width.toNat image.height.toNat P mh mv
        e.components)).UnitsOk (g.flatMap (mcuUnits e.components)) fun _ => 0) :
    ∃ mid fin : Bytes, fin.length ≤ 2 * pf.wordBytes ∧
      (∀ hdr, Emits (e.writeFrameHeader pf image (mkQ s0, mkQ s1)) (BitState.init pf) hdr () (BitState.init pf) →
        Emits (e.encodeInterleaved pf op image (mkQ s0, mkQ s1)) (BitState.init pf) (hdr ++ (mid ++ fin)) () (BitState.init pf)) ∧
      ∀ b : ImageBuffer, b.width = image.width → image.height.toNat < b.height.toNat →
        (∀ y : UInt16, y.toNat < image.height.toNat → b.fillBuffers y = image.fillBuffers y) →
        ∀ hdr, Emits (e.writeFrameHeader pf b (mkQ s0, mkQ s1)) (BitState.init pf) hdr () (BitState.init pf) →
        (∃ rest res, Runs (e.encodeInterleaved pf op b (mkQ s0, mkQ s1)) (BitState.init pf) (hdr ++ mid ++ rest) res) ∧
        ∀ x, (∀ bw cap D, image.width.toNat ≤ bw → bw * (8 * mv) ≤ cap →
            fillMcuRow pf b mv bw r (mkRows image.colorType.numComponents cap D) = .error x) →
          Runs (e.encodeInterleaved pf op b (mkQ s0, mkQ s1)) (BitState.init pf) (hdr ++ mid) (.error x) := by
  have hwl : image.width.toNat < 65536 := image.width.toNat_lt
  have hhl : image.height.toNat < 65536 := image.height.toNat_lt
  have hmh := hg.mh
  have hmv := hg.mv
  obtain ⟨wa, wb, wc⟩ := ceil_mul_lt hg.mh.1 hg.mh.2 (show 1 ≤ image.width.toNat by omega)
  have hsh := writeScanHeader_emits pf e.components hg.ok.four (fun c hc => ⟨by have := hg.ok.dc c hc; omega,
    by have := hg.ok.ac c hc; omega⟩) none (BitState.init pf)
  have eW : (image.width.toNat + 8 * mh - 1) / (8 * mh) = _root_.Spec.ceilDiv image.width.toNat (8 * mh) := rfl
  have eH : _root_.Spec.ceilDiv image.height.toNat (8 * mv) = r := by
    unfold _root_.Spec.ceilDiv
    rw [hr, show r * (8 * mv) + 8 * mv - 1 = (8 * mv - 1) + r * (8 * mv) by omega, Nat.add_mul_div_right _ _ (by omega),
      Nat.div_eq_of_lt (by omega), Nat.zero_add]
  rw [eH] at hok
  generalize hA : _root_.Spec.ceilDiv image.width.toNat (8 * mh) = A at *
  have eA : A * (8 * mh) = A * 8 * mh := by ring
  rw [eA] at wa wb
  have hbs : A * 8 * mh * 8 * mv = A * 8 * mh * (8 * mv) := by ring
  have hsz : A * 8 * mh * (8 * mv) ≤ 65567 * 32 := Nat.mul_le_mul (by omega) (by omega)
  have hw2 : (2 : Nat) ^ 32 ≤ 2 ^ pf.wordBits := by
    apply Nat.pow_le_pow_right (by omega)
    rcases hpf with h | h <;> simp [Platform.wordBits, h]
  have hw3 : (2 : Nat) ^ 31 ≤ 2 ^ (pf.wordBits - 1) := by
    apply Nat.pow_le_pow_right (by omega)
    rcases hpf with h | h <;> simp [Platform.wordBits, h]
  generalize hC : scanCoder e.huffmanTables e.components 0 63 (coefsOf F s0 s1 image.width.toNat image.height.toNat P mh mv
        e.components) = C at hok
  have hl : Coder.LoopSt Rep4 pf e.interval 0 e.interval (fun _ => 0) [] (BitState.init pf) ((⟨0, e.interval⟩ : Rst), [0, 0, 0, 0]) :=
    ⟨rfl, rfl, Nat.le_refl _, rep4_zero, BitRel.init pf⟩
  obtain ⟨out, D', a', st', r', g', p', pend', e1, e2, -⟩ := rows_emits hd hw hh hpf hop hl0 hl1 hs0 hs1 hg hnc hri (A := A)
    (cap := A * 8 * mh * 8 * mv) rfl wa (by omega) (by omega) (List.range r) (by
      intro y hy
      simp only [List.mem_range] at hy
      have : (y + 1) * (8 * mv) ≤ r * (8 * mv) := Nat.mul_le_mul_right _ hy
      omega) C hC.symm (fun _ => []) hl (C.futureOk_start e.interval _ fun g hg => (hok g hg).can _)
  have hfin := finalize_emits_pack pf hpf st' pend' e2.bits
  have hpl := e2.bits.len
  refine ⟨seg 0xDA (sosPayload e.components 0 63) ++ out, stuff (packBits pend'), ?_, fun hdr hhdr => ?_, fun b hbw hbh hbf hdr hhdr => ?_⟩
  · have := stuff_length_le (packBits pend')
    have h2 : (packBits pend').length ≤ pf.wordBytes := by
      obtain ⟨pad, hp, hb⟩ := bytesToBits_packBits pend'
      have := congrArg List.length hb
      rw [bytesToBits_length, List.length_append, List.length_replicate] at this
      unfold Platform.wordBits at hpl
      omega
    omega
  · unfold Encoder.encodeInterleaved
    refine Emits.bind' hhdr ?_
    rw [List.append_assoc]
    refine Emits.bind' hsh ?_
    rw [hg.max]
    dsimp only
    refine Emits.lift_bind (ceilDiv_eq (by omega)) ?_
    rw [eW]
    refine Emits.lift_bind (ceilDiv_eq (by omega)) ?_
    rw [show (image.height.toNat + 8 * mv - 1) / (8 * mv) = r from eH]
    refine Emits.lift_bind (ckUsize_of_lt (by omega)) ?_
    refine Emits.lift_bind (ckUsize_of_lt (n := A * 8 * mh * 8 * mv) (by omega)) ?_
    refine Emits.lift_bind (initRows_ok pf hg.nc (by omega)) ?_
    rw [← hnc]
    exact Emits.bind' e1 hfin
  · have hbl := b.height.toNat_lt
    obtain ⟨k, hk⟩ : ∃ k, (b.height.toNat + 8 * mv - 1) / (8 * mv) = r + (k + 1) := by
      have : r + 1 ≤ (b.height.toNat + 8 * mv - 1) / (8 * mv) := by
        rw [Nat.le_div_iff_mul_le (by omega), Nat.add_mul]
        omega
      exact ⟨(b.height.toNat + 8 * mv - 1) / (8 * mv) - r - 1, by omega⟩
    have hpre : ∀ (o : Bytes) (res : R (Unit × BitState)) , Runs (do
          let _ ← WM.forFold (List.range (r + (k + 1))) (mkRows image.colorType.numComponents (A * 8 * mh * 8 * mv) fun _ => [], (⟨0, e.interval⟩ : Rst), ([0, 0, 0, 0] : List Int))
            fun st blockY => do
              let rows ← WM.lift (fillMcuRow pf b mv (A * 8 * mh) blockY st.1)
              let s ← scanLoop pf e.interval (fun _ => [0, 0, 0, 0])
                (fun blockX prevDc => encodeMcu pf e op (mkQ s0, mkQ s1) rows mh mv (A * 8 * mh) blockX prevDc) (List.range A) st.2
              WM.pure (rows, s)
          finalizeBitBuffer pf) (BitState.init pf) o res →
        Runs (e.encodeInterleaved pf op b (mkQ s0, mkQ s1)) (BitState.init pf) (hdr ++ (seg 0xDA (sosPayload e.components 0 63) ++ o)) res := by
      intro o res hrun
      unfold Encoder.encodeInterleaved
      refine Emits.runs_bind hhdr ?_
      refine Emits.runs_bind hsh ?_
      rw [hg.max]
      dsimp only
      refine Runs.lift_ok (ceilDiv_eq (by omega)) ?_
      rw [hbw, eW]
      refine Runs.lift_ok (ceilDiv_eq (by omega)) ?_
      rw [hk]
      refine Runs.lift_ok (ckUsize_of_lt (by omega)) ?_
      refine Runs.lift_ok (ckUsize_of_lt (n := A * 8 * mh * 8 * mv) (by omega)) ?_
      refine Runs.lift_ok (initRows_ok pf hg.nc (by omega)) ?_
      rw [← hnc]
      exact hrun
    set body : Rows × Rst × List Int → Nat → WM (Rows × Rst × List Int) := fun st blockY => do
      let rows ← WM.lift (fillMcuRow pf b mv (A * 8 * mh) blockY st.1)
      let s ← scanLoop pf e.interval (fun _ => [0, 0, 0, 0])
        (fun blockX prevDc => encodeMcu pf e op (mkQ s0, mkQ s1) rows mh mv (A * 8 * mh) blockX prevDc) (List.range A) st.2
      WM.pure (rows, s) with hbody
    have e1' : Emits (WM.forFold (List.range r) (mkRows image.colorType.numComponents (A * 8 * mh * 8 * mv) fun _ => [], (⟨0, e.interval⟩ : Rst), ([0, 0, 0, 0] : List Int)) body)
        (BitState.init pf) out (mkRows image.colorType.numComponents (A * 8 * mh * 8 * mv) D', a') st' := by
      refine Eq.mpr (congrArg (fun m : WM _ => Emits m _ _ _ _) (forFold_congr _ _ _ _ fun s y hy => ?_)) e1
      rw [hbody]
      dsimp only
      rw [fillMcuRow_agree hpf hbw hr hbf (by omega) (Nat.le_refl _) (List.mem_range.mp hy)]
    have hsplit : List.range (r + (k + 1)) = List.range r ++ (List.range (k + 1)).map (r + ·) := List.range_add
    have hgo : ∀ o2 res, Runs (WM.forFold ((List.range (k + 1)).map (r + ·)) (mkRows image.colorType.numComponents (A * 8 * mh * 8 * mv) D', a') body) st' o2 res →
        ∃ o3 res', Runs (e.encodeInterleaved pf op b (mkQ s0, mkQ s1)) (BitState.init pf)
          (hdr ++ (seg 0xDA (sosPayload e.components 0 63) ++ (out ++ o2 ++ o3))) res' ∧ ∀ x, res = .error x → o3 = [] ∧ res' = .error x := by
      intro o2 res hrun
      have hall := forFold_append _ _ _ body e1' hrun
      rw [← hsplit] at hall
      cases res with
      | error x => exact ⟨[], .error x, hpre _ _ (by rw [List.append_nil]; exact hall.fail_bind), fun y hy => ⟨rfl, by cases hy; rfl⟩⟩
      | ok v =>
        obtain ⟨o3, res', h3⟩ := hall.bind_prefix (f := fun _ => finalizeBitBuffer pf)
        exact ⟨o3, res', hpre _ _ h3, fun x hx => nomatch hx⟩
    refine ⟨?_, fun x hx => ?_⟩
    · obtain ⟨o3, res', h3, -⟩ := hgo _ _ rfl
      exact ⟨_, res', by simpa only [List.append_assoc] using h3⟩
    · have hstop : Runs (WM.forFold ((List.range (k + 1)).map (r + ·)) (mkRows image.colorType.numComponents (A * 8 * mh * 8 * mv) D', a') body) st' [] (.error x) := by
        rw [List.range_succ_eq_map, List.map_cons]
        change Runs (body _ (r + 0) >>= _) _ _ _
        refine Runs.fail_bind ?_
        rw [hbody]
        dsimp only
        refine Runs.fail_bind (Runs.lift_fail ?_)
        exact hx _ _ _ wa (by omega)
      obtain ⟨o3, res', h3, h4⟩ := hgo _ _ hstop
      obtain ⟨rfl, rfl⟩ := h4 x rfl
      rw [List.append_nil, List.append_nil] at h3
      exact h3
end

/-- The bytes in front of the height in the file, and the ones after it up to the scan. -/
def frontBytes (den : Density) (ct : JpegColorType) (apps : List (UInt8 × Bytes)) (cs : List Component) : Bytes :=
  [0xFF, 0xD8] ++ preBytes den ct apps ++ [0xFF, 0xC0, u8 ((8 + 3 * cs.length) / 256), u8 (8 + 3 * cs.length), 8]

theorem frameBytes_height (w : UInt16) (cs : List Component) (s0 s1 : List Nat) (t : HuffPair × HuffPair) (ri : Option UInt16) :
    ∃ after : Bytes, ∀ h, frameBytes false w h cs s0 s1 t ri =
      [0xFF, 0xC0, u8 ((8 + 3 * cs.length) / 256), u8 (8 + 3 * cs.length), 8] ++ ([u8 (h.toNat / 256), u8 h.toNat] ++ after) := by
  refine ⟨[u8 (w.toNat / 256), u8 w.toNat, u8 cs.length] ++ (cs.map frameCompBytes).flatten ++ (frameBytes false w 0 cs s0 s1 t ri).drop
    (seg 0xC0 (sofPayload w 0 cs)).length, fun h => ?_⟩
  rw [show (frameBytes false w 0 cs s0 s1 t ri).drop (seg 0xC0 (sofPayload w 0 cs)).length = _ from List.drop_left]
  have hlen : (sofPayload w h cs).length + 2 = 8 + 3 * cs.length := by
    rw [sofPayload, List.length_append, flatten_const_length _ _ 3 (fun _ => rfl)]
    simp; omega
  unfold frameBytes seg
  rw [hlen]
  simp only [sofPayload, List.cons_append, List.nil_append, Bool.false_eq_true, if_false]

section
variable {pf : Platform} (hpf : pf.Valid) {op : Operations} {F : List Int → List Int} (hop : OpOk op F)
  {image : ImageBuffer} {P : Nat → Nat → Nat → UInt8} (hd : Delivers image P) (hw : image.width ≠ 0) (hh : image.height ≠ 0)
  {e : Encoder} (hwf : e.Wf) (hb : Spec.Baseline e)

include hpf hop hd hw hh hwf hb in
theorem internal_split {r : Nat} (hr : image.height.toNat = r * (8 * (maxSamplingSize (initComponents e.samplingFactor image.colorType)).2)) :
    ∃ front back fin : Bytes, fin.length ≤ 2 * pf.wordBytes ∧ (∃ len, [0xFF, 0xC0, 0, len, 8] <:+ front) ∧
      Emits (e.encodeImageInternal pf op image) (BitState.init pf)
        (front ++ [u8 (image.height.toNat / 256), u8 image.height.toNat] ++ back ++ (fin ++ [0xFF, 0xD9])) () (BitState.init pf) ∧
      ∀ b : ImageBuffer, b.colorType = image.colorType → b.width = image.width → image.height.toNat < b.height.toNat →
        (∀ y : UInt16, y.toNat < image.height.toNat → b.fillBuffers y = image.fillBuffers y) →
        (∃ rest res, Runs (e.encodeImageInternal pf op b) (BitState.init pf)
          (front ++ [u8 (b.height.toNat / 256), u8 b.height.toNat] ++ back ++ rest) res) ∧
        ∀ x, (∀ bw cap D, image.width.toNat ≤ bw → bw * (8 * (maxSamplingSize (initComponents e.samplingFactor image.colorType)).2) ≤ cap →
            fillMcuRow pf b (maxSamplingSize (initComponents e.samplingFactor image.colorType)).2 bw r (mkRows image.colorType.numComponents cap D) = .error x) →
          Runs (e.encodeImageInternal pf op b) (BitState.init pf)
            (front ++ [u8 (b.height.toNat / 256), u8 b.height.toNat] ++ back) (.error x) := by
  have hw' : image.width.toNat ≠ 0 := by intro h; exact hw (by rw [← UInt16.toNat_inj]; simpa using h)
  have hh' : image.height.toNat ≠ 0 := by intro h; exact hh (by rw [← UInt16.toNat_inj]; simpa using h)
  obtain ⟨hg, hnc⟩ := initComponents_grid e.samplingFactor image.colorType
  have hmode : (e.atWork image.colorType).mode = .interleaved := by rw [atWork_mode]; exact (baseline_mode e).mpr hb
  have hpsn : e.progressiveScans = none := by
    have := hmode
    unfold Encoder.mode at this
    change (match e.progressiveScans with | some n => _ | none => _) = _ at this
    split at this
    · cases this
    · assumption
  have hsc : ∀ b : ImageBuffer, ∀ q, (e.atWork image.colorType).encodeScans pf op b q = (e.atWork image.colorType).encodeInterleaved pf op b q := by
    intro b q
    unfold Encoder.encodeScans
    unfold Encoder.mode at hmode
    change (match e.progressiveScans with | some n => _ | none => _) = _ at hmode
    change (match e.progressiveScans with | some n => _ | none => _) = _
    rw [hpsn] at hmode ⊢
    simp only at hmode ⊢
    split at hmode
    · cases hmode
    · rename_i hn
      rw [if_neg hn]
  have hri : (e.atWork image.colorType).interval < 65536 := by
    unfold Encoder.interval
    cases (e.atWork image.colorType).restartInterval with
    | none => simp
    | some n => simpa using n.toNat_lt
  obtain ⟨mid, fin, hfin, hm1, hm2⟩ := interleaved_split hd hw' hh' hpf hop (steps_length e.quantizationTables.1 e.quality.toNat true)
    (steps_length e.quantizationTables.2 e.quality.toNat false) (steps_range _ _ _) (steps_range _ _ _) (e := e.atWork image.colorType) hg hnc.symm
    hri hr (fun g _ => unitsOk_full hwf.t0 hwf.t1 (coefsOf_bounds hop (steps_length _ _ _) (steps_length _ _ _) (steps_range _ _ _) (steps_range _ _ _) _ _ _ _ _ _)
      _ (Nat.le_refl _) _ _ (by intro j; omega))
  have htabs : TabsOk (e.atWork image.colorType).components.length (e.atWork image.colorType).huffmanTables :=
    ⟨hwf.t0.dc, hwf.t0.ac, fun _ => hwf.t1.dc, fun _ => hwf.t1.ac⟩
  have hhdr : ∀ b : ImageBuffer, b.colorType = image.colorType → Emits ((e.atWork image.colorType).writeFrameHeader pf b
      (mkQ (steps e.quantizationTables.1 e.quality.toNat true), mkQ (steps e.quantizationTables.2 e.quality.toNat false))) (BitState.init pf)
      (frameBytes false b.width b.height (initComponents e.samplingFactor image.colorType) (steps e.quantizationTables.1 e.quality.toNat true)
        (steps e.quantizationTables.2 e.quality.toNat false) e.huffmanTables e.restartInterval) () (BitState.init pf) := by
    intro b hbc
    have := frame_emits pf (e := e.atWork image.colorType) (image := b) hg.ok (by rw [hbc]; exact hnc.symm) htabs (steps_length e.quantizationTables.1 e.quality.toNat true)
      (steps_length e.quantizationTables.2 e.quality.toNat false) (steps_range _ _ _) (steps_range _ _ _) (BitState.init pf)
    have hps : (e.atWork image.colorType).progressiveScans.isSome = false := by
      change e.progressiveScans.isSome = false
      rw [hpsn]; rfl
    rw [hps] at this
    exact this
  obtain ⟨after, hafter⟩ := frameBytes_height image.width (initComponents e.samplingFactor image.colorType) (steps e.quantizationTables.1 e.quality.toNat true)
    (steps e.quantizationTables.2 e.quality.toNat false) e.huffmanTables e.restartInterval
  have hpre : ∀ b : ImageBuffer, b.colorType = image.colorType → b.width ≠ 0 → b.height ≠ 0 → ∀ o res,
      Runs ((e.atWork image.colorType).encodeInterleaved pf op b
          (mkQ (steps e.quantizationTables.1 e.quality.toNat true), mkQ (steps e.quantizationTables.2 e.quality.toNat false)) >>= fun _ => writeMarker pf .eoi)
        (BitState.init pf) o res →
      Runs (e.encodeImageInternal pf op b) (BitState.init pf) ([0xFF, 0xD8] ++ preBytes e.density image.colorType e.appSegments ++ o) res := by
    intro b hbc hbw hbh o res hrun
    unfold Encoder.encodeImageInternal
    rw [if_neg (by simp [hbw, hbh])]
    refine Runs.lift_ok (newWithQuality_eq _ _ _) ?_
    refine Runs.lift_ok (newWithQuality_eq _ _ _) ?_
    dsimp only
    rw [hbc]
    rw [← hsc] at hrun
    rw [show [0xFF, 0xD8] ++ preBytes e.density image.colorType e.appSegments ++ o = [0xFF, u8 0xD8] ++ (seg 0xE0 (jfifPayload e.density) ++
      (adobeSeg image.colorType ++ (appsBytes e.appSegments ++ o))) by rw [preBytes]; simp only [List.append_assoc]; rfl]
    refine Emits.runs_bind (writeMarker_emits (pf := pf) (m := .soi) (v := 0xD8) rfl (BitState.init pf)) ?_
    refine Emits.runs_bind (writeHeader_emits pf e.density (BitState.init pf)) ?_
    refine Emits.runs_bind (writeAdobe_emits pf image.colorType _) ?_
    refine Emits.runs_bind (writeApps_emits pf e.appSegments (fun a ha => ⟨(hwf.apps a ha).1.2, (hwf.apps a ha).2⟩) _) ?_
    exact hrun
  refine ⟨frontBytes e.density image.colorType e.appSegments (initComponents e.samplingFactor image.colorType), after ++ mid, fin, hfin, ?_, ?_, ?_⟩
  · refine ⟨u8 (8 + 3 * (initComponents e.samplingFactor image.colorType).length), ?_⟩
    have : (8 + 3 * (initComponents e.samplingFactor image.colorType).length) / 256 = 0 := by
      have := hg.ok.four
      rw [Nat.div_eq_zero_iff]
      omega
    unfold frontBytes
    rw [this]
    exact List.suffix_append _ _
  · have h1 := hm1 _ (hhdr image rfl)
    have h2 := h1.runs_bind (f := fun _ => writeMarker pf .eoi) (Emits.writeAll [0xFF, 0xD9] (BitState.init pf))
    have h3 := hpre image rfl hw hh _ _ h2
    rw [hafter] at h3
    unfold Emits
    unfold Runs at h3
    rw [h3]
    simp only [frontBytes, List.append_assoc]
  · intro b hbc hbw hbh hbf
    have hbw0 : b.width ≠ 0 := by rw [hbw]; exact hw
    have hbh0 : b.height ≠ 0 := by intro h; rw [h] at hbh; simp at hbh
    obtain ⟨h1, h2⟩ := hm2 b hbw hbh hbf _ (hhdr b hbc)
    rw [hbw, hafter] at h1 h2
    refine ⟨?_, fun x hx => ?_⟩
    · obtain ⟨rest, res, h1⟩ := h1
      obtain ⟨o, res', h3⟩ := h1.bind_prefix (f := fun _ => writeMarker pf .eoi)
      have := hpre b hbc hbw0 hbh0 _ _ h3
      exact ⟨rest ++ o, res', by simpa only [frontBytes, List.append_assoc] using this⟩
    · have := hpre b hbc hbw0 hbh0 _ _ ((h2 x hx).fail_bind (f := fun _ => writeMarker pf .eoi))
      simpa only [frontBytes, List.append_assoc] using this
end

end Jpeg
