import Verif.Spec.Live
import Verif.Proofs.Bundle
/-! Image buffers with side effects: the program over a stateful buffer is the program of the model over a pure one, and its requests come in order. -/
namespace Jpeg
open WM
set_option maxRecDepth 10000

section close
variable {α β : Type} (f : UInt16 → Rows → R Rows)

/-- Answer every request by `f`. -/
def LProg.close : LProg α → Prog α
  | .done a => .done a
  | .write c k => .write c fun r => (k r).close
  | .fill y rows k => (k (f y rows)).close

def LM.close (m : LM α) : WM α := fun s => (m s).close f

theorem LProg.close_bind (p : LProg α) (g : α → LProg β) : (p.bind g).close f = (p.close f).bind fun a => (g a).close f := by
  induction p with
  | done a => rfl
  | write c k ih => exact congrArg (Prog.write c) (funext ih)
  | fill y rows k ih => exact ih _

theorem LProg.close_ofProg (p : Prog α) : (LProg.ofProg p).close f = p := by
  induction p with
  | done a => rfl
  | write c k ih => exact congrArg (Prog.write c) (funext ih)

theorem LM.close_bind (m : LM α) (g : α → LM β) : (LM.bind m g).close f = WM.bind (m.close f) fun a => (g a).close f := by
  funext s
  show ((m s).bind _).close f = ((m s).close f).bind _
  rw [LProg.close_bind]
  congr 1
  funext r
  cases r <;> rfl

theorem LM.close_bind' (m : LM α) (g : α → LM β) : (m >>= g).close f = m.close f >>= fun a => (g a).close f := LM.close_bind f m g
theorem LM.close_wm (m : WM α) : (LM.wm m).close f = m := funext fun s => LProg.close_ofProg f (m s)
theorem LM.close_lift (r : R α) : (LM.lift r).close f = WM.lift r := LM.close_wm f _
theorem LM.close_pure (a : α) : (LM.pure a).close f = WM.pure a := rfl
theorem LM.close_fill (y : UInt16) (rows : Rows) : (LM.fillBuffers y rows).close f = WM.lift (f y rows) := by
  funext s
  show ((match f y rows with | .ok r => _ | .error e => _ : LProg _)).close f = _
  unfold WM.lift
  cases f y rows <;> rfl
theorem LM.close_ite {c : Prop} [Decidable c] (a b : LM α) : (if c then a else b).close f = if c then a.close f else b.close f := by split <;> rfl
theorem LM.close_forFold (l : List α) (s : β) (body : β → α → LM β) : (LM.forFold l s body).close f = WM.forFold l s fun s x => (body s x).close f := by
  induction l generalizing s with
  | nil => rfl
  | cons x xs ih =>
    show (LM.bind (body s x) _).close f = WM.bind _ _
    rw [LM.close_bind]
    congr 1
    funext a
    exact ih a

theorem lift_bind (r : R α) (g : α → R β) : (WM.lift (r >>= g) : WM β) = WM.lift r >>= fun a => WM.lift (g a) := by
  cases r <;> rfl
theorem lift_bind' (r : R α) (g : α → R β) : (WM.lift (r.bind g) : WM β) = WM.bind (WM.lift r) fun a => WM.lift (g a) := by
  cases r <;> rfl
theorem lift_forFoldR (l : List α) (s : β) (body : β → α → R β) : (WM.lift (forFoldR l s body) : WM β) = WM.forFold l s fun s x => WM.lift (body s x) := by
  induction l generalizing s with
  | nil => rfl
  | cons x xs ih =>
    show WM.lift ((body s x).bind _) = WM.bind _ _
    rw [lift_bind']
    congr 1
    funext a
    exact ih a

variable (pf : Platform) (ct : JpegColorType) (w h : UInt16)

theorem fillLineL_close (y bw : Nat) (rows : Rows) : (fillLineL w h y bw rows).close f = WM.lift (fillLine ⟨ct, w, h, f⟩ y bw rows) := by
  unfold fillLineL fillLine
  simp only [LM.close_bind', LM.close_fill, LM.close_lift, lift_bind]

theorem fillMcuRowL_close (mv bw y : Nat) (rows : Rows) : (fillMcuRowL pf w h mv bw y rows).close f = WM.lift (fillMcuRow pf ⟨ct, w, h, f⟩ mv bw y rows) := by
  unfold fillMcuRowL fillMcuRow
  simp only [LM.close_forFold, LM.close_bind', LM.close_lift, fillLineL_close f ct, lift_forFoldR, lift_bind]

theorem encodeBlocksL_close (e : Encoder) (op : Operations) (q : QuantizationTable × QuantizationTable) :
    (encodeBlocksL pf e op w h q).close f = WM.lift (encodeBlocks pf e op ⟨ct, w, h, f⟩ q) := by
  unfold encodeBlocksL encodeBlocks
  simp only [LM.close_forFold, LM.close_bind', LM.close_lift, fillLineL_close f ct, lift_forFoldR, lift_bind]

theorem encodeScansL_close (e : Encoder) (op : Operations) (q : QuantizationTable × QuantizationTable) :
    (e.encodeScansL pf op ct w h q).close f = e.encodeScans pf op ⟨ct, w, h, f⟩ q := by
  have hh : ∀ e : Encoder, e.writeFrameHeader pf (face ct w h) q = e.writeFrameHeader pf ⟨ct, w, h, f⟩ q := fun _ => rfl
  unfold Encoder.encodeScansL Encoder.encodeScans
  rcases hp : e.progressiveScans with _ | n
  rotate_left
  · simp only
    unfold Encoder.encodeProgressiveL Encoder.encodeProgressive
    simp only [LM.close_bind', LM.close_lift, LM.close_wm, encodeBlocksL_close f pf ct, hh]
  · simp only [LM.close_ite]
    congr 1
    · unfold Encoder.encodeSequentialL Encoder.encodeSequential
      simp only [LM.close_bind', LM.close_lift, LM.close_wm, encodeBlocksL_close f pf ct, hh]
    · unfold Encoder.encodeInterleavedL Encoder.encodeInterleaved
      simp only [LM.close_bind', LM.close_lift, LM.close_wm, LM.close_pure, LM.close_forFold, fillMcuRowL_close f pf ct, hh]

theorem encodeImageLive_close (simd : Bool) (e : Encoder) :
    (e.encodeImageLive pf simd ct w h).close f = e.encodeImage pf simd ⟨ct, w, h, f⟩ := by
  unfold Encoder.encodeImageLive Encoder.encodeImage WM.program
  rw [LProg.close_bind]
  have : ∀ op, (e.encodeImageInternalL pf op ct w h).close f = e.encodeImageInternal pf op ⟨ct, w, h, f⟩ := by
    intro op
    unfold Encoder.encodeImageInternalL Encoder.encodeImageInternal
    simp only [LM.close_ite, LM.close_bind', LM.close_lift, LM.close_wm, encodeScansL_close f pf ct]
  exact congrArg₂ Prog.bind (congrFun (this _) _) rfl

end close

/-! Requests in order. -/

section order
variable {α β : Type}

/-- Starting after `n` requests, every request is as `Req` says (given that the answers are as `Ans` says), and if the program ends without an error, the
result and the number of requests are as `Q` says. -/
def LProg.Asks (Req : Nat → UInt16 → Rows → Prop) (Ans : UInt16 → Rows → R Rows → Prop) (Q : α → Nat → Prop) : Nat → LProg (R α) → Prop
  | n, .done (.ok a) => Q a n
  | _, .done (.error _) => True
  | n, .write _ k => ∀ r, (k r).Asks Req Ans Q n
  | n, .fill y rows k => Req n y rows ∧ ∀ r, Ans y rows r → (k r).Asks Req Ans Q (n + 1)

variable (Req : Nat → UInt16 → Rows → Prop) (Ans : UInt16 → Rows → R Rows → Prop)

/-- The same for methods. -/
def LM.Asks (n : Nat) (m : LM α) (Q : α → Nat → Prop) : Prop := ∀ s, (m s).Asks Req Ans (fun a n => Q a.1 n) n

variable {Req Ans}

theorem LProg.Asks.bind {p : LProg (R α)} {g : R α → LProg (R β)} {Q : α → Nat → Prop} {Q' : β → Nat → Prop} {n : Nat} (hp : p.Asks Req Ans Q n)
    (hg : ∀ a n, Q a n → (g (.ok a)).Asks Req Ans Q' n) (he : ∀ x, g (.error x) = .done (.error x)) : (p.bind g).Asks Req Ans Q' n := by
  induction p generalizing n with
  | done r =>
    cases r with
    | error x => show (g (.error x)).Asks Req Ans Q' n; rw [he]; trivial
    | ok a => exact hg a n hp
  | write c k ih => exact fun r => ih r (hp r)
  | fill y rows k ih => exact ⟨hp.1, fun r hr => ih r (hp.2 r hr)⟩

theorem LProg.Asks.ofProg {p : Prog (R α)} {Q : α → Nat → Prop} {n : Nat} (h : ∀ a, Q a n) : (LProg.ofProg p).Asks Req Ans Q n := by
  induction p with
  | done r =>
    cases r with
    | error x => trivial
    | ok a => exact h a
  | write c k ih => exact ih

theorem LM.Asks.bind {m : LM α} {g : α → LM β} {Q : α → Nat → Prop} {Q' : β → Nat → Prop} {n : Nat} (hm : LM.Asks Req Ans n m Q)
    (hg : ∀ a n, Q a n → LM.Asks Req Ans n (g a) Q') : LM.Asks Req Ans n (LM.bind m g) Q' := fun s =>
  LProg.Asks.bind (hm s) (fun a n ha => hg a.1 n ha a.2) fun _ => rfl
theorem LM.Asks.bind' {m : LM α} {g : α → LM β} {Q : α → Nat → Prop} {Q' : β → Nat → Prop} {n : Nat} (hm : LM.Asks Req Ans n m Q)
    (hg : ∀ a n, Q a n → LM.Asks Req Ans n (g a) Q') : LM.Asks Req Ans n (m >>= g) Q' := hm.bind hg
theorem LM.Asks.wm {m : WM α} {Q : α → Nat → Prop} {n : Nat} (h : ∀ a, Q a n) : LM.Asks Req Ans n (LM.wm m) Q := fun _ => LProg.Asks.ofProg fun a => h a.1
theorem LM.Asks.lift {r : R α} {Q : α → Nat → Prop} {n : Nat} (h : ∀ a, r = .ok a → Q a n) : LM.Asks Req Ans n (LM.lift r) Q := fun s => by
  cases r with
  | error x => trivial
  | ok a => exact h a rfl
theorem LM.Asks.pure {a : α} {Q : α → Nat → Prop} {n : Nat} (h : Q a n) : LM.Asks Req Ans n (LM.pure a) Q := fun _ => h
/-- A step that leaves the count alone. -/
theorem LM.Asks.wm_bind {m : WM α} {g : α → LM β} {Q' : β → Nat → Prop} {n : Nat} (hg : ∀ a, LM.Asks Req Ans n (g a) Q') :
    LM.Asks Req Ans n (LM.wm m >>= g) Q' :=
  LM.Asks.bind' (Q := fun _ m => m = n) (.wm fun _ => rfl) fun a m hm => hm ▸ hg a
theorem LM.Asks.lift_bind {r : R α} {g : α → LM β} {Q' : β → Nat → Prop} {n : Nat} (hg : ∀ a, r = .ok a → LM.Asks Req Ans n (g a) Q') :
    LM.Asks Req Ans n (LM.lift r >>= g) Q' :=
  LM.Asks.bind' (Q := fun a m => m = n ∧ r = .ok a) (.lift fun _ h => ⟨rfl, h⟩) fun a m hm => hm.1 ▸ hg a hm.2
theorem LM.Asks.fill {y : UInt16} {rows : Rows} {Q : Rows → Nat → Prop} {n : Nat} (h : Req n y rows) (hq : ∀ r, Ans y rows (.ok r) → Q r (n + 1)) :
    LM.Asks Req Ans n (LM.fillBuffers y rows) Q := fun s => ⟨h, fun r hr => by
  cases r with
  | error x => trivial
  | ok a => exact hq a hr⟩
theorem LM.Asks.forFold {body : β → Nat → LM β} {N : Nat} {Inv : Nat → β → Nat → Prop}
    (hbody : ∀ i s n, i < N → Inv i s n → LM.Asks Req Ans n (body s i) (Inv (i + 1))) {s : β} {n : Nat} (h0 : Inv 0 s n) :
    LM.Asks Req Ans n (LM.forFold (List.range N) s body) (Inv N) := by
  have key : ∀ k i s n, i + k = N → Inv i s n → LM.Asks Req Ans n (LM.forFold (List.range' i k) s body) (Inv N) := by
    intro k
    induction k with
    | zero => intro i s n hi hs; subst hi; exact .pure hs
    | succ k ih =>
      intro i s n hi hs
      rw [List.range'_succ]
      exact (hbody i s n (by omega) hs).bind fun a m ha => ih (i + 1) a m (by omega) ha
  rw [List.range_eq_range']
  exact key N 0 s n (by omega) h0

end order

section requests
variable {pf : Platform} (hpf : pf.Valid) {w h : UInt16} {Req : Nat → UInt16 → Rows → Prop} {Ans : UInt16 → Rows → R Rows → Prop} {K : Nat → Rows → Prop} {bw : Nat}
  (hstep : ∀ k n rows r p, K k rows → Ans (Spec.rowAsked h n) rows (.ok r) →
    forFoldR (List.range (bw - w.toNat)) r (fun rows _ => .ok (rows.map Buf.pushLast)) = .ok p → K (k + 1) p)
include hstep

theorem fillLineL_asks {k n : Nat} {rows : Rows} (hk : K k rows) (hr : Req n (Spec.rowAsked h n) rows) :
    LM.Asks Req Ans n (fillLineL w h n bw rows) fun r m => m = n + 1 ∧ K (k + 1) r := by
  unfold fillLineL
  refine LM.Asks.bind' (Q := fun r m => m = n + 1 ∧ Ans (Spec.rowAsked h n) rows (.ok r)) (.fill hr fun r hr => ⟨rfl, hr⟩) fun r m hm => ?_
  exact .lift fun p hp => ⟨hm.1, hstep k n rows r p hk hm.2 hp⟩

include hpf
theorem fillMcuRowL_asks {mv i : Nat} (hsmall : (i + 1) * (8 * mv) < 2 ^ 32) (hclear : ∀ k rows, K k rows → K 0 (rows.map Buf.clear))
    (hreq : ∀ j rows, j < 8 * mv → K j rows → Req (i * (8 * mv) + j) (Spec.rowAsked h (i * (8 * mv) + j)) rows) {rows : Rows} (hk : ∃ k, K k rows) :
    LM.Asks Req Ans (i * (8 * mv)) (fillMcuRowL pf w h mv bw i rows) fun r m => m = (i + 1) * (8 * mv) ∧ K (8 * mv) r := by
  unfold fillMcuRowL
  have hw : 2 ^ 32 ≤ 2 ^ pf.wordBits := Nat.pow_le_pow_right (by decide) (by unfold Platform.wordBits; rcases hpf with h | h <;> simp [h])
  have hmul : (i + 1) * (8 * mv) = i * (8 * mv) + 8 * mv := by ring
  have := LM.Asks.forFold (Req := Req) (Ans := Ans) (N := 8 * mv) (Inv := fun j r m => m = i * (8 * mv) + j ∧ K j r) (s := rows.map Buf.clear)
    (n := i * (8 * mv)) (body := fun rows y => do
      let yy ← LM.lift (ckUsize pf ((y + i * 8 * mv : Nat) : Int))
      fillLineL w h yy bw rows) ?_ ?_
  · rw [hmul]; exact this
  · rintro j r m hj ⟨rfl, hk⟩
    refine .lift_bind fun yy hyy => ?_
    have e : j + i * 8 * mv = i * (8 * mv) + j := by ring
    rw [e, ckUsize_of_lt (by omega)] at hyy
    cases hyy
    exact fillLineL_asks hstep hk (hreq j r hj hk)
  · obtain ⟨k, hk⟩ := hk
    exact ⟨rfl, hclear k rows hk⟩

omit hstep
variable {e : Encoder} {mh mv : Nat} (hmax : maxSamplingSize e.components = (mh, mv)) (hmh : 1 ≤ mh ∧ mh ≤ 4) (hmv : 1 ≤ mv ∧ mv ≤ 4)
  (hbw : bw = _root_.Spec.ceilDiv w.toNat (8 * mh) * (8 * mh))
include hstep hmax hmh hmv hbw

theorem encodeInterleavedL_asks (op : Operations) (ct : JpegColorType) (q : QuantizationTable × QuantizationTable)
    (hinit : ∀ cap rows, ckUsize pf ((bw * (8 * mv) : Nat) : Int) = .ok cap → initRows pf e.components.length cap = .ok rows → K 0 rows)
    (hclear : ∀ k rows, K k rows → K 0 (rows.map Buf.clear))
    (hreq : ∀ i j rows, i < _root_.Spec.ceilDiv h.toNat (8 * mv) → j < 8 * mv → K j rows →
      Req (i * (8 * mv) + j) (Spec.rowAsked h (i * (8 * mv) + j)) rows) :
    LM.Asks Req Ans 0 (e.encodeInterleavedL pf op ct w h q) fun _ m => m = _root_.Spec.ceilDiv h.toNat (8 * mv) * (8 * mv) := by
  have hw : 2 ^ 32 ≤ 2 ^ pf.wordBits := Nat.pow_le_pow_right (by decide) (by unfold Platform.wordBits; rcases hpf with h | h <;> simp [h])
  have hce : ∀ v d : Nat, 0 < d → ceilDiv v d = .ok (_root_.Spec.ceilDiv v d) := fun v d hd => ceilDiv_eq hd
  have hwl := w.toNat_lt
  have hhl := h.toNat_lt
  have hcw : _root_.Spec.ceilDiv w.toNat (8 * mh) * (8 * mh) < 2 ^ 17 := by
    have := Nat.div_mul_le_self (w.toNat + 8 * mh - 1) (8 * mh)
    unfold _root_.Spec.ceilDiv; omega
  have hch : _root_.Spec.ceilDiv h.toNat (8 * mv) * (8 * mv) < 2 ^ 17 := by
    have := Nat.div_mul_le_self (h.toNat + 8 * mv - 1) (8 * mv)
    unfold _root_.Spec.ceilDiv; omega
  unfold Encoder.encodeInterleavedL
  rw [hmax]
  dsimp only
  refine .wm_bind fun _ => .wm_bind fun _ => .lift_bind fun numCols hc => .lift_bind fun numRows hr => .lift_bind fun bw' hb => .lift_bind fun bs hs => .lift_bind fun rows hrows => ?_
  rw [hce _ _ (by omega)] at hc hr
  obtain rfl := Except.ok.inj hc
  obtain rfl := Except.ok.inj hr
  rw [Nat.mul_assoc, ckUsize_of_lt (by omega), ← hbw] at hb
  obtain rfl := Except.ok.inj hb
  refine LM.Asks.bind' (LM.Asks.forFold (Inv := fun i st m => m = i * (8 * mv) ∧ ∃ k, K k st.1) ?_ ?_) fun _ m hm => .wm fun _ => hm.1
  · rintro i st m hi ⟨rfl, hk⟩
    have hle : (i + 1) * (8 * mv) ≤ _root_.Spec.ceilDiv h.toNat (8 * mv) * (8 * mv) := Nat.mul_le_mul_right _ hi
    refine LM.Asks.bind' (fillMcuRowL_asks hpf hstep (by omega) hclear (hreq i · · hi) hk) fun r m hm => ?_
    exact .wm_bind fun s => .pure ⟨hm.1, _, hm.2⟩
  · exact ⟨(Nat.zero_mul _).symm, 0, hinit bs _ (by rw [← hs, Nat.mul_assoc]) hrows⟩

theorem encodeBlocksL_asks (op : Operations) (q : QuantizationTable × QuantizationTable)
    (hinit : ∀ cap rows, ckUsize pf ((bw * (_root_.Spec.ceilDiv h.toNat (8 * mv) * (8 * mv)) : Nat) : Int) = .ok cap →
      initRows pf e.components.length cap = .ok rows → K 0 rows)
    (hreq : ∀ n rows, n < _root_.Spec.ceilDiv h.toNat (8 * mv) * (8 * mv) → K n rows → Req n (Spec.rowAsked h n) rows) :
    LM.Asks Req Ans 0 (encodeBlocksL pf e op w h q) fun _ m => m = _root_.Spec.ceilDiv h.toNat (8 * mv) * (8 * mv) := by
  have hw : 2 ^ 32 ≤ 2 ^ pf.wordBits := Nat.pow_le_pow_right (by decide) (by unfold Platform.wordBits; rcases hpf with h | h <;> simp [h])
  have hce : ∀ v d : Nat, 0 < d → ceilDiv v d = .ok (_root_.Spec.ceilDiv v d) := fun v d hd => ceilDiv_eq hd
  have hwl := w.toNat_lt
  have hhl := h.toNat_lt
  have hcw : _root_.Spec.ceilDiv w.toNat (8 * mh) * (8 * mh) < 2 ^ 17 := by
    have := Nat.div_mul_le_self (w.toNat + 8 * mh - 1) (8 * mh)
    unfold _root_.Spec.ceilDiv; omega
  have hch : _root_.Spec.ceilDiv h.toNat (8 * mv) * (8 * mv) < 2 ^ 17 := by
    have := Nat.div_mul_le_self (h.toNat + 8 * mv - 1) (8 * mv)
    unfold _root_.Spec.ceilDiv; omega
  have ew : _root_.Spec.ceilDiv w.toNat (8 * mh) * mh * 8 = _root_.Spec.ceilDiv w.toNat (8 * mh) * (8 * mh) := by ring
  have eh : _root_.Spec.ceilDiv h.toNat (8 * mv) * mv * 8 = _root_.Spec.ceilDiv h.toNat (8 * mv) * (8 * mv) := by ring
  unfold encodeBlocksL
  rw [hmax]
  dsimp only
  refine .lift_bind fun a ha => .lift_bind fun numCols hc => .lift_bind fun b hb => .lift_bind fun numRows hr => .lift_bind fun _ _ => .lift_bind fun _ _ =>
    .lift_bind fun bw' hbw' => .lift_bind fun n hn => .lift_bind fun bs hs => .lift_bind fun rows hrows => ?_
  rw [hce _ _ (by omega)] at ha hb
  obtain rfl := Except.ok.inj ha
  obtain rfl := Except.ok.inj hb
  rw [ckUsize_of_lt (by omega)] at hc hr
  obtain rfl := Except.ok.inj hc
  obtain rfl := Except.ok.inj hr
  rw [ew, ckUsize_of_lt (by omega), ← hbw] at hbw'
  obtain rfl := Except.ok.inj hbw'
  have hn' : _root_.Spec.ceilDiv w.toNat (8 * mh) * mh * (_root_.Spec.ceilDiv h.toNat (8 * mv) * mv) < 2 ^ pf.wordBits := by
    have := Nat.mul_le_mul (show _root_.Spec.ceilDiv w.toNat (8 * mh) * mh ≤ 2 ^ 14 by omega) (show _root_.Spec.ceilDiv h.toNat (8 * mv) * mv ≤ 2 ^ 14 by omega)
    omega
  rw [ckUsize_of_lt hn'] at hn
  obtain rfl := Except.ok.inj hn
  have hs' : ckUsize pf ((bw * (_root_.Spec.ceilDiv h.toNat (8 * mv) * (8 * mv)) : Nat) : Int) = .ok bs := by
    rw [← hs, hbw]
    congr 2
    ring
  rw [eh]
  refine LM.Asks.bind' (LM.Asks.forFold (Inv := fun i st m => m = i ∧ K i st) ?_ ⟨rfl, hinit bs _ hs' hrows⟩) fun _ m hm => ?_
  · rintro i st m hi ⟨rfl, hk⟩
    exact fillLineL_asks hstep hk (hreq m st hi hk)
  · obtain ⟨rfl, -⟩ := hm
    exact .lift_bind fun _ _ => .lift_bind fun _ _ => .lift_bind fun _ _ => .lift_bind fun _ _ => .lift_bind fun _ _ => .lift fun _ _ => rfl

end requests

section whole
variable {pf : Platform} (hpf : pf.Valid) {ct : JpegColorType} {w h : UInt16} {Req : Nat → UInt16 → Rows → Prop} {Ans : UInt16 → Rows → R Rows → Prop}
  {K : Nat → Rows → Prop} {e : Encoder}
  (hstep : ∀ k n rows r p, w ≠ 0 → K k rows → Ans (Spec.rowAsked h n) rows (.ok r) →
    forFoldR (List.range (Spec.paddedWidth e ct w h - w.toNat)) r (fun rows _ => .ok (rows.map Buf.pushLast)) = .ok p →
      K (k + 1) p)
  (hinit : ∀ cap rows, ckUsize pf ((Spec.paddedWidth e ct w h * Spec.linesKept e ct w h : Nat) : Int) = .ok cap → initRows pf ct.numComponents cap = .ok rows → K 0 rows)
  (hclear : ∀ k rows, K k rows → K 0 (rows.map Buf.clear))
  (hreq : ∀ n rows, n < Spec.rowRequests e ct w h → K (Spec.linesHeld e ct w h n) rows →
    Req n (Spec.rowAsked h n) rows)
include hpf hstep hinit hclear hreq

theorem encodeImageInternalL_asks (op : Operations) :
    LM.Asks Req Ans 0 (e.encodeImageInternalL pf op ct w h) fun _ m => m = Spec.rowRequests e ct w h := by
  unfold Encoder.encodeImageInternalL
  split
  · exact .lift fun _ h => nomatch h
  rename_i h0
  obtain ⟨hg, hlen⟩ := initComponents_grid e.samplingFactor ct
  rcases hm : maxSamplingSize (initComponents e.samplingFactor ct) with ⟨mh, mv⟩
  rw [hm] at hg
  dsimp only at hg
  have hF : Spec.frameOf e ct w h = mkFrame e.mode.isProg w h (initComponents e.samplingFactor ct) := frameOf_eq e ⟨ct, w, h, fun _ r => .ok r⟩
  have hvm : (Spec.frameOf e ct w h).vmax = mv := by rw [hF]; exact frame_vmax hg _ _ _
  have hhm : (Spec.frameOf e ct w h).hmax = mh := by rw [hF]; exact frame_hmax hg _ _ _
  have hmw : (Spec.frameOf e ct w h).mcusWide = _root_.Spec.ceilDiv w.toNat (8 * mh) := by rw [← hhm]; rfl
  have htot : Spec.rowRequests e ct w h = _root_.Spec.ceilDiv h.toNat (8 * mv) * (8 * mv) := by unfold Spec.rowRequests; rw [hvm, ← hvm]; rfl
  unfold Spec.paddedWidth at hstep hinit
  unfold Spec.linesKept at hinit
  unfold Spec.linesHeld at hreq
  rw [hmw, hhm] at hstep hinit
  rw [htot, hvm] at hreq hinit
  rw [htot]
  refine .lift_bind fun q0 _ => .lift_bind fun q1 _ => .wm_bind fun _ => .wm_bind fun _ => .wm_bind fun _ => .wm_bind fun _ => ?_
  refine LM.Asks.bind' (Q := fun _ m => m = _root_.Spec.ceilDiv h.toNat (8 * mv) * (8 * mv)) ?_ fun _ m hm => .wm fun _ => hm
  set e' : Encoder := { e with components := initComponents e.samplingFactor ct } with he'
  have hstep' := fun k n rows r p => hstep k n rows r p fun hw => h0 (.inl hw)
  have hel : e'.components.length = ct.numComponents := by rw [he']; dsimp only; rw [hlen]
  have hB : e.mode ≠ .interleaved → ∀ q, LM.Asks Req Ans 0 (encodeBlocksL pf e' op w h q) fun _ m => m = _root_.Spec.ceilDiv h.toNat (8 * mv) * (8 * mv) := fun hmode q =>
    encodeBlocksL_asks hpf hstep' hm hg.mh hg.mv rfl op q (fun cap rows hc hr => hinit cap rows (by rw [if_neg fun h => hmode ((baseline_mode e).mpr h)]; exact hc) (hel ▸ hr)) fun n rows hn hk => hreq n rows hn (by rw [if_neg fun h => hmode ((baseline_mode e).mpr h)]; exact hk)
  have hp' : e'.progressiveScans = e.progressiveScans := rfl
  have ho : e'.optimizeHuffmanTable = e.optimizeHuffmanTable := rfl
  have hsf : e'.samplingFactor = e.samplingFactor := rfl
  have hme : maxSamplingSize e'.components = (mh, mv) := hm
  clear_value e'
  unfold Encoder.encodeScansL
  rw [hp', ho, hsf]
  rcases hp : e.progressiveScans with _ | k
  rotate_left
  · have hmode : e.mode ≠ .interleaved := by unfold Encoder.mode; rw [hp]; exact fun h => nomatch h
    unfold Encoder.encodeProgressiveL
    refine LM.Asks.bind' (hB hmode _) fun _ m hm => ?_
    rw [hm]
    exact .lift_bind fun _ _ => .wm_bind fun _ => .wm_bind fun _ => .lift_bind fun _ _ => .wm fun _ => rfl
  · dsimp only
    split
    · rename_i hs
      have hmode : e.mode ≠ .interleaved := by unfold Encoder.mode; rw [hp]; dsimp only; rw [if_pos hs]; exact fun h => nomatch h
      unfold Encoder.encodeSequentialL
      refine LM.Asks.bind' (hB hmode _) fun _ m hm => ?_
      rw [hm]
      exact .lift_bind fun _ _ => .wm_bind fun _ => .wm fun _ => rfl
    · rename_i hs
      have hmode : e.mode = .interleaved := by unfold Encoder.mode; rw [hp]; dsimp only; rw [if_neg hs]
      refine encodeInterleavedL_asks hpf hstep' hme hg.mh hg.mv rfl op ct _ (fun cap rows hc hr => hinit cap rows (by rw [if_pos ((baseline_mode e).mp hmode)]; exact hc) (hel ▸ hr)) hclear fun i j rows hi hj hk => ?_
      have hle : (i + 1) * (8 * mv) ≤ _root_.Spec.ceilDiv h.toNat (8 * mv) * (8 * mv) := Nat.mul_le_mul_right _ hi
      have hmul : (i + 1) * (8 * mv) = i * (8 * mv) + 8 * mv := by ring
      refine hreq _ rows (by omega) ?_
      rw [if_pos ((baseline_mode e).mp hmode), Nat.add_comm, Nat.add_mul_mod_self_right, Nat.mod_eq_of_lt hj]
      exact hk

theorem encodeImageLive_asks (simd : Bool) :
    (e.encodeImageLive pf simd ct w h).Asks Req Ans (fun _ m => m = Spec.rowRequests e ct w h) 0 := by
  unfold Encoder.encodeImageLive
  exact LProg.Asks.bind (encodeImageInternalL_asks hpf hstep hinit hclear hreq _ _) (fun _ _ h => h) fun _ => rfl

end whole

section run
variable {α σ τ : Type} {Req : Nat → UInt16 → Rows → Prop} {Ans : UInt16 → Rows → R Rows → Prop} {Q : α → Nat → Prop}

theorem LProg.Asks.recording (S : Sink σ) (B : LiveFill τ) (hB : ∀ t y rows, Ans y rows (B.fill t y rows).2) {p : LProg (R α)} {n : Nat} (hp : p.Asks Req Ans Q n)
    (s : σ) (t : τ) (L : List (UInt16 × Rows)) (hn : L.length = n) (hL : ∀ i c, L[i]? = some c → Req i c.1 c.2) :
    let r := p.run S (Spec.recording B) s (t, L)
    (∀ i c, r.2.1.2[i]? = some c → Req i c.1 c.2) ∧ ∀ a, r.2.2 = .ok a → Q a r.2.1.2.length := by
  induction p generalizing n s t L with
  | done r =>
    refine ⟨hL, fun a ha => ?_⟩
    change r = .ok a at ha
    subst ha hn
    exact hp
  | write c k ih => exact ih _ (hp _) _ _ _ hn hL
  | fill y rows k ih =>
    refine ih _ (hp.2 _ (hB t y rows)) s _ _ (by rw [List.length_append, hn]; rfl) fun i c hc => ?_
    rw [List.getElem?_append] at hc
    split at hc
    · exact hL i c hc
    · rename_i hi
      rw [List.getElem?_singleton] at hc
      split at hc
      · rename_i h0
        cases hc
        have : i = n := by dsimp only at hi h0; omega
        subst this
        exact hp.1
      · cases hc

theorem LProg.Asks.stream {h : UInt16} {total : Nat} {B : LiveFill τ} {f : UInt16 → Rows → R Rows} {seen : Nat → τ → Prop} (hB : Spec.AnswersInOrder B f h total seen)
    (S : Sink σ) {p : LProg (R α)} {n : Nat} (hp : p.Asks (fun n y _ => n < total ∧ y = Spec.rowAsked h n) (fun _ _ _ => True) Q n) (hn : n ≤ total)
    (s : σ) (t : τ) (ht : seen n t) :
    let r := p.run S B s t
    (r.1, r.2.2) = (p.close f).run S s ∧ ∃ m, m ≤ total ∧ seen m r.2.1 ∧ ∀ a, r.2.2 = .ok a → Q a m := by
  induction p generalizing n s t with
  | done r =>
    refine ⟨rfl, n, hn, ht, fun a ha => ?_⟩
    change r = .ok a at ha
    subst ha
    exact hp
  | write c k ih => exact ih _ (hp _) hn _ _ ht
  | fill y rows k ih =>
    obtain ⟨⟨hlt, rfl⟩, hk⟩ := hp
    obtain ⟨h1, h2⟩ := hB n t rows hlt ht
    have := ih (B.fill t (Spec.rowAsked h n) rows).2 (hk _ trivial) hlt s _ h2
    rw [h1] at this
    unfold LProg.run LProg.close
    rw [h1]
    exact this

end run
end Jpeg
