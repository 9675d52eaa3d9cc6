import Verif.Proofs.Terminates
import Verif.Proofs.Live
import Verif.Proofs.Strict
import Verif.Spec.AnyImage
/-! Image buffers about which nothing is known: what a successful run has written. -/
namespace Jpeg
open _root_.Spec

/-! ### Runs that succeeded -/

theorem Emits.unique {α : Type} {m : WM α} {s s1 s2 : BitState} {o1 o2 : Bytes} {a b : α} (h1 : Emits m s o1 a s1) (h2 : Emits m s o2 b s2) :
    o1 = o2 ∧ a = b ∧ s1 = s2 := by
  unfold Emits at *
  rw [h1] at h2
  simp only [Prod.mk.injEq, Except.ok.injEq] at h2
  exact ⟨h2.1, h2.2.1, h2.2.2⟩

theorem Emits.bind_inv {α β : Type} {m : WM α} {f : α → WM β} {s s2 : BitState} {o : Bytes} {b : β} (h : Emits (WM.bind m f) s o b s2) :
    ∃ o1 a s1 o2, Emits m s o1 a s1 ∧ Emits (f a) s1 o2 b s2 ∧ o = o1 ++ o2 := by
  unfold Emits at *
  simp only [WM.bind, Prog.exec_bind] at h
  cases hr : (m s).exec.2 with
  | error e => rw [hr] at h; simp [Prog.exec] at h
  | ok x =>
    obtain ⟨a, s1⟩ := x
    rw [hr] at h
    refine ⟨(m s).exec.1, a, s1, (f a s1).exec.1, Prod.ext rfl hr, Prod.ext rfl (Prod.ext_iff.mp h).2, ?_⟩
    exact (Prod.ext_iff.mp h).1.symm

theorem Emits.lift_inv {α : Type} {r : R α} {s s' : BitState} {o : Bytes} {a : α} (h : Emits (WM.lift r) s o a s') : r = .ok a ∧ s' = s ∧ o = [] := by
  cases r with
  | error e => simp [Emits, WM.lift, Prog.exec] at h
  | ok x =>
    simp only [Emits, WM.lift, Prog.exec, Prod.mk.injEq, Except.ok.injEq] at h
    exact ⟨by rw [h.2.1], h.2.2.symm, h.1.symm⟩

theorem Emits.lift_bind_inv {α β : Type} {r : R α} {f : α → WM β} {s s' : BitState} {o : Bytes} {b : β} (h : Emits (WM.lift r >>= f) s o b s') :
    ∃ a, r = .ok a ∧ Emits (f a) s o b s' := by
  obtain ⟨o1, a, s1, o2, h1, h2, rfl⟩ := Emits.bind_inv h
  obtain ⟨rfl, rfl, rfl⟩ := h1.lift_inv
  exact ⟨a, rfl, h2⟩

theorem Emits.forFold_inv {α β : Type} {l : List α} {a b : β} {body : β → α → WM β} {s s' : BitState} {o : Bytes} (h : Emits (WM.forFold l a body) s o b s') :
    ∀ x ∈ l, ∃ a s o b s', Emits (body a x) s o b s' := by
  induction l generalizing a s o with
  | nil => simp
  | cons y l ih =>
    obtain ⟨o1, a1, s1, o2, h1, h2, -⟩ := Emits.bind_inv h
    intro x hx
    rcases List.mem_cons.mp hx with rfl | hx
    · exact ⟨_, _, _, _, _, h1⟩
    · exact ih h2 x hx

theorem scanLoop_inv {α σ : Type} {pf : Platform} {n : Nat} {reset : σ → σ} {body : α → σ → WM σ} {l : List α} {a b : Rst × σ} {s s' : BitState} {o : Bytes}
    (h : Emits (scanLoop pf n reset body l a) s o b s') : ∀ x ∈ l, ∃ a s o b s', Emits (body x a) s o b s' := by
  intro x hx
  obtain ⟨a1, s1, o1, b1, s1', h1⟩ := Emits.forFold_inv h x hx
  obtain ⟨_, a2, s2, o2, _, h3, -⟩ := Emits.bind_inv h1
  obtain ⟨_, a3, s3, o3, h4, _, -⟩ := Emits.bind_inv h3
  exact ⟨_, _, _, _, _, h4⟩

/-! ### Programs that call an image buffer -/

theorem LProg.run_bind {σ τ α β : Type} (S : Sink σ) (B : LiveFill τ) (p : LProg α) (f : α → LProg β) (w : σ) (t : τ) :
    (p.bind f).run S B w t = (f (p.run S B w t).2.2).run S B (p.run S B w t).1 (p.run S B w t).2.1 := by
  induction p generalizing w t with
  | done a => rfl
  | write c k ih => exact ih _ _ _
  | fill y rows k ih => exact ih _ _ _

theorem LProg.run_ofProg {σ τ α : Type} (S : Sink σ) (B : LiveFill τ) (p : Prog α) (w : σ) (t : τ) :
    (LProg.ofProg p).run S B w t = ((p.run S w).1, t, (p.run S w).2) := by
  induction p generalizing w with
  | done a => rfl
  | write c k ih => exact ih _ _

/-- If `m` succeeds on a `Vec<u8>`, whatever the image buffer does, then it has appended bytes with property `Q`. -/
def LM.Yields {α : Type} (m : LM α) (s : BitState) (Q : Bytes → α → BitState → Prop) : Prop :=
  ∀ (τ : Type) (B : LiveFill τ) (t t' : τ) (out out' : Bytes) (a : α) (s' : BitState), (m s).run vecSink B out t = (out', t', .ok (a, s')) →
    ∃ bytes, out' = out ++ bytes ∧ Q bytes a s'

theorem LM.Yields.mono {α : Type} {m : LM α} {s : BitState} {Q Q' : Bytes → α → BitState → Prop} (h : m.Yields s Q) (hq : ∀ o a s', Q o a s' → Q' o a s') :
    m.Yields s Q' := by
  intro τ B t t' out out' a s' hr
  obtain ⟨b, h1, h2⟩ := h τ B t t' out out' a s' hr
  exact ⟨b, h1, hq _ _ _ h2⟩

theorem LM.Yields.bind {α β : Type} {m : LM α} {f : α → LM β} {s : BitState} {Q : Bytes → α → BitState → Prop} {Q' : Bytes → β → BitState → Prop}
    (hm : m.Yields s Q) (hf : ∀ o a s1, Q o a s1 → (f a).Yields s1 fun o' b s2 => Q' (o ++ o') b s2) : (LM.bind m f).Yields s Q' := by
  intro τ B t t' out out' b s' hr
  unfold LM.bind at hr
  rw [LProg.run_bind] at hr
  cases h1 : (m s).run vecSink B out t with
  | mk w1 x =>
    obtain ⟨t1, r⟩ := x
    rw [h1] at hr
    cases r with
    | error e => simp [LProg.run] at hr
    | ok x =>
      obtain ⟨a, s1⟩ := x
      obtain ⟨o1, rfl, hq⟩ := hm τ B t t1 out w1 a s1 h1
      obtain ⟨o2, h2, hq2⟩ := hf o1 a s1 hq τ B t1 t' _ out' b s' hr
      exact ⟨o1 ++ o2, by rw [h2, List.append_assoc], hq2⟩

theorem LM.Yields.wm {α : Type} {m : WM α} {s : BitState} : (LM.wm m).Yields s fun o a s' => Emits m s o a s' := by
  intro τ B t t' out out' a s' hr
  unfold LM.wm at hr
  rw [LProg.run_ofProg, Prog.run_vec] at hr
  simp only [Prod.mk.injEq] at hr
  exact ⟨(m s).exec.1, hr.1.symm, Prod.ext rfl hr.2.2⟩

theorem LM.Yields.lift {α : Type} {r : R α} {s : BitState} : (LM.lift r).Yields s fun o a s' => r = .ok a ∧ s' = s ∧ o = [] :=
  LM.Yields.wm.mono fun _ _ _ h => h.lift_inv

theorem LM.Yields.pure {α : Type} {a : α} {s : BitState} : (LM.pure a).Yields s fun o b s' => b = a ∧ s' = s ∧ o = [] := by
  intro τ B t t' out out' b s' hr
  simp only [LM.pure, LProg.run, Prod.mk.injEq, Except.ok.injEq] at hr
  exact ⟨[], by rw [hr.1, List.append_nil], hr.2.2.1.symm, hr.2.2.2.symm, rfl⟩

theorem LM.Yields.fill {y : UInt16} {rows : Rows} {s : BitState} : (LM.fillBuffers y rows).Yields s fun o _ s' => s' = s ∧ o = [] := by
  intro τ B t t' out out' b s' hr
  simp only [LM.fillBuffers, LProg.run] at hr
  cases h : (B.fill t y rows).2 with
  | error e => rw [h] at hr; simp [LProg.run] at hr
  | ok r =>
    rw [h] at hr
    simp only [LProg.run, Prod.mk.injEq, Except.ok.injEq] at hr
    exact ⟨[], by rw [hr.1, List.append_nil], hr.2.2.2.symm, rfl⟩

theorem LM.Yields.lift_bind {α β : Type} {r : R α} {f : α → LM β} {s : BitState} {Q : Bytes → β → BitState → Prop}
    (h : ∀ a, r = .ok a → (f a).Yields s Q) : (LM.lift r >>= f).Yields s Q := by
  refine LM.Yields.bind LM.Yields.lift ?_
  rintro o a s1 ⟨h1, rfl, rfl⟩
  exact h a h1

theorem LM.Yields.emits_bind {α β : Type} {m : WM α} {f : α → LM β} {s s1 : BitState} {o1 : Bytes} {a : α} {Q : Bytes → β → BitState → Prop}
    (h1 : Emits m s o1 a s1) (h : (f a).Yields s1 fun o b s2 => Q (o1 ++ o) b s2) : (LM.wm m >>= f).Yields s Q := by
  refine LM.Yields.bind LM.Yields.wm ?_
  intro o b s2 h2
  obtain ⟨rfl, rfl, rfl⟩ := h1.unique h2
  exact h

/-- Loops that write nothing. -/
theorem LM.Yields.forFold_quiet {α β : Type} {body : β → α → LM β} {s : BitState} (h : ∀ b x, (body b x).Yields s fun o _ s' => s' = s ∧ o = []) (l : List α) (b : β) :
    (LM.forFold l b body).Yields s fun o _ s' => s' = s ∧ o = [] := by
  induction l generalizing b with
  | nil => exact LM.Yields.pure.mono fun _ _ _ h => h.2
  | cons x l ih =>
    refine LM.Yields.bind (h b x) ?_
    rintro o a s1 ⟨rfl, rfl⟩
    exact ih a

theorem fillLineL_yields {w h : UInt16} {y bw : Nat} {rows : Rows} {s : BitState} : (fillLineL w h y bw rows).Yields s fun o _ s' => s' = s ∧ o = [] := by
  unfold fillLineL
  refine LM.Yields.bind LM.Yields.fill ?_
  rintro o a s1 ⟨rfl, rfl⟩
  exact LM.Yields.lift.mono fun _ _ _ h => h.2

theorem fillMcuRowL_yields {pf : Platform} {w h : UInt16} {mv bw y : Nat} {rows : Rows} {s : BitState} :
    (fillMcuRowL pf w h mv bw y rows).Yields s fun o _ s' => s' = s ∧ o = [] := by
  unfold fillMcuRowL
  refine LM.Yields.forFold_quiet (fun b x => ?_) _ _
  exact LM.Yields.lift_bind fun _ _ => fillLineL_yields

/-- The loop over the MCU rows: what was written is what the scan loop writes for some contents of the row buffers. -/
theorem rowLoop_yields {σ : Type} (fill : Nat → Rows → LM Rows) (hfill : ∀ y rows s, (fill y rows).Yields s fun o _ s' => s' = s ∧ o = [])
    (scan : Rows → σ → WM σ) (l : List Nat) (hl : l.Nodup) (rows : Rows) (a : σ) (s : BitState) :
    (LM.forFold l (rows, a) fun st y => do
      let rows ← fill y st.1
      let s ← LM.wm (scan rows st.2)
      LM.pure (rows, s)).Yields s fun o r s' => ∃ rs : Nat → Rows, Emits (WM.forFold l a fun a y => scan (rs y) a) s o r.2 s' := by
  induction l generalizing rows a s with
  | nil =>
    refine LM.Yields.pure.mono ?_
    rintro o r s' ⟨rfl, rfl, rfl⟩
    exact ⟨fun _ => rows, Emits.pure _ _⟩
  | cons y l ih =>
    rw [List.nodup_cons] at hl
    unfold LM.forFold
    refine LM.Yields.bind (Q := fun o r s' => ∃ rr, Emits (scan rr a) s o r.2 s') ?_ ?_
    · refine LM.Yields.bind (hfill y rows s) ?_
      rintro o rr s1 ⟨rfl, rfl⟩
      refine LM.Yields.bind LM.Yields.wm ?_
      intro o1 a1 s2 h1
      refine LM.Yields.pure.mono ?_
      rintro o2 r s3 ⟨rfl, rfl, rfl⟩
      exact ⟨rr, by rw [List.nil_append, List.append_nil]; exact h1⟩
    · rintro o1 ⟨rows1, a1⟩ s1 ⟨rr, h1⟩
      refine (ih hl.2 rows1 a1 s1).mono ?_
      rintro o2 r s2 ⟨rs, h2⟩
      refine ⟨fun z => if z = y then rr else rs z, ?_⟩
      have hc : ∀ (k : List Nat) (b : σ), y ∉ k → (WM.forFold k b fun a z => scan (if z = y then rr else rs z) a) = WM.forFold k b fun a z => scan (rs z) a := by
        intro k
        induction k with
        | nil => intro b _; rfl
        | cons z k ihk =>
          intro b hb
          rw [List.mem_cons, not_or] at hb
          unfold WM.forFold
          rw [if_neg (Ne.symm hb.1)]
          congr 1
          funext b'
          exact ihk b' hb.2
      unfold WM.forFold
      refine Emits.bind (a := a1) (s1 := s1) ?_ ?_
      · dsimp only
        rw [if_pos rfl]; exact h1
      · rw [hc l a1 hl.1]; exact h2

/-! ### Coefficients of blocks that could be read -/

/-- The coefficients held by blocks. -/
def coefsFrom (g : Nat → Nat → Nat → R (List Int)) : Coefs := fun i y x k =>
  match g i y x with
  | .ok b => b.getD k 0
  | .error _ => 0

theorem coefsFrom_bounds {g : Nat → Nat → Nat → R (List Int)} (h : ∀ i y x b, g i y x = .ok b → GoodBlock b) : CoefBounds (coefsFrom g) := by
  constructor
  · intro i y x
    unfold coefsFrom
    cases hg : g i y x with
    | error e => simp
    | ok b => exact (h i y x b hg).dc
  · intro i y x k h1 h2
    unfold coefsFrom
    cases hg : g i y x with
    | error e => simp
    | ok b => exact (h i y x b hg).ac k h1 h2

theorem coefsFrom_block {g : Nat → Nat → Nat → R (List Int)} {i y x : Nat} {b : List Int} (h : g i y x = .ok b) (hb : b.length = 64) :
    IsBlock (coefsFrom g) i y x b := by
  refine ⟨hb, fun k _ => ?_⟩
  unfold coefsFrom
  rw [h]

section
variable {pf : Platform} (hpf : pf.Valid) {op : Operations} {F : List Int → List Int} (hop : OpOk op F) {s0 s1 : List Nat}
  (hl0 : s0.length = 64) (hl1 : s1.length = 64) (hs0 : ∀ v ∈ s0, 1 ≤ v ∧ v ≤ 2048) (hs1 : ∀ v ∈ s1, 1 ≤ v ∧ v ≤ 2048)
  {e : Encoder} {mh mv : Nat} (hg : Grid e.components mh mv)

/-! ### The interleaved scan -/

/-- A block of the interleaved scan; `rs y` are the row buffers when MCU row `y` is coded. -/
def mcuBlock (pf : Platform) (op : Operations) (q : QuantizationTable × QuantizationTable) (cs : List Component) (mh mv bw : Nat) (rs : Nat → Rows) (i Y X : Nat) :
    R (List Int) :=
  match cs[i]? with
  | none => .error (.panic .ub)
  | some c => do
    let buf ← (rs (Y / c.verticalSamplingFactor)).get i
    processBlock pf op q c buf.data (X / c.horizontalSamplingFactor * 8 * mh + X % c.horizontalSamplingFactor * 8) (Y % c.verticalSamplingFactor * 8)
      (mh / c.horizontalSamplingFactor) (mv / c.verticalSamplingFactor) bw

include hop hl0 hl1 hs0 hs1 hg in
theorem mcuBlock_good {bw : Nat} {rs : Nat → Rows} {i Y X : Nat} {b : List Int}
    (h : mcuBlock pf op (mkQ s0, mkQ s1) e.components mh mv bw rs i Y X = .ok b) : GoodBlock b := by
  unfold mcuBlock at h
  cases hc : e.components[i]? with
  | none => rw [hc] at h; cases h
  | some c =>
    rw [hc] at h
    obtain ⟨buf, -, h2⟩ := bind_inv h
    exact processBlock_good hop hl0 hl1 hs0 hs1 (hg.ok.q c (List.mem_of_getElem? hc)) h2

theorem mcuBlock_at {q : QuantizationTable × QuantizationTable} {cs : List Component} {bw : Nat} {rs : Nat → Rows} {i y x v h : Nat} {c : Component} (hc : cs[i]? = some c)
    (hv : v < c.verticalSamplingFactor) (hh : h < c.horizontalSamplingFactor) :
    mcuBlock pf op q cs mh mv bw rs i (y * c.verticalSamplingFactor + v) (x * c.horizontalSamplingFactor + h) = (rs y).get i >>= fun buf =>
      processBlock pf op q c buf.data (x * 8 * mh + h * 8) (v * 8) (mh / c.horizontalSamplingFactor) (mv / c.verticalSamplingFactor) bw := by
  have e1 : ∀ a b n : Nat, b < n → (a * n + b) / n = a ∧ (a * n + b) % n = b := by
    intro a b n hb
    rw [Nat.mul_comm, Nat.mul_add_div (by omega), Nat.div_eq_of_lt hb, Nat.mul_add_mod, Nat.mod_eq_of_lt hb]
    exact ⟨by omega, rfl⟩
  unfold mcuBlock
  rw [hc]
  dsimp only
  rw [(e1 _ _ _ hv).1, (e1 _ _ _ hv).2, (e1 _ _ _ hh).1, (e1 _ _ _ hh).2]

/-- The blocks of an MCU that was coded could be read. -/
theorem encodeMcu_inv {q : QuantizationTable × QuantizationTable} {rows : Rows} {bw x : Nat} {a b : List Int} {s s' : BitState} {o : Bytes}
    (h : Emits (encodeMcu pf e op q rows mh mv bw x a) s o b s') {i : Nat} {c : Component} (hc : e.components[i]? = some c) {v k : Nat}
    (hv : v < c.verticalSamplingFactor) (hk : k < c.horizontalSamplingFactor) :
    ∃ buf B, rows.get i = .ok buf ∧ processBlock pf op q c buf.data (x * 8 * mh + k * 8) (v * 8) (mh / c.horizontalSamplingFactor)
      (mv / c.verticalSamplingFactor) bw = .ok B := by
  unfold encodeMcu at h
  obtain ⟨_, _, _, _, _, h⟩ := Emits.forFold_inv h (c, i) (List.mem_zipIdx_iff_getElem?.mpr hc)
  obtain ⟨_, _, _, _, _, h⟩ := Emits.forFold_inv h v (List.mem_range.mpr hv)
  obtain ⟨_, _, _, _, _, h⟩ := Emits.forFold_inv h k (List.mem_range.mpr hk)
  unfold encodeMcuBlock at h
  obtain ⟨buf, h1, h⟩ := Emits.lift_bind_inv h
  obtain ⟨d1, h2, h⟩ := Emits.lift_bind_inv h
  obtain ⟨d2, h3, h⟩ := Emits.lift_bind_inv h
  obtain ⟨B, h4, h⟩ := Emits.lift_bind_inv h
  have hd : ∀ {m n d : Nat}, 0 < n → divR m n = .ok d → d = m / n := by
    intro m n d hn hd
    unfold divR at hd
    rw [if_neg (by omega)] at hd
    exact (Except.ok.inj hd).symm
  rw [hd (show 0 < c.horizontalSamplingFactor by omega) h2, hd (show 0 < c.verticalSamplingFactor by omega) h3] at h4
  exact ⟨buf, B, h1, h4⟩

include hpf hg in
/-- The MCU rows `l` with row buffers `rs`. -/
theorem anyRows_emits {bw A : Nat} {q : QuantizationTable × QuantizationTable} {rs : Nat → Rows} {E : Coefs} (l : List Nat)
    (hblk : ∀ y ∈ l, ∀ x, x < A → ∀ i c, e.components[i]? = some c → ∀ v, v < c.verticalSamplingFactor → ∀ h, h < c.horizontalSamplingFactor →
      ∃ buf B, (rs y).get i = .ok buf ∧ processBlock pf op q c buf.data (x * 8 * mh + h * 8) (v * 8) (mh / c.horizontalSamplingFactor)
        (mv / c.verticalSamplingFactor) bw = .ok B ∧ IsBlock E i (y * c.verticalSamplingFactor + v) (x * c.horizontalSamplingFactor + h) B)
    (C : Coder) (hC : C = scanCoder e.huffmanTables e.components 0 63 E) {r g : Nat} {p : Nat → Int} {pend : Bits} {st : BitState} {a : Rst × List Int}
    (hls : Coder.LoopSt Rep4 pf e.interval r g p pend st a)
    (hok : C.FutureOk (mcuUnits e.components) pf.checked e.interval g p (l.flatMap fun y => (List.range A).map fun x => (y, x))) :
    ∃ out a' st' r' g' p' pend',
      Emits (WM.forFold l a fun a y => scanLoop pf e.interval (fun _ => [0, 0, 0, 0])
          (fun blockX prevDc => encodeMcu pf e op q (rs y) mh mv bw blockX prevDc) (List.range A) a) st out a' st' ∧
      Coder.LoopSt Rep4 pf e.interval r' g' p' pend' st' a' ∧
      C.future (mcuUnits e.components) e.interval r g p pend (l.flatMap fun y => (List.range A).map fun x => (y, x)) =
        out ++ C.future (mcuUnits e.components) e.interval r' g' p' pend' [] := by
  induction l generalizing r g p pend st a with
  | nil => exact ⟨[], a, st, r, g, p, pend, Emits.pure _ st, hls, rfl⟩
  | cons y l ih =>
    rw [List.flatMap_cons] at hok ⊢
    have hb : ∀ z ∈ (List.range A).map fun x => (y, x), Coder.BodyOk C (mcuUnits e.components) Rep4 pf
        (fun z prev => encodeMcu pf e op q (rs y) mh mv bw z.2 prev) z := by
      intro z hz
      simp only [List.mem_map, List.mem_range] at hz
      obtain ⟨x, hx, rfl⟩ := hz
      rw [hC]
      exact encodeMcu_blocks hpf hg (y, x) (hblk y (by simp) x hx)
    obtain ⟨out1, a1, st1, r1, g1, p1, pend1, e1, e2, e3, e4⟩ :=
      Coder.scanLoop_emits hpf (interval_lt e) (fun _ _ _ => rep4_zero) _ hb _ hls hok
    obtain ⟨out2, a2, st2, r2, g2, p2, pend2, f1, f2, f3⟩ := ih (fun z hz => hblk z (by simp [hz])) e2 e3
    refine ⟨out1 ++ out2, a2, st2, r2, g2, p2, pend2, ?_, f2, ?_⟩
    · rw [scanLoop_map] at e1
      exact Emits.bind e1 f1
    · rw [e4, f3, List.append_assoc]

variable {ct : JpegColorType} {w h : UInt16} (hw : w ≠ 0) (hh : h ≠ 0) (hnc : ct.numComponents = e.components.length)
  (hone : e.components.length = 1 → mh = 1 ∧ mv = 1)

include hpf hop hl0 hl1 hs0 hs1 hg hw hh hnc hone in
theorem encodeInterleavedL_yields (ht : TabsOk e.components.length e.huffmanTables) (hp : e.progressiveScans.isSome = false)
    (hfull : FullPair e.huffmanTables.1 ∧ FullPair e.huffmanTables.2) :
    (e.encodeInterleavedL pf op ct w h (mkQ s0, mkQ s1)).Yields (BitState.init pf) fun o _ s' => s' = BitState.init pf ∧
      ∃ E, CoefBounds E ∧ o = frameBytes false w h e.components s0 s1 e.huffmanTables e.restartInterval ++
        (ScanDesc.mk e.components 0 63).bytes (mkFrame false w h e.components) e.huffmanTables E e.interval := by
  have hw' : w.toNat ≠ 0 := by intro h; exact hw (by rw [← UInt16.toNat_inj]; simpa using h)
  have hh' : h.toNat ≠ 0 := by intro h'; exact hh (by rw [← UInt16.toNat_inj]; simpa using h')
  have hwl : w.toNat < 65536 := w.toNat_lt
  have hhl : h.toNat < 65536 := h.toNat_lt
  have hmh := hg.mh
  have hmv := hg.mv
  obtain ⟨wa, wb, wc⟩ := ceil_mul_lt hg.mh.1 hg.mh.2 (show 1 ≤ w.toNat by omega)
  obtain ⟨ha, hb, hc⟩ := ceil_mul_lt hg.mv.1 hg.mv.2 (show 1 ≤ h.toNat by omega)
  have hlay := layout_all hg false w h hone
  have hhdr := frame_emits pf (e := e) (image := face ct w h) hg.ok hnc ht hl0 hl1 hs0 hs1 (BitState.init pf)
  rw [hp] at hhdr
  unfold Encoder.encodeInterleavedL
  refine LM.Yields.emits_bind hhdr ?_
  have hsh := writeScanHeader_emits pf e.components hg.ok.four (fun c hc => ⟨by have := hg.ok.dc c hc; omega,
    by have := hg.ok.ac c hc; omega⟩) none (BitState.init pf)
  refine LM.Yields.emits_bind hsh ?_
  rw [hg.max]
  dsimp only
  have eW : (w.toNat + 8 * mh - 1) / (8 * mh) = _root_.Spec.ceilDiv w.toNat (8 * mh) := rfl
  have eH : (h.toNat + 8 * mv - 1) / (8 * mv) = _root_.Spec.ceilDiv h.toNat (8 * mv) := rfl
  refine LM.Yields.lift_bind fun A' hA' => ?_
  rw [ceilDiv_eq (by omega), eW] at hA'
  refine LM.Yields.lift_bind fun B' hB' => ?_
  rw [ceilDiv_eq (by omega), eH] at hB'
  refine LM.Yields.lift_bind fun bw hbw => LM.Yields.lift_bind fun bs hbs => LM.Yields.lift_bind fun rows0 hrows => ?_
  unfold ScanDesc.bytes ScanDesc.mcus
  rw [hlay]
  generalize hA : _root_.Spec.ceilDiv w.toNat (8 * mh) = A at *
  generalize hB : _root_.Spec.ceilDiv h.toNat (8 * mv) = B at *
  obtain rfl := Except.ok.inj hA'
  obtain rfl := Except.ok.inj hB'
  refine LM.Yields.bind (rowLoop_yields (fun y rows => fillMcuRowL pf w h mv bw y rows) (fun _ _ _ => fillMcuRowL_yields)
    (fun rows a => scanLoop pf e.interval (fun _ => [0, 0, 0, 0])
        (fun blockX prevDc => encodeMcu pf e op (mkQ s0, mkQ s1) rows mh mv bw blockX prevDc) (List.range A) a) (List.range B) List.nodup_range rows0
    (⟨0, e.interval⟩, [0, 0, 0, 0]) (BitState.init pf)) ?_
  rintro o1 ⟨rows1, a1⟩ st1 ⟨rs, hloop⟩
  -- all blocks could be read
  have hread : ∀ y ∈ List.range B, ∀ x, x < A → ∀ i c, e.components[i]? = some c → ∀ v, v < c.verticalSamplingFactor → ∀ k, k < c.horizontalSamplingFactor →
      ∃ buf D, (rs y).get i = .ok buf ∧ processBlock pf op (mkQ s0, mkQ s1) c buf.data (x * 8 * mh + k * 8) (v * 8) (mh / c.horizontalSamplingFactor)
        (mv / c.verticalSamplingFactor) bw = .ok D ∧
        IsBlock (coefsFrom (mcuBlock pf op (mkQ s0, mkQ s1) e.components mh mv bw rs)) i (y * c.verticalSamplingFactor + v) (x * c.horizontalSamplingFactor + k) D := by
    intro y hy x hx i c hic v hv k hk
    obtain ⟨_, _, _, _, _, h1⟩ := Emits.forFold_inv hloop y hy
    obtain ⟨_, _, _, _, _, h2⟩ := scanLoop_inv h1 x (List.mem_range.mpr hx)
    obtain ⟨buf, D, h3, h4⟩ := encodeMcu_inv h2 hic hv hk
    refine ⟨buf, D, h3, h4, coefsFrom_block ?_ ?_⟩
    · rw [mcuBlock_at hic hv hk, h3]
      exact h4
    · exact (processBlock_good hop hl0 hl1 hs0 hs1 (hg.ok.q c (List.mem_of_getElem? hic)) h4).len
  have hbd : CoefBounds (coefsFrom (mcuBlock pf op (mkQ s0, mkQ s1) e.components mh mv bw rs)) :=
    coefsFrom_bounds fun i y x b hb => mcuBlock_good hop hl0 hl1 hs0 hs1 hg hb
  generalize coefsFrom (mcuBlock pf op (mkQ s0, mkQ s1) e.components mh mv bw rs) = E at hread hbd
  have hok : ∀ g ∈ intervals e.interval (raster B A), (scanCoder e.huffmanTables e.components 0 63 E).UnitsOk (g.flatMap (mcuUnits e.components)) fun _ => 0 :=
    fun g _ => unitsOk_full hfull.1 hfull.2 hbd _ (by omega) _ _ (by intro j; omega)
  have hl : Coder.LoopSt Rep4 pf e.interval 0 e.interval (fun _ => 0) [] (BitState.init pf) ((⟨0, e.interval⟩ : Rst), [0, 0, 0, 0]) :=
    ⟨rfl, rfl, Nat.le_refl _, rep4_zero, BitRel.init pf⟩
  generalize hC : scanCoder e.huffmanTables e.components 0 63 E = C at hok
  obtain ⟨out, a', st', r', g', p', pend', e1, e2, e3⟩ := anyRows_emits hpf hg (List.range B) hread C hC.symm hl (C.futureOk_start e.interval _ fun g hg => (hok g hg).can _)
  obtain ⟨rfl, rfl, rfl⟩ := hloop.unique e1
  have hfut := e3
  rw [show ((List.range B).flatMap fun y => (List.range A).map fun x => (y, x)) = raster B A from rfl, Coder.future_start,
    Coder.scanBytes_map] at hfut
  have hfin := finalize_emits_pack pf hpf st1 pend' e2.bits
  refine LM.Yields.wm.mono ?_
  intro o2 u s2 h2
  obtain ⟨rfl, -, rfl⟩ := hfin.unique h2
  refine ⟨rfl, E, hbd, ?_⟩
  congr 1
  unfold scanPart
  rw [hC]
  change _ = _ ++ C.scanBytes _ _
  congr 1
  rw [hfut]
  congr 1
  unfold Coder.future Coder.tailBytes
  split <;> simp [Coder.unitsBits]

/-! ### The other modes -/

include hop hl0 hl1 hs0 hs1 hg in
theorem componentBlocks_inv {rows : Rows} {W H bw i : Nat} {c : Component} (hc : e.components[i]? = some c) {bs : List (List Int)}
    (hb : componentBlocks pf op (mkQ s0, mkQ s1) rows mh mv (_root_.Spec.ceilDiv W 8) (_root_.Spec.ceilDiv H 8) bw (c, i) = .ok bs) :
    ∃ f : Nat → Nat → List Int, bs = (raster (nblk H (mv / c.verticalSamplingFactor)) (nblk W (mh / c.horizontalSamplingFactor))).map (fun p => f p.1 p.2) ∧
      ∀ y, y < nblk H (mv / c.verticalSamplingFactor) → ∀ x, x < nblk W (mh / c.horizontalSamplingFactor) → GoodBlock (f y x) := by
  have hcm : c ∈ e.components := List.mem_of_getElem? hc
  obtain ⟨dh0, dh⟩ := div_one_or hg.mh.1 (hg.h c hcm)
  obtain ⟨dv0, dv⟩ := div_one_or hg.mv.1 (hg.v c hcm)
  have hmh := hg.mh
  have hmv := hg.mv
  have sh1 : 1 ≤ mh / c.horizontalSamplingFactor := by omega
  have sv1 : 1 ≤ mv / c.verticalSamplingFactor := by omega
  unfold componentBlocks at hb
  dsimp only at hb
  rw [divR, if_neg dh0, ok_bind, divR, if_neg dv0, ok_bind] at hb
  generalize mh / c.horizontalSamplingFactor = sh at *
  generalize mv / c.verticalSamplingFactor = sv at *
  rw [ceilDiv_eq (by omega), ok_bind, ceilDiv_eq (by omega), ok_bind,
    show (_root_.Spec.ceilDiv W 8 + sh - 1) / sh = nblk W sh from rfl,
    show (_root_.Spec.ceilDiv H 8 + sv - 1) / sv = nblk H sv from rfl] at hb
  obtain ⟨_, -, hb⟩ := bind_inv hb
  obtain ⟨_, -, hb⟩ := bind_inv hb
  obtain ⟨bss, h1, hb⟩ := bind_inv hb
  obtain rfl := Except.ok.inj hb
  let g : Nat → Nat → R (List Int) := fun y x => do
    let row ← rows.get i
    processBlock pf op (mkQ s0, mkQ s1) c row.data (x * 8 * sh) (y * 8 * sv) sh sv bw
  change mapR (List.range (nblk H sv)) (fun y => mapR (List.range (nblk W sh)) fun x => g y x) = .ok bss at h1
  let f : Nat → Nat → List Int := fun y x => match g y x with | .ok b => b | .error _ => []
  have hgf : ∀ y, y < nblk H sv → ∀ x, x < nblk W sh → g y x = .ok (f y x) := by
    intro y hy x hx
    obtain ⟨r, -, h2⟩ := (mapR_inv h1).2.1 y y (by simp [hy])
    obtain ⟨b, -, h3⟩ := (mapR_inv h2).2.1 x x (by simp [hx])
    simp only [f, h3]
  refine ⟨f, ?_, ?_⟩
  · rw [mapR_raster _ _ g f hgf] at h1
    obtain rfl := Except.ok.inj h1
    exact raster_map ..
  · intro y hy x hx
    obtain ⟨row, -, h3⟩ := bind_inv (hgf y hy x hx)
    exact processBlock_good hop hl0 hl1 hs0 hs1 (hg.ok.q c hcm) h3

include hop hl0 hl1 hs0 hs1 hg in
theorem encodeBlocksL_yields (s : BitState) :
    (encodeBlocksL pf e op w h (mkQ s0, mkQ s1)).Yields s fun o blocks s' => s' = s ∧ o = [] ∧
      ∃ E, CoefBounds E ∧ AllBlocksOf E mh mv w.toNat h.toNat e.components blocks := by
  unfold encodeBlocksL
  rw [hg.max]
  dsimp only
  refine LM.Yields.lift_bind fun _ _ => LM.Yields.lift_bind fun _ _ => LM.Yields.lift_bind fun _ _ => LM.Yields.lift_bind fun _ _ => ?_
  refine LM.Yields.lift_bind fun _ _ => LM.Yields.lift_bind fun _ _ => LM.Yields.lift_bind fun bw _ => LM.Yields.lift_bind fun _ _ => ?_
  refine LM.Yields.lift_bind fun _ _ => LM.Yields.lift_bind fun rows0 _ => ?_
  refine LM.Yields.bind (LM.Yields.forFold_quiet (fun _ _ => fillLineL_yields) _ _) ?_
  rintro o rows s1 ⟨rfl, rfl⟩
  refine LM.Yields.lift_bind fun A hA => LM.Yields.lift_bind fun B hB => ?_
  rw [ceilDiv_eq (by omega)] at hA hB
  obtain rfl := Except.ok.inj hA
  obtain rfl := Except.ok.inj hB
  refine LM.Yields.lift_bind fun _ _ => LM.Yields.lift_bind fun _ _ => LM.Yields.lift_bind fun _ _ => ?_
  refine LM.Yields.lift.mono ?_
  rintro o blocks s2 ⟨hm, rfl, rfl⟩
  refine ⟨rfl, rfl, ?_⟩
  have key : ∀ (i : Nat) (c : Component), e.components[i]? = some c → ∃ bs, blocks[i]? = some bs ∧ ∃ f : Nat → Nat → List Int,
      bs = (raster (nblk h.toNat (mv / c.verticalSamplingFactor)) (nblk w.toNat (mh / c.horizontalSamplingFactor))).map (fun p => f p.1 p.2) ∧
      ∀ y, y < nblk h.toNat (mv / c.verticalSamplingFactor) → ∀ x, x < nblk w.toNat (mh / c.horizontalSamplingFactor) → GoodBlock (f y x) := by
    intro i c hc
    obtain ⟨bs, h1, h2⟩ := (mapR_inv hm).2.1 i (c, i) (by rw [List.getElem?_zipIdx, hc]; simp)
    exact ⟨bs, h1, componentBlocks_inv hop hl0 hl1 hs0 hs1 hg hc h2⟩
  choose! bsf hb1 ff hb2 hb3 using key
  classical
  refine ⟨coefsFrom fun i y x => match e.components[i]? with
    | none => .error (.panic .ub)
    | some c => if y < nblk h.toNat (mv / c.verticalSamplingFactor) ∧ x < nblk w.toNat (mh / c.horizontalSamplingFactor) then .ok (ff i c y x) else .error (.panic .ub),
    coefsFrom_bounds ?_, ?_⟩
  · intro i y x b hb
    cases hc : e.components[i]? with
    | none => rw [hc] at hb; cases hb
    | some c =>
      rw [hc] at hb
      dsimp only at hb
      split at hb
      · rename_i hlt
        obtain rfl := Except.ok.inj hb
        exact hb3 i c hc y hlt.1 x hlt.2
      · cases hb
  · intro i c hc
    refine ⟨bsf i c, hb1 i c hc, ⟨ff i c, hb2 i c hc, fun y hy x hx => ?_⟩⟩
    refine coefsFrom_block ?_ (hb3 i c hc y hy x hx).len
    rw [hc]
    exact if_pos ⟨hy, hx⟩

end

/-! ### The whole file -/

/-- The file with coefficients `E` and tables `t`. -/
def Encoder.fileWith (e : Encoder) (ct : JpegColorType) (w h : UInt16) (t : HuffPair × HuffPair) (E : Coefs) : Bytes :=
  fileBytes e.density ct e.appSegments e.mode w h (initComponents e.samplingFactor ct) e.steps0 e.steps1 t e.restartInterval E

/-- What a decoder makes of that file. -/
def Encoder.decodedWith (e : Encoder) (ct : JpegColorType) (w h : UInt16) (t : HuffPair × HuffPair) (E : Coefs) : Dec :=
  fileDec e.density ct e.appSegments e.mode w h (initComponents e.samplingFactor ct) e.steps0 e.steps1 t e.restartInterval E

/-- Tables `t` can code the coefficients `E`. -/
structure CodableWith (e : Encoder) (ct : JpegColorType) (w h : UInt16) (t : HuffPair × HuffPair) (E : Coefs) : Prop where
  bounds : CoefBounds E
  tabs : TabsOk (initComponents e.samplingFactor ct).length t
  units : AllUnitsOk e.mode w h (initComponents e.samplingFactor ct) t e.interval E

/-- The DC values of all components were written with tables `t`. -/
def DcWritten (pf : Platform) (e : Encoder) (ct : JpegColorType) (blocks : Blocks) (t : HuffPair × HuffPair) : Prop :=
  (∃ s o s', Emits (WM.forEach (initComponents e.samplingFactor ct).zipIdx (sequentialScan pf ((e.atWork ct).withTables t) blocks)) s o () s') ∨
    ∃ s o s', Emits (WM.forEach (initComponents e.samplingFactor ct).zipIdx (dcScan pf ((e.atWork ct).withTables t) blocks)) s o () s'

/-- Optimised tables can code the blocks they were made for, if they did so. -/
def OptimizesWell (pf : Platform) (e : Encoder) (ct : JpegColorType) (w h : UInt16) : Prop :=
  ∀ blocks E, CoefBounds E → AllBlocksOf E (maxSamplingSize (initComponents e.samplingFactor ct)).1 (maxSamplingSize (initComponents e.samplingFactor ct)).2
    w.toNat h.toNat (initComponents e.samplingFactor ct) blocks → ∀ e', (e.atWork ct).optimizeIf pf blocks = .ok e' →
    ∃ t, e' = (e.atWork ct).withTables t ∧ TabsOk (initComponents e.samplingFactor ct).length t ∧ (DcWritten pf e ct blocks t → CodableWith e ct w h t E)

theorem codableWith_default {e : Encoder} (hwf : e.Wf) {E : Coefs} (hE : CoefBounds E) (ct : JpegColorType) (w h : UInt16) : CodableWith e ct w h e.huffmanTables E := by
  obtain ⟨hg, hnc⟩ := initComponents_grid e.samplingFactor ct
  refine ⟨hE, ⟨hwf.t0.dc, hwf.t0.ac, fun _ => hwf.t1.dc, fun _ => hwf.t1.ac⟩, ?_⟩
  intro sd hsd g _
  have hse := scans_se hg.ok (hwf.mode_ok false (by simp) ct) sd hsd
  exact unitsOk_full hwf.t0 hwf.t1 hE _ hse _ _ (by intro j; omega)

theorem optimizesWell_off {pf : Platform} {e : Encoder} (hwf : e.Wf) (ho : e.optimizeHuffmanTable = false) (ct : JpegColorType) (w h : UInt16) :
    OptimizesWell pf e ct w h := by
  intro blocks E hE _ e' he'
  rw [optimizeIf_off ho] at he'
  exact ⟨e.huffmanTables, (Except.ok.inj he').symm, (codableWith_default hwf hE ct w h).tabs, fun _ => codableWith_default hwf hE ct w h⟩

/-- Tables that were made show that they can be made. -/
theorem optimizeTable_inv {pf : Platform} (hpf : pf.Valid) {progressive : Option UInt8} (hp : ∀ n, progressive = some n → 2 ≤ n.toNat ∧ n.toNat ≤ 64)
    {cs : List Component} {blocks : Blocks} {table : Nat} (hb : ∀ ci ∈ cs.zipIdx, ∃ bs, blocks[ci.2]? = some bs ∧ bs ≠ [] ∧ ∀ b ∈ bs, GoodBlock b)
    (hds : (cs.zipIdx.flatMap (dcOf table blocks)).length < 4294967295) (has : (cs.zipIdx.flatMap (acOf progressive table blocks)).length < 4294967295)
    {p : HuffPair} (h : optimizeTable pf progressive cs blocks table = .ok p) : CountsOk (cs.zipIdx.flatMap (acOf progressive table blocks)) := by
  have hfold := statsFold_ok hp (table := table) hpf cs.zipIdx hb false false initFreq initFreq initFreq_length initFreq_length
    (by rw [initFreq_sum]; omega) (by rw [initFreq_sum]; omega)
  unfold optimizeTable at h
  rw [hfold] at h
  simp only [ok_bind] at h
  obtain ⟨_, -, h⟩ := bind_inv h
  obtain ⟨_, -, h⟩ := bind_inv h
  obtain ⟨_, -, h⟩ := bind_inv h
  obtain ⟨t, ht, h⟩ := bind_inv h
  exact Or.inr ⟨has, pf, t, ht⟩

/-- Optimised tables that were made show that they can be made, on any platform. -/
theorem countsOk_made {pf : Platform} (hpf : pf.Valid) {e : Encoder} (hwf : e.Wf) (ho : e.optimizeHuffmanTable = true) {ct : JpegColorType} {w h : UInt16}
    (hw : w ≠ 0) (hh : h ≠ 0) {E : Coefs} (hE : CoefBounds E) {blocks : Blocks}
    (hbl : AllBlocksOf E (maxSamplingSize (initComponents e.samplingFactor ct)).1 (maxSamplingSize (initComponents e.samplingFactor ct)).2
      w.toNat h.toNat (initComponents e.samplingFactor ct) blocks) {e' : Encoder} (he' : (e.atWork ct).optimizeIf pf blocks = .ok e')
    (hac : ∀ t p, optimizeTable pf e.progressiveScans (initComponents e.samplingFactor ct) blocks t = .ok p →
      ((initComponents e.samplingFactor ct).zipIdx.flatMap (acOf e.progressiveScans t blocks)).length < 4294967295) :
    ∀ t, CountsOk ((initComponents e.samplingFactor ct).zipIdx.flatMap (acOf e.progressiveScans t blocks)) := by
  have hbg := blocksOf_good hE hbl hw hh
  have hb : ∀ ci ∈ (initComponents e.samplingFactor ct).zipIdx, ∃ bs, blocks[ci.2]? = some bs ∧ bs ≠ [] ∧ ∀ b ∈ bs, GoodBlock b :=
    fun ci hci => by obtain ⟨bs, h1, h2, h3, _⟩ := hbg ci hci; exact ⟨bs, h1, h2, h3⟩
  have hdc := dcOf_length hE hbl hw hh
  have h0 := he'
  unfold Encoder.optimizeIf at h0
  rw [if_pos (show (e.atWork ct).optimizeHuffmanTable = true from ho)] at h0
  unfold Encoder.optimizeHuffman at h0
  obtain ⟨p0, e0, h0⟩ := bind_inv h0
  have c0 := optimizeTable_inv hpf hwf.scans hb (hdc 0) (hac 0 _ e0) e0
  have none : ∀ t, (∀ c ∈ initComponents e.samplingFactor ct, c.acHuffmanTable ≠ t) →
      CountsOk ((initComponents e.samplingFactor ct).zipIdx.flatMap (acOf e.progressiveScans t blocks)) := by
    intro t ht
    have : (initComponents e.samplingFactor ct).zipIdx.flatMap (acOf e.progressiveScans t blocks) = [] := by
      rw [List.flatMap_eq_nil_iff]
      intro ci hci
      unfold acOf
      rw [if_neg (ht _ (List.mem_of_getElem? (List.mem_zipIdx_iff_getElem?.mp hci)))]
    rw [this]
    exact Or.inl (Or.inl (by decide))
  intro t
  by_cases ht0 : t = 0
  · rw [ht0]; exact c0
  · by_cases h2 : 2 ≤ (initComponents e.samplingFactor ct).length
    · rw [if_pos (show (e.atWork ct).components.length ≥ 2 from h2)] at h0
      obtain ⟨p1, e1, -⟩ := bind_inv h0
      by_cases ht1 : t = 1
      · rw [ht1]
        exact optimizeTable_inv hpf hwf.scans hb (hdc 1) (hac 1 _ e1) e1
      · refine none t fun c hc => ?_
        have := (initComponents_grid e.samplingFactor ct).1.ok.ac c hc
        omega
    · refine none t fun c hc => ?_
      rcases init_dest e.samplingFactor ct c hc with h' | h'
      · rw [h'.2]; exact Ne.symm ht0
      · omega

/-- Optimised tables code the blocks, if there is no restart within a component and the counters do not overflow. -/
theorem optimizesWell_on {pf : Platform} (hpf : pf.Valid) {e : Encoder} (hwf : e.Wf) (ho : e.optimizeHuffmanTable = true) {ct : JpegColorType} {w h : UInt16}
    (hw : w ≠ 0) (hh : h ≠ 0)
    (hr : ∀ n, e.restartInterval = some n → ∀ fc ∈ (Spec.frameOf e ct w h).comps, Spec.blockCount (Spec.frameOf e ct w h) fc ≤ n.toNat)
    (hn : ∀ t, 63 * Spec.codedBlocks (Spec.frameOf e ct w h) t < 4294967295) : OptimizesWell pf e ct w h := by
  intro blocks E hE hbl e' he'
  have hf : Spec.frameOf e ct w h = mkFrame e.mode.isProg w h (initComponents e.samplingFactor ct) := frameOf_eq e (face ct w h)
  have hsz := countsOk_made hpf hwf ho hw hh hE hbl he' fun t _ _ => by
    rw [← acCounted_of hwf hE hbl hw hh, ← hf]
    exact lt_of_le_of_lt (acCounted_length hwf.scans _ _ t) (hn t)
  obtain ⟨t, h1, h2, -⟩ := codable_of hwf hE hbl hw hh ho (fun n hn' c fc hc j p hp => by
    rw [← hf] at hc hp ⊢
    have hb := hr n hn' fc (List.mem_of_getElem? hc)
    have hlt := (List.getElem?_eq_some_iff.mp hp).1
    rw [raster_length] at hlt
    unfold Spec.blockCount at hb
    exact Spec.restarts_trivial (by rintro rfl; rw [show (0 : UInt16).toNat = 0 from rfl] at hb; omega) hc hb hp) hsz
  rw [h1 pf hpf] at he'
  exact ⟨t, (Except.ok.inj he').symm, h2.1, fun _ => ⟨hE, h2.1, h2.2⟩⟩

/-! ### Any writer -/

/-- A program that ends with an error as soon as a write fails. -/
def LProg.Strict {α : Type} : LProg (R α) → Prop
  | .done _ => True
  | .write _ k => (∀ e, k (some e) = .done (.error (.err e))) ∧ (k none).Strict
  | .fill _ _ k => ∀ r, (k r).Strict

theorem LProg.Strict.bind {α β : Type} {p : LProg (R α)} {f : R α → LProg (R β)} (hp : p.Strict)
    (hf : ∀ a, (f (.ok a)).Strict) (he : ∀ e, f (.error e) = .done (.error e)) : (p.bind f).Strict := by
  induction p with
  | done a =>
    cases a with
    | ok a => exact hf a
    | error e => simp [LProg.bind, he, LProg.Strict]
  | write c k ih =>
    refine ⟨fun e => ?_, ih none hp.2⟩
    simp [hp.1 e, LProg.bind, he]
  | fill y rows k ih => exact fun r => ih r (hp r)

theorem LProg.Strict.ofProg {α : Type} {p : Prog (R α)} (h : p.Strict) : (LProg.ofProg p).Strict := by
  induction p with
  | done a => exact trivial
  | write c k ih => exact ⟨fun e => by simp only [LProg.ofProg, h.1 e], ih none h.2⟩

def LM.Strict {α : Type} (m : LM α) : Prop := ∀ s, (m s).Strict

theorem LM.Strict.bind {α β : Type} {m : LM α} {f : α → LM β} (hm : m.Strict) (hf : ∀ a, (f a).Strict) : (m >>= f).Strict :=
  fun s => LProg.Strict.bind (hm s) (fun a => hf a.1 a.2) fun _ => rfl

theorem LM.Strict.wm {α : Type} {m : WM α} (h : m.Strict) : (LM.wm m).Strict := fun s => .ofProg (h s)
theorem LM.Strict.lift {α : Type} (r : R α) : (LM.lift r).Strict := .wm (.lift r)
theorem LM.Strict.lift_bind {α β : Type} {r : R α} {f : α → LM β} (hf : ∀ a, (f a).Strict) : (LM.lift r >>= f).Strict := (LM.Strict.lift r).bind hf
theorem LM.Strict.pure {α : Type} (a : α) : (LM.pure a).Strict := fun _ => trivial
theorem LM.Strict.fill (y : UInt16) (rows : Rows) : (LM.fillBuffers y rows).Strict := by
  intro s r
  cases r <;> trivial

theorem LM.Strict.forFold {α β : Type} (l : List α) (s : β) (body : β → α → LM β) (h : ∀ s x, (body s x).Strict) : (LM.forFold l s body).Strict := by
  induction l generalizing s with
  | nil => exact LM.Strict.pure s
  | cons x xs ih => exact LM.Strict.bind (h s x) fun s' => ih s'

theorem fillLineL_strict (w h : UInt16) (y bw : Nat) (rows : Rows) : (fillLineL w h y bw rows).Strict :=
  (LM.Strict.fill _ _).bind fun _ => .lift _

theorem encodeBlocksL_strict (pf : Platform) (e : Encoder) (op : Operations) (w h : UInt16) (q : QuantizationTable × QuantizationTable) :
    (encodeBlocksL pf e op w h q).Strict := by
  unfold encodeBlocksL
  dsimp only
  repeat with_reducible refine LM.Strict.lift_bind fun _ => ?_
  refine LM.Strict.bind (LM.Strict.forFold _ _ _ fun _ _ => fillLineL_strict _ _ _ _ _) fun _ => ?_
  repeat with_reducible refine LM.Strict.lift_bind fun _ => ?_
  exact LM.Strict.lift _

theorem encodeScansL_strict (pf : Platform) (e : Encoder) (op : Operations) (ct : JpegColorType) (w h : UInt16) (q : QuantizationTable × QuantizationTable) :
    (e.encodeScansL pf op ct w h q).Strict := by
  unfold Encoder.encodeScansL
  split
  · unfold Encoder.encodeProgressiveL
    refine LM.Strict.bind (encodeBlocksL_strict _ _ _ _ _ _) fun _ => LM.Strict.lift_bind fun _ => LM.Strict.bind (LM.Strict.wm (encWriteFrameHeader_strict _ _ _ _)) fun _ => ?_
    refine LM.Strict.bind (LM.Strict.wm (WM.Strict.forEach _ _ fun _ => dcScan_strict _ _ _ _)) fun _ => LM.Strict.lift_bind fun _ => ?_
    exact LM.Strict.wm (WM.Strict.forEach _ _ fun _ => WM.Strict.forEach _ _ fun _ => acScan_strict _ _ _ _ _)
  · split
    · unfold Encoder.encodeSequentialL
      refine LM.Strict.bind (encodeBlocksL_strict _ _ _ _ _ _) fun _ => LM.Strict.lift_bind fun _ => LM.Strict.bind (LM.Strict.wm (encWriteFrameHeader_strict _ _ _ _)) fun _ => ?_
      exact LM.Strict.wm (WM.Strict.forEach _ _ fun _ => sequentialScan_strict _ _ _ _)
    · unfold Encoder.encodeInterleavedL
      refine LM.Strict.bind (LM.Strict.wm (encWriteFrameHeader_strict _ _ _ _)) fun _ => LM.Strict.bind (LM.Strict.wm (writeScanHeader_strict _ _ _)) fun _ => ?_
      dsimp only
      repeat with_reducible refine LM.Strict.lift_bind fun _ => ?_
      refine LM.Strict.bind (LM.Strict.forFold _ _ _ fun _ _ => ?_) fun _ => LM.Strict.wm (finalize_strict _)
      refine LM.Strict.bind (LM.Strict.forFold _ _ _ fun _ _ => LM.Strict.lift_bind fun _ => fillLineL_strict _ _ _ _ _) fun _ => ?_
      exact LM.Strict.bind (LM.Strict.wm (scanLoop_strict _ _ _ _ _ _ fun _ _ => encodeMcu_strict _ _ _ _ _ _ _ _ _ _)) fun _ => LM.Strict.pure _

theorem encodeImageLive_strict (pf : Platform) (simd : Bool) (e : Encoder) (ct : JpegColorType) (w h : UInt16) :
    (e.encodeImageLive pf simd ct w h).Strict := by
  unfold Encoder.encodeImageLive
  refine LProg.Strict.bind ?_ (fun _ => trivial) fun _ => rfl
  refine (?_ : LM.Strict _) _
  unfold Encoder.encodeImageInternalL
  split
  · exact LM.Strict.lift _
  · refine LM.Strict.lift_bind fun _ => LM.Strict.lift_bind fun _ => ?_
    dsimp only
    refine LM.Strict.bind (LM.Strict.wm (writeMarker_strict _ _)) fun _ => LM.Strict.bind (LM.Strict.wm (writeHeader_strict _ _)) fun _ =>
      LM.Strict.bind (LM.Strict.wm (writeAdobe_strict _ _)) fun _ => LM.Strict.bind (LM.Strict.wm (WM.Strict.forEach _ _ fun _ => writeSegment_strict _ _ _)) fun _ =>
      LM.Strict.bind (encodeScansL_strict _ _ _ _ _ _ _) fun _ => LM.Strict.wm (writeMarker_strict _ _)

/-- A run that succeeds on some writer does the same on a `Vec<u8>`. -/
theorem LProg.Strict.run_keeping {σ τ α : Type} (S : Sink σ) (B : LiveFill τ) {p : LProg (R α)} (hp : p.Strict) (s s' : σ) (o o' : Bytes) (t t' : τ) (a : α)
    (h : p.run (Spec.keeping S) B (s, o) t = ((s', o'), t', .ok a)) : p.run vecSink B o t = (o', t', .ok a) := by
  induction p generalizing s o t with
  | done r =>
    simp only [LProg.run, Prod.mk.injEq] at h ⊢
    exact ⟨h.1.2, h.2⟩
  | write c k ih =>
    simp only [LProg.run, Spec.keeping] at h ⊢
    cases hr : (S.writeAll s c).2 with
    | none =>
      simp only [hr] at h
      exact ih none hp.2 _ _ _ h
    | some e =>
      simp only [hr, hp.1 e, LProg.run] at h
      simp at h
  | fill y rows k ih => exact ih _ (hp _) _ _ _ h

section
variable {pf : Platform} (hpf : pf.Valid) {op : Operations} {F : List Int → List Int} (hop : OpOk op F) {e : Encoder} (hwf : e.Wf)
  {ct : JpegColorType} {w h : UInt16} (hopt : OptimizesWell pf e ct w h)
include hpf hop hwf hopt

theorem encodeScansL_yields (hw : w ≠ 0) (hh : h ≠ 0) :
    ((e.atWork ct).encodeScansL pf op ct w h (mkQ e.steps0, mkQ e.steps1)).Yields (BitState.init pf) fun o _ s' => s' = BitState.init pf ∧
      ∃ E t, CodableWith e ct w h t E ∧ o = frameBytes e.mode.isProg w h (initComponents e.samplingFactor ct) e.steps0 e.steps1 t e.restartInterval ++
        ((e.mode.scans (initComponents e.samplingFactor ct)).map fun sd => sd.bytes (mkFrame e.mode.isProg w h (initComponents e.samplingFactor ct)) t E e.interval).flatten := by
  obtain ⟨hg, hnc⟩ := initComponents_grid e.samplingFactor ct
  have hl0 := steps_length e.quantizationTables.1 e.quality.toNat true
  have hl1 := steps_length e.quantizationTables.2 e.quality.toNat false
  have hs0 := steps_range e.quantizationTables.1 e.quality.toNat true
  have hs1 := steps_range e.quantizationTables.2 e.quality.toNat false
  have hm := hwf.mode_ok false (by simp) ct
  unfold Encoder.encodeScansL
  change LM.Yields (match e.progressiveScans with
    | some scans => (e.atWork ct).encodeProgressiveL pf op ct w h scans (mkQ e.steps0, mkQ e.steps1)
    | none => if e.optimizeHuffmanTable || !e.samplingFactor.supportsInterleaved then (e.atWork ct).encodeSequentialL pf op ct w h (mkQ e.steps0, mkQ e.steps1)
      else (e.atWork ct).encodeInterleavedL pf op ct w h (mkQ e.steps0, mkQ e.steps1)) _ _
  cases hps : e.progressiveScans with
  | some n =>
    have hmode : e.mode = .progressive n.toNat := by simp [Encoder.mode, hps]
    have hsc := hwf.scans n hps
    dsimp only
    unfold Encoder.encodeProgressiveL
    refine LM.Yields.bind (encodeBlocksL_yields (e := e.atWork ct) hop hl0 hl1 hs0 hs1 hg _) ?_
    rintro o blocks s1 ⟨rfl, rfl, E, hE, hbl⟩
    refine LM.Yields.lift_bind fun e' he' => ?_
    obtain ⟨t, rfl, htab, hcod⟩ := hopt blocks E hE hbl e' he'
    have hhdr := frame_emits pf (e := (e.atWork ct).withTables t) (image := face ct w h) hg.ok hnc.symm htab hl0 hl1 hs0 hs1 (BitState.init pf)
    refine LM.Yields.emits_bind hhdr (LM.Yields.bind LM.Yields.wm fun o' _ s' hdc => ?_)
    replace hcod := hcod (Or.inr ⟨_, _, _, hdc⟩)
    have hem := progressiveRest_emits (image := face ct w h) hpf hl0 hl1 hs0 hs1 (e := e.atWork ct) hg hnc.symm (n := n) hmode hsc.1 hsc.2 hbl hcod.tabs (hcod.units.can _)
    obtain ⟨_, _, _, _, h1, h2, h3⟩ := Emits.bind_inv hem
    obtain ⟨rfl, -, rfl⟩ := hhdr.unique h1
    obtain ⟨_, _, _, _, h4, h5, h6⟩ := Emits.bind_inv h2
    obtain ⟨rfl, -, rfl⟩ := hdc.unique h4
    obtain ⟨bands, h7, h8⟩ := Emits.lift_bind_inv h5
    refine LM.Yields.lift_bind fun bands' hb' => ?_
    rw [h7] at hb'
    obtain rfl := Except.ok.inj hb'
    refine LM.Yields.wm.mono fun o _ s' hlast => ?_
    obtain ⟨rfl, -, rfl⟩ := h8.unique hlast
    refine ⟨rfl, E, t, hcod, ?_⟩
    rw [List.nil_append, ← h6, ← h3]
    rfl
  | none =>
    dsimp only
    by_cases hseq : (e.optimizeHuffmanTable || !e.samplingFactor.supportsInterleaved) = true
    · have hmode : e.mode = .sequential := by simp only [Encoder.mode, hps, if_pos hseq]
      rw [if_pos hseq]
      unfold Encoder.encodeSequentialL
      refine LM.Yields.bind (encodeBlocksL_yields (e := e.atWork ct) hop hl0 hl1 hs0 hs1 hg _) ?_
      rintro o blocks s1 ⟨rfl, rfl, E, hE, hbl⟩
      refine LM.Yields.lift_bind fun e' he' => ?_
      obtain ⟨t, rfl, htab, hcod⟩ := hopt blocks E hE hbl e' he'
      have hhdr := frame_emits pf (e := (e.atWork ct).withTables t) (image := face ct w h) hg.ok hnc.symm htab hl0 hl1 hs0 hs1 (BitState.init pf)
      refine LM.Yields.emits_bind hhdr ?_
      refine LM.Yields.wm.mono fun o _ s' hlast => ?_
      replace hcod := hcod (Or.inl ⟨_, _, _, hlast⟩)
      have hem := sequentialRest_emits (image := face ct w h) hpf hl0 hl1 hs0 hs1 (e := e.atWork ct) hg hnc.symm hmode hbl hcod.tabs (hcod.units.can _)
      obtain ⟨_, _, _, _, h1, h2, h3⟩ := Emits.bind_inv hem
      obtain ⟨rfl, -, rfl⟩ := hhdr.unique h1
      obtain ⟨rfl, -, rfl⟩ := h2.unique hlast
      refine ⟨rfl, E, t, hcod, ?_⟩
      rw [List.nil_append, ← h3]
      rfl
    · have hmode : e.mode = .interleaved := by simp only [Encoder.mode, hps, if_neg hseq]
      rw [if_neg hseq]
      refine (encodeInterleavedL_yields hpf hop hl0 hl1 hs0 hs1 (e := e.atWork ct) hg hw hh hnc.symm (init_one e.samplingFactor ct)
        ⟨hwf.t0.dc, hwf.t0.ac, fun _ => hwf.t1.dc, fun _ => hwf.t1.ac⟩ (by rw [show (e.atWork ct).progressiveScans = e.progressiveScans from rfl, hps]; rfl)
        ⟨hwf.t0, hwf.t1⟩).mono ?_
      rintro o _ s' ⟨rfl, E, hE, ho⟩
      refine ⟨rfl, E, e.huffmanTables, codableWith_default hwf hE ct w h, ?_⟩
      rw [hmode, ho]
      simp [Mode.scans, Mode.isProg]
      rfl

theorem encodeImageInternalL_yields :
    (e.encodeImageInternalL pf op ct w h).Yields (BitState.init pf) fun o _ _ => w ≠ 0 ∧ h ≠ 0 ∧ ∃ E t, CodableWith e ct w h t E ∧ o = e.fileWith ct w h t E := by
  unfold Encoder.encodeImageInternalL
  by_cases hz : w = 0 ∨ h = 0
  · rw [if_pos hz]
    refine LM.Yields.lift.mono ?_
    rintro o _ s' ⟨h1, -, -⟩
    cases h1
  · rw [if_neg hz]
    rw [not_or] at hz
    refine LM.Yields.lift_bind fun q0 h0 => LM.Yields.lift_bind fun q1 h1 => ?_
    rw [newWithQuality_eq] at h0 h1
    obtain rfl := Except.ok.inj h0
    obtain rfl := Except.ok.inj h1
    dsimp only
    have hsoi : Emits (writeMarker pf .soi) (BitState.init pf) [0xFF, u8 0xD8] () (BitState.init pf) := writeMarker_emits rfl _
    refine LM.Yields.emits_bind hsoi (LM.Yields.emits_bind (writeHeader_emits pf e.density (BitState.init pf))
      (LM.Yields.emits_bind (writeAdobe_emits pf ct _)
      (LM.Yields.emits_bind (writeApps_emits pf e.appSegments (fun a ha => ⟨(hwf.apps a ha).1.2, (hwf.apps a ha).2⟩) _) ?_)))
    refine LM.Yields.bind (encodeScansL_yields hpf hop hwf hopt hz.1 hz.2) ?_
    rintro o _ s' ⟨rfl, E, t, hcod, rfl⟩
    refine LM.Yields.wm.mono fun o2 _ s2 h2 => ?_
    have heoi : Emits (writeMarker pf .eoi) (BitState.init pf) [0xFF, u8 0xD9] () (BitState.init pf) := writeMarker_emits rfl _
    obtain ⟨rfl, -, rfl⟩ := heoi.unique h2
    refine ⟨hz.1, hz.2, E, t, hcod, ?_⟩
    simp only [Encoder.fileWith, fileBytes, preBytes, List.append_assoc]
    rfl

end

theorem decode_fileWith {e : Encoder} (hwf : e.Wf) {ct : JpegColorType} {w h : UInt16} (hw : w ≠ 0) (hh : h ≠ 0) (strict : Bool)
    (hs : strict = true → ∀ n, e.progressiveScans = some n → n.toNat ≤ 33) (h8 : Steps8 e) {t : HuffPair × HuffPair} {E : Coefs} (hcod : CodableWith e ct w h t E) :
    decode strict (e.fileWith ct w h t E) = some (e.decodedWith ct w h t E) := by
  obtain ⟨hg, hnc⟩ := initComponents_grid e.samplingFactor ct
  refine decode_file e.density ct (fun a ha => ⟨(hwf.apps a ha).1.2, (hwf.apps a ha).2⟩) (hwf.mode_ok strict hs _) hw hh hg.ok
    (init_dest _ _) (steps_length _ _ _) (steps_length _ _ _) ?_ ?_ hcod.tabs e.restartInterval hcod.units
  · exact fun v hv => ⟨(steps_range _ _ _ v hv).1, h8.1 v hv⟩
  · exact fun v hv => ⟨(steps_range _ _ _ v hv).1, h8.2 v hv⟩

end Jpeg
