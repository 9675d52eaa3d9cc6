import Verif.Proofs.Scan
/-! The encoder's MCU loop with restart markers. -/
namespace Jpeg
open Spec

theorem writeMarker_emits {pf : Platform} {m : Marker} {v : Nat} (h : m.toU8 pf = .ok v) (s : BitState) :
    Emits (writeMarker pf m) s [0xFF, u8 v] () s := by
  unfold writeMarker
  exact Emits.lift_bind h (Emits.writeAll _ s)

theorem groups_fuel {α : Type} (n : Nat) (hn : 0 < n) (f f' : Nat) (l : List α) (h : l.length < f) (h' : l.length < f') :
    groups n f l = groups n f' l := by
  induction f generalizing f' l with
  | zero => omega
  | succ f ih =>
    obtain ⟨f'', rfl⟩ : ∃ k, f' = k + 1 := ⟨f' - 1, by omega⟩
    simp only [groups]
    split
    · rfl
    · rw [ih f'' (l.drop n) (by simp; omega) (by simp; omega)]

/-- Groups of `n`. -/
def grp {α : Type} (n : Nat) (l : List α) : List (List α) := groups n (l.length + 1) l

theorem grp_short {α : Type} {n : Nat} {l : List α} (h : l.length ≤ n) : grp n l = [l] := by
  simp [grp, groups, h]

theorem grp_long {α : Type} {n : Nat} (hn : 0 < n) {l : List α} (h : n < l.length) :
    grp n l = l.take n :: grp n (l.drop n) := by
  rw [grp, groups, if_neg (by omega), grp]
  rw [groups_fuel n hn l.length ((l.drop n).length + 1) (l.drop n) (by simp; omega) (by omega)]

theorem grp_ne_nil {α : Type} (n : Nat) (l : List α) : grp n l ≠ [] := by
  rw [grp, groups]; split <;> simp

theorem grp_flatten {α : Type} {n : Nat} (hn : 0 < n) (l : List α) : (grp n l).flatten = l := by
  induction hk : l.length using Nat.strong_induction_on generalizing l with
  | _ k ih =>
    by_cases h : l.length ≤ n
    · simp [grp_short h]
    · rw [grp_long hn (by omega), List.flatten_cons, ih _ (by simp; omega) (l.drop n) rfl, List.take_append_drop]

theorem grp_map {α β : Type} {n : Nat} (hn : 0 < n) (f : α → β) (l : List α) : grp n (l.map f) = (grp n l).map (List.map f) := by
  induction hk : l.length using Nat.strong_induction_on generalizing l with
  | _ k ih =>
    by_cases h : l.length ≤ n
    · rw [grp_short h, grp_short (by simpa using h)]; rfl
    · rw [grp_long hn (l := l.map f) (by simp; omega), grp_long hn (l := l) (by omega), List.map_cons,
        ← ih _ (by simp; omega) (l.drop n) rfl, List.map_take, List.map_drop]

namespace Coder
variable (C : Coder) {α : Type} (un : α → List DataUnit)

/-- What remains to be written after the last complete interval. -/
def tailBytes (n k : Nat) (ys : List α) : Bytes :=
  if ys = [] then [] else rstMarker k ++ C.intervalsBytes ((grp n ys).map fun g => g.flatMap un) (k + 1)

/-- What is still to be written: pending bits `pend`, predictions `p`, `g` MCUs to go in the interval, next marker `r`,
remaining MCUs `ys`. -/
def future (n r g : Nat) (p : Nat → Int) (pend : Bits) (ys : List α) : Bytes :=
  if n = 0 then stuff (packBits (pend ++ C.unitsBits (ys.flatMap un) p))
  else stuff (packBits (pend ++ C.unitsBits ((ys.take g).flatMap un) p)) ++ C.tailBytes un n r (ys.drop g)

def FutureOk (ck : Bool) (n g : Nat) (p : Nat → Int) (ys : List α) : Prop :=
  if n = 0 then C.UnitsCan ck (ys.flatMap un) p
  else C.UnitsCan ck ((ys.take g).flatMap un) p ∧ ∀ gr ∈ grp n (ys.drop g), C.UnitsCan ck (gr.flatMap un) fun _ => 0

theorem intervals_future {n : Nat} (hn : 0 < n) (k : Nat) (zs : List α) :
    C.intervalsBytes ((grp n zs).map fun g => g.flatMap un) k = C.future un n k n (fun _ => 0) [] zs := by
  unfold future
  rw [if_neg (by omega)]
  by_cases h : zs.length ≤ n
  · rw [grp_short h, List.take_of_length_le h, List.drop_of_length_le h]
    simp [intervalsBytes, tailBytes]
  · rw [grp_long hn (by omega)]
    have hd : zs.drop n ≠ [] := by
      intro he
      have := congrArg List.length he
      simp at this
      omega
    unfold tailBytes
    rw [if_neg hd]
    generalize hG : grp n (zs.drop n) = G
    cases G with
    | nil => exact absurd hG (grp_ne_nil _ _)
    | cons a G => simp [intervalsBytes]

theorem futureOk_restart {ck : Bool} {n : Nat} (hn : 0 < n) (zs : List α)
    (h : ∀ gr ∈ grp n zs, C.UnitsCan ck (gr.flatMap un) fun _ => 0) : C.FutureOk un ck n n (fun _ => 0) zs := by
  unfold FutureOk
  rw [if_neg (by omega)]
  by_cases hl : zs.length ≤ n
  · rw [grp_short hl] at h
    rw [List.take_of_length_le hl, List.drop_of_length_le hl, grp_short (by simp)]
    refine ⟨h zs (by simp), ?_⟩
    simp [UnitsCan]
  · rw [grp_long hn (by omega)] at h
    exact ⟨h _ (by simp), fun gr hg => h gr (by simp [hg])⟩

variable {σ : Type} (Rep : σ → (Nat → Int) → Prop)

/-- The loop state represents the abstract state. -/
structure LoopSt (pf : Platform) (n r g : Nat) (p : Nat → Int) (pend : Bits) (st : BitState) (x : Rst × σ) : Prop where
  restarts : x.1.restarts = r % 8
  toGo : x.1.toGo = g
  le : g ≤ n
  rep : Rep x.2 p
  bits : BitRel pf st pend

variable {C un Rep}

/-- The body of an MCU appends its bits and updates the predictions. -/
def BodyOk (C : Coder) (un : α → List DataUnit) (Rep : σ → (Nat → Int) → Prop) (pf : Platform) (body : α → σ → WM σ)
    (x : α) : Prop :=
  ∀ s p, Rep s p → C.UnitsCan pf.checked (un x) p →
    ∃ s', EmitsBits pf (body x s) (C.unitsBits (un x) p) s' ∧ Rep s' (C.predsAfter (un x) p)

theorem body_step {pf : Platform} {body : α → σ → WM σ} {x : α} (hb : BodyOk C un Rep pf body x) {n r g : Nat} {p : Nat → Int}
    {pend : Bits} {st : BitState} {s : σ} (hrep : Rep s p) (hbit : BitRel pf st pend) {ys : List α} (hg : n = 0 ∨ 0 < g)
    (hok : C.FutureOk un pf.checked n g p (x :: ys)) :
    ∃ out s' st' pend', Emits (body x s) st out s' st' ∧ Rep s' (C.predsAfter (un x) p) ∧ BitRel pf st' pend' ∧
      C.FutureOk un pf.checked n (g - 1) (C.predsAfter (un x) p) ys ∧
      C.future un n r g p pend (x :: ys) = out ++ C.future un n r (g - 1) (C.predsAfter (un x) p) pend' ys := by
  have hux : C.UnitsCan pf.checked (un x) p ∧ C.FutureOk un pf.checked n (g - 1) (C.predsAfter (un x) p) ys := by
    unfold FutureOk at hok ⊢
    by_cases h0 : n = 0
    · rw [if_pos h0] at hok ⊢
      rw [List.flatMap_cons, unitsCan_append] at hok
      exact hok
    · rw [if_neg h0] at hok ⊢
      obtain ⟨g', rfl⟩ : ∃ g', g = g' + 1 := ⟨g - 1, by omega⟩
      rw [List.take_succ_cons, List.drop_succ_cons, List.flatMap_cons, unitsCan_append] at hok
      exact ⟨hok.1.1, hok.1.2, hok.2⟩
  obtain ⟨s', he, hr⟩ := hb s p hrep hux.1
  obtain ⟨raw, pend', st', hem, hb', hq⟩ := he st pend hbit
  refine ⟨stuff raw, s', st', pend', hem, hr, hb', hux.2, ?_⟩
  have key : ∀ us, stuff (packBits (pend ++ C.unitsBits (un x ++ us) p)) =
      stuff raw ++ stuff (packBits (pend' ++ C.unitsBits us (C.predsAfter (un x) p))) := by
    intro us
    rw [unitsBits_append, ← List.append_assoc, hq, List.append_assoc, packBits_bytes, stuff_append]
  unfold future
  by_cases h0 : n = 0
  · rw [if_pos h0, if_pos h0, List.flatMap_cons, key]
  · rw [if_neg h0, if_neg h0]
    obtain ⟨g', rfl⟩ : ∃ g', g = g' + 1 := ⟨g - 1, by omega⟩
    rw [List.take_succ_cons, List.drop_succ_cons, List.flatMap_cons, key, List.append_assoc]
    rfl

theorem scanLoop_emits {pf : Platform} (hpf : pf.Valid) {n : Nat} (hn : n < 65536) {reset : σ → σ} {body : α → σ → WM σ}
    (hreset : ∀ s p, Rep s p → Rep (reset s) fun _ => 0) (xs : List α) (hb : ∀ x ∈ xs, BodyOk C un Rep pf body x)
    (ys : List α) {r g : Nat} {p : Nat → Int} {pend : Bits} {st : BitState} {a : Rst × σ}
    (hl : LoopSt Rep pf n r g p pend st a) (hok : C.FutureOk un pf.checked n g p (xs ++ ys)) :
    ∃ out a' st' r' g' p' pend', Emits (scanLoop pf n reset body xs a) st out a' st' ∧
      LoopSt Rep pf n r' g' p' pend' st' a' ∧ C.FutureOk un pf.checked n g' p' ys ∧
      C.future un n r g p pend (xs ++ ys) = out ++ C.future un n r' g' p' pend' ys := by
  induction xs generalizing r g p pend st a with
  | nil => exact ⟨[], a, st, r, g, p, pend, Emits.pure a st, hl, hok, rfl⟩
  | cons x xs ih =>
    have hbx := hb x (by simp)
    have hbxs : ∀ y ∈ xs, BodyOk C un Rep pf body y := fun y hy => hb y (by simp [hy])
    -- one step
    have step : ∃ out a' st' r' g' p' pend',
        Emits (do
          let s ← restartBefore pf n a.1 reset a.2
          let s ← body x s
          let rst ← WM.lift (restartAfter pf n a.1)
          WM.pure (rst, s)) st out a' st' ∧
        LoopSt Rep pf n r' g' p' pend' st' a' ∧ C.FutureOk un pf.checked n g' p' (xs ++ ys) ∧
        C.future un n r g p pend (x :: (xs ++ ys)) = out ++ C.future un n r' g' p' pend' (xs ++ ys) := by
      obtain ⟨h1, h2, h3, h4, h5⟩ := hl
      by_cases hz : n > 0 ∧ a.1.toGo = 0
      · -- restart
        have hg0 : g = 0 := by omega
        subst hg0
        have hn0 : n ≠ 0 := by omega
        have hfin := finalize_emits_pack pf hpf st pend h5
        have hok' : C.FutureOk un pf.checked n n (fun _ => 0) (x :: (xs ++ ys)) := by
          unfold FutureOk at hok
          rw [if_neg hn0] at hok
          exact C.futureOk_restart un hz.1 _ hok.2
        obtain ⟨out, s', st', pend', e1, e2, e3, e4, e5⟩ :=
          body_step hbx (r := r + 1) (hreset _ _ h4) (BitRel.init pf) (Or.inr hz.1) hok'
        refine ⟨stuff (packBits pend) ++ (rstMarker r ++ out), (⟨(a.1.restarts + 1) &&& 7, n - 1⟩, s'), st', r + 1, n - 1,
          C.predsAfter (un x) fun _ => 0, pend', ?_, ?_, e4, ?_⟩
        · have hrb : Emits (restartBefore pf n a.1 reset a.2) st (stuff (packBits pend) ++ rstMarker r) (reset a.2)
              (BitState.init pf) := by
            unfold restartBefore
            rw [if_pos hz]
            refine Emits.bind' hfin ?_
            refine Emits.congr (Emits.bind' (writeMarker_emits (v := 0xD0 + a.1.restarts % 8) ?_ _) (Emits.pure _ _)) ?_
            · exact ckU8_ok (by omega) (by omega)
            · rw [h1, List.append_nil, Nat.mod_mod]; rfl
          have hra : restartAfter pf n a.1 = .ok ⟨(a.1.restarts + 1) &&& 7, n - 1⟩ := by
            unfold restartAfter
            rw [if_pos hz.1, if_pos hz.2, ckU16_ok (by omega) (by omega), ok_bind,
              show ((n : Int) - 1).toNat = n - 1 by omega]
          refine Emits.congr (Emits.bind' hrb (Emits.bind' e1 (Emits.lift_bind hra (Emits.pure _ _)))) ?_
          rw [List.append_nil, List.append_assoc]
        · refine ⟨?_, rfl, by omega, e2, e3⟩
          show (a.1.restarts + 1) &&& 7 = (r + 1) % 8
          rw [h1, show (7 : Nat) = 2 ^ 3 - 1 from rfl, Nat.and_two_pow_sub_one_eq_mod]
          omega
        · rw [List.append_assoc, List.append_assoc, ← e5, ← C.intervals_future un hz.1]
          conv_lhs => unfold future
          rw [if_neg hn0]
          simp [tailBytes, unitsBits]
      · -- no restart
        have hg : n = 0 ∨ 0 < g := by omega
        obtain ⟨out, s', st', pend', e1, e2, e3, e4, e5⟩ := body_step hbx (r := r) h4 h5 hg hok
        have hrb : Emits (restartBefore pf n a.1 reset a.2) st [] a.2 st := by
          unfold restartBefore
          rw [if_neg hz]
          exact Emits.pure _ _
        have hra : restartAfter pf n a.1 = .ok ⟨a.1.restarts, g - 1⟩ := by
          unfold restartAfter
          by_cases hn0 : n > 0
          · rw [if_pos hn0, if_neg (by omega), ckU16_ok (by omega) (by omega), ok_bind,
              show ((a.1.toGo : Int) - 1).toNat = g - 1 by omega]
          · rw [if_neg hn0]
            have : a.1 = ⟨a.1.restarts, g - 1⟩ := by
              rw [show g - 1 = a.1.toGo by omega]
            rw [← this]
        refine ⟨out, (⟨a.1.restarts, g - 1⟩, s'), st', r, g - 1, C.predsAfter (un x) p, pend', ?_, ?_, e4, e5⟩
        · refine Emits.congr (Emits.bind' hrb (Emits.bind' e1 (Emits.lift_bind hra (Emits.pure _ _)))) ?_
          rw [List.append_nil, List.nil_append]
        · exact ⟨h1, rfl, by omega, e2, e3⟩
    obtain ⟨out1, a1, st1, r1, g1, p1, pend1, s1, s2, s3, s4⟩ := step
    obtain ⟨out2, a2, st2, r2, g2, p2, pend2, t1, t2, t3, t4⟩ := ih hbxs s2 s3
    refine ⟨out1 ++ out2, a2, st2, r2, g2, p2, pend2, ?_, t2, t3, ?_⟩
    · exact Emits.bind s1 t1
    · rw [List.cons_append, s4, t4, List.append_assoc]

/-- `intervals` of the specification in terms of the loop's future. -/
theorem future_start (n : Nat) (zs : List α) :
    C.future un n 0 n (fun _ => 0) [] zs = C.intervalsBytes ((Spec.intervals n zs).map fun g => g.flatMap un) 0 := by
  unfold Spec.intervals
  by_cases h0 : n = 0
  · subst h0
    simp [future, intervalsBytes]
  · rw [if_neg h0]
    exact (C.intervals_future un (by omega) 0 zs).symm

theorem futureOk_start {ck : Bool} (n : Nat) (zs : List α)
    (h : ∀ gr ∈ Spec.intervals n zs, C.UnitsCan ck (gr.flatMap un) fun _ => 0) : C.FutureOk un ck n n (fun _ => 0) zs := by
  unfold Spec.intervals at h
  by_cases h0 : n = 0
  · subst h0
    simp only [if_true, List.mem_singleton, forall_eq] at h
    simpa [FutureOk] using h
  · rw [if_neg h0] at h
    exact C.futureOk_restart un (by omega) _ h

end Coder
end Jpeg
