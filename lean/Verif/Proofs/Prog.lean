import Verif.Proofs.Basic
/-! Executing programs against a writer that never fails, and strictness (errors end the program). -/
namespace Jpeg

/-- Output bytes and result when every `write_all` succeeds. -/
def Prog.exec {α : Type} : Prog α → Bytes × α
  | .done a => ([], a)
  | .write c k => (c ++ (k none).exec.1, (k none).exec.2)

theorem Prog.exec_bind {α β : Type} (p : Prog α) (f : α → Prog β) :
    (p.bind f).exec = (p.exec.1 ++ (f p.exec.2).exec.1, (f p.exec.2).exec.2) := by
  induction p with
  | done a => simp [Prog.bind, Prog.exec]
  | write c k ih => simp [Prog.bind, Prog.exec, ih]

theorem Prog.run_vec {α : Type} (p : Prog α) (w : Bytes) : p.run vecSink w = (w ++ p.exec.1, p.exec.2) := by
  induction p generalizing w with
  | done a => simp [Prog.run, Prog.exec]
  | write c k ih =>
    have h := ih none (w ++ c)
    simp only [Prog.run, Prog.exec]
    rw [← List.append_assoc]
    exact h

/-- `m` started in bit state `s` writes `out`, returns `a` and leaves bit state `s'` (writer never fails). -/
def Emits {α : Type} (m : WM α) (s : BitState) (out : Bytes) (a : α) (s' : BitState) : Prop :=
  (m s).exec = (out, .ok (a, s'))

theorem Emits.pure {α : Type} (a : α) (s : BitState) : Emits (WM.pure a) s [] a s := rfl

theorem Emits.bind {α β : Type} {m : WM α} {f : α → WM β} {s s1 s2 : BitState} {o1 o2 : Bytes} {a : α} {b : β}
    (h1 : Emits m s o1 a s1) (h2 : Emits (f a) s1 o2 b s2) : Emits (WM.bind m f) s (o1 ++ o2) b s2 := by
  unfold Emits at *
  simp only [WM.bind, Prog.exec_bind, h1, h2]

theorem Emits.bind' {α β : Type} {m : WM α} {f : α → WM β} {s s1 s2 : BitState} {o1 o2 : Bytes} {a : α} {b : β}
    (h1 : Emits m s o1 a s1) (h2 : Emits (f a) s1 o2 b s2) : Emits (m >>= f) s (o1 ++ o2) b s2 := h1.bind h2

theorem Emits.lift {α : Type} {r : R α} {a : α} (s : BitState) (h : r = .ok a) : Emits (WM.lift r) s [] a s := by
  subst h; rfl

theorem Emits.lift_bind {α β : Type} {r : R α} {a : α} {f : α → WM β} {s s' : BitState} {o : Bytes} {b : β}
    (h : r = .ok a) (h2 : Emits (f a) s o b s') : Emits (WM.lift r >>= f) s o b s' :=
  (Emits.lift s h).bind' h2

theorem Emits.get_bind {β : Type} {f : BitState → WM β} {s s' : BitState} {o : Bytes} {b : β}
    (h2 : Emits (f s) s o b s') : Emits (WM.get >>= f) s o b s' :=
  (show Emits WM.get s [] s s from rfl).bind' h2

theorem Emits.set (s0 s : BitState) : Emits (WM.set s0) s [] () s0 := rfl

theorem Emits.set_bind {β : Type} {f : Unit → WM β} {s0 s s' : BitState} {o : Bytes} {b : β}
    (h2 : Emits (f ()) s0 o b s') : Emits (WM.set s0 >>= f) s o b s' :=
  (Emits.set s0 s).bind' h2

theorem Emits.writeAll (c : Bytes) (s : BitState) : Emits (WM.writeAll c) s c () s := by
  simp [Emits, WM.writeAll, Prog.exec]

theorem Emits.writeAll_bind {β : Type} {c : Bytes} {f : Unit → WM β} {s s' : BitState} {o : Bytes} {b : β}
    (h2 : Emits (f ()) s o b s') : Emits (WM.writeAll c >>= f) s (c ++ o) b s' :=
  (Emits.writeAll c s).bind' h2

theorem Emits.congr {α : Type} {m : WM α} {s s' : BitState} {o o' : Bytes} {a : α} (h : Emits m s o a s')
    (e : o = o') : Emits m s o' a s' := e ▸ h

/-- A strict program stops with `Err(e)` as soon as a write fails with `e`. -/
def Prog.Strict {α : Type} : Prog (R α) → Prop
  | .done _ => True
  | .write _ k => (∀ e, k (some e) = .done (.error (.err e))) ∧ (k none).Strict

theorem Prog.Strict.bind {α β : Type} {p : Prog (R α)} {f : R α → Prog (R β)} (hp : p.Strict)
    (hf : ∀ a, (f (.ok a)).Strict) (he : ∀ e, f (.error e) = .done (.error e)) : (p.bind f).Strict := by
  induction p with
  | done a =>
    cases a with
    | ok a => exact hf a
    | error e => simp [Prog.bind, he, Prog.Strict]
  | write c k ih =>
    refine ⟨fun e => ?_, ih none hp.2⟩
    simp [hp.1 e, Prog.bind, he]

/-- Strictness of a writer method. -/
def WM.Strict {α : Type} (m : WM α) : Prop := ∀ s, (m s).Strict

theorem WM.Strict.bind {α β : Type} {m : WM α} {f : α → WM β} (hm : m.Strict) (hf : ∀ a, (f a).Strict) :
    (WM.bind m f).Strict := fun s =>
  Prog.Strict.bind (hm s) (fun a => hf a.1 a.2) (fun _ => rfl)

theorem WM.Strict.bind' {α β : Type} {m : WM α} {f : α → WM β} (hm : m.Strict) (hf : ∀ a, (f a).Strict) :
    (m >>= f).Strict := hm.bind hf

theorem WM.Strict.pure {α : Type} (a : α) : (WM.pure a).Strict := fun _ => trivial
theorem WM.Strict.lift {α : Type} (r : R α) : (WM.lift r).Strict := fun s => by
  cases r <;> exact trivial
theorem WM.Strict.get : WM.get.Strict := fun _ => trivial
theorem WM.Strict.set (s : BitState) : (WM.set s).Strict := fun _ => trivial
theorem WM.Strict.writeAll (c : Bytes) : (WM.writeAll c).Strict := fun _ => ⟨fun _ => rfl, trivial⟩

theorem WM.Strict.forEach {α : Type} (l : List α) (body : α → WM Unit) (h : ∀ x, (body x).Strict) :
    (WM.forEach l body).Strict := by
  induction l with
  | nil => exact WM.Strict.pure ()
  | cons x xs ih => exact (h x).bind fun _ => ih

theorem WM.Strict.forFold {α β : Type} (l : List α) (s : β) (body : β → α → WM β) (h : ∀ s x, (body s x).Strict) :
    (WM.forFold l s body).Strict := by
  induction l generalizing s with
  | nil => exact WM.Strict.pure s
  | cons x xs ih => exact (h s x).bind fun s' => ih s'

/-- The calls a program makes on a writer, with the writer's answers. -/
def Prog.calls {σ α : Type} (S : Sink σ) : Prog α → σ → List (Bytes × Option EncodingError)
  | .done _, _ => []
  | .write c k, w => (c, (S.writeAll w c).2) :: (k (S.writeAll w c).2).calls S (S.writeAll w c).1

/-- Behaviour of a strict program on an arbitrary writer: either no call failed, then the chunks make up the complete
output and the result is the one for a never failing writer; or the last call (only) failed, then the
result is its error and the chunks up to and including the failing one are an initial part of the complete output. -/
theorem Prog.Strict.run {σ α : Type} (S : Sink σ) {p : Prog (R α)} (hp : p.Strict) (w : σ) :
    ((∀ c ∈ p.calls S w, c.2 = none) ∧ ((p.calls S w).map (·.1)).flatten = p.exec.1 ∧ (p.run S w).2 = p.exec.2) ∨
    (∃ (pre : List (Bytes × Option EncodingError)) (c : Bytes) (e : EncodingError), p.calls S w = pre ++ [(c, some e)] ∧
      (∀ x ∈ pre, x.2 = none) ∧ (pre.map (·.1)).flatten ++ c <+: p.exec.1 ∧ (p.run S w).2 = .error (.err e)) := by
  induction p generalizing w with
  | done a => left; simp [Prog.calls, Prog.exec, Prog.run]
  | write c k ih =>
    simp only [Prog.calls, Prog.exec, Prog.run]
    cases hr : (S.writeAll w c).2 with
    | none =>
      rcases ih none hp.2 (S.writeAll w c).1 with ⟨h1, h2, h3⟩ | ⟨pre, c', e, h1, h2, h3, h4⟩
      · left
        refine ⟨?_, ?_, h3⟩
        · intro x hx
          simp only [List.mem_cons] at hx
          rcases hx with rfl | hx
          · rfl
          · exact h1 x hx
        · simp [h2]
      · right
        refine ⟨(c, none) :: pre, c', e, by simp [h1], ?_, ?_, h4⟩
        · intro x hx
          simp only [List.mem_cons] at hx
          rcases hx with rfl | hx
          · rfl
          · exact h2 x hx
        · simpa using List.prefix_append_right_inj c |>.mpr h3
    | some e =>
      right
      refine ⟨[], c, e, ?_, by simp, ?_, ?_⟩
      · simp [hp.1 e, Prog.calls]
      · simp
      · simp [hp.1 e, Prog.run]

end Jpeg
