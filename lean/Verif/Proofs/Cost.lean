import Verif.Proofs.AnyFraming
/-! How many bytes the encoder writes and how many rows it asks for, whatever the image buffer answers and whatever the tables contain (C86). A bit of entropy coded
data costs 1, a byte of a header 4: a byte of entropy coded data has 8 bits and becomes at most two bytes. -/
namespace Jpeg

section
variable {α β : Type}

/-- Every path of the program, with the number `b` of bytes handed to the writer and `f` of rows asked for: paths that fail satisfy `E`, others `Q`. The answers of `width` and
`height` are at most `W` and `H`, and color types have at most `C` components. -/
def FProg.Acc (W H C : Nat) (E : Nat → Nat → Prop) (Q : α → BitState → Nat → Nat → Prop) : FProg (R (α × BitState)) → Nat → Nat → Prop
  | .done (.ok x), b, f => Q x.1 x.2 b f
  | .done (.error _), b, f => E b f
  | .write c k, b, f => ∀ r, (k r).Acc W H C E Q (b + c.length) f
  | .width k, b, f => ∀ r, (∀ w, r = .ok w → w.toNat ≤ W) → (k r).Acc W H C E Q b f
  | .height k, b, f => ∀ r, (∀ h, r = .ok h → h.toNat ≤ H) → (k r).Acc W H C E Q b f
  | .color k, b, f => ∀ r, (∀ c, r = .ok c → c.numComponents ≤ C) → (k r).Acc W H C E Q b f
  | .fill _ _ k, b, f => ∀ r, (k r).Acc W H C E Q b (f + 1)

variable {W H C : Nat}

theorem FProg.Acc.bind {E : Nat → Nat → Prop} {Q : α → BitState → Nat → Nat → Prop} {T : β → BitState → Nat → Nat → Prop} {p : FProg (R (α × BitState))} {g : α → FM β}
    {b f : Nat} (hp : p.Acc W H C E Q b f) (hg : ∀ a s b f, Q a s b f → (g a s).Acc W H C E T b f) :
    (p.bind fun | .error e => .done (.error e) | .ok (a, s') => g a s').Acc W H C E T b f := by
  induction p generalizing b f with
  | done r =>
    cases r with
    | ok x => exact hg _ _ _ _ hp
    | error e => exact hp
  | write c k ih => exact fun r => ih r (hp r)
  | width k ih => exact fun r hr => ih r (hp r hr)
  | height k ih => exact fun r hr => ih r (hp r hr)
  | color k ih => exact fun r hr => ih r (hp r hr)
  | fill y rows k ih => exact fun r => ih r (hp r)

theorem FProg.Acc.weaken {E E' : Nat → Nat → Prop} {Q Q' : α → BitState → Nat → Nat → Prop} {p : FProg (R (α × BitState))}
    {b f : Nat} (hp : p.Acc W H C E Q b f) (hE : ∀ b f, E b f → E' b f) (hQ : ∀ a s b f, Q a s b f → Q' a s b f) : p.Acc W H C E' Q' b f := by
  induction p generalizing b f with
  | done r =>
    cases r with
    | ok x => exact hQ _ _ _ _ hp
    | error e => exact hE _ _ hp
  | write c k ih => exact fun r => ih r (hp r)
  | width k ih => exact fun r hr => ih r (hp r hr)
  | height k ih => exact fun r hr => ih r (hp r hr)
  | color k ih => exact fun r hr => ih r (hp r hr)
  | fill y rows k ih => exact fun r => ih r (hp r)

theorem LProg.ofProg_bind (p : Prog α) (g : α → Prog β) : LProg.ofProg (p.bind g) = (LProg.ofProg p).bind fun a => LProg.ofProg (g a) := by
  induction p with
  | done a => rfl
  | write c k ih => simp only [Prog.bind, LProg.ofProg, LProg.bind, ih]

theorem FProg.ofL_bind (p : LProg α) (g : α → LProg β) : FProg.ofL (p.bind g) = (FProg.ofL p).bind fun a => FProg.ofL (g a) := by
  induction p with
  | done a => rfl
  | write c k ih => simp only [LProg.bind, FProg.ofL, FProg.bind, ih]
  | fill y rows k ih => simp only [LProg.bind, FProg.ofL, FProg.bind, ih]

theorem FM.lm_bind (m : LM α) (g : α → LM β) : FM.lm (m >>= g) = (FM.lm m >>= fun a => FM.lm (g a)) := by
  funext s
  change FProg.ofL ((m s).bind _) = (FProg.ofL (m s)).bind _
  rw [FProg.ofL_bind]
  congr 1
  funext r
  cases r <;> rfl

theorem FM.wm_bind (m : WM α) (g : α → WM β) : FM.wm (m >>= g) = (FM.wm m >>= fun a => FM.wm (g a)) := by
  funext s
  change FProg.ofL (LProg.ofProg ((m s).bind _)) = (FProg.ofL (LProg.ofProg (m s))).bind _
  rw [LProg.ofProg_bind, FProg.ofL_bind]
  congr 1
  funext r
  cases r <;> rfl

/-- The state of the bit buffer is sane, what was written and the bits in the buffer cost at most `n`, and at most `k` rows were asked for. -/
structure Charged (pf : Platform) (n k : Nat) (s : BitState) (b f : Nat) : Prop where
  low : 0 ≤ s.free
  high : s.free ≤ pf.wordBits
  cost : 4 * (b : Int) + pf.wordBits ≤ n + s.free
  rows : f ≤ k

/-- `m` costs at most `c` and asks for at most `r` rows, also if it fails; if not, its result satisfies `Q`. -/
def FM.Costs (W H C : Nat) (pf : Platform) (c r : Nat) (m : FM α) (Q : α → Prop) : Prop :=
  ∀ n k N K, n + c ≤ N → k + r ≤ K → ∀ s b f, Charged pf n k s b f →
    (m s).Acc W H C (fun b f => 4 * b ≤ N ∧ f ≤ K) (fun a s' b f => Q a ∧ Charged pf (n + c) (k + r) s' b f) b f

abbrev LM.Costs (W H C : Nat) (pf : Platform) (c r : Nat) (m : LM α) (Q : α → Prop) : Prop := FM.Costs W H C pf c r (FM.lm m) Q
abbrev WM.Costs (W H C : Nat) (pf : Platform) (c : Nat) (m : WM α) (Q : α → Prop) : Prop := FM.Costs W H C pf c 0 (FM.wm m) Q

variable {pf : Platform}

theorem Charged.within {n k : Nat} {s : BitState} {b f : Nat} (h : Charged pf n k s b f) {N K : Nat} (hn : n ≤ N) (hk : k ≤ K) : 4 * b ≤ N ∧ f ≤ K := by
  obtain ⟨h1, h2, h3, h4⟩ := h
  omega
theorem Charged.mono {n k : Nat} {s : BitState} {b f : Nat} (h : Charged pf n k s b f) {N K : Nat} (hn : n ≤ N) (hk : k ≤ K) : Charged pf N K s b f := by
  obtain ⟨h1, h2, h3, h4⟩ := h
  exact ⟨h1, h2, by omega, by omega⟩

theorem FM.Costs.bind' {c1 r1 c2 r2 c r : Nat} {m : FM α} {Q : α → Prop} {g : α → FM β} {T : β → Prop} (hm : FM.Costs W H C pf c1 r1 m Q) (hg : ∀ a, Q a → FM.Costs W H C pf c2 r2 (g a) T)
    (hc : c1 + c2 ≤ c) (hr : r1 + r2 ≤ r) : FM.Costs W H C pf c r (FM.bind m g) T := by
  intro n k N K hn hk s b f h
  refine FProg.Acc.bind (hm n k N K (by omega) (by omega) s b f h) fun a s' b' f' h' => ?_
  exact (hg a h'.1 (n + c1) (k + r1) N K (by omega) (by omega) s' b' f' h'.2).weaken (fun _ _ h => h) fun _ _ _ _ h => ⟨h.1, h.2.mono (by omega) (by omega)⟩
theorem FM.Costs.bind {c1 r1 c2 r2 c r : Nat} {m : FM α} {Q : α → Prop} {g : α → FM β} {T : β → Prop} (hm : FM.Costs W H C pf c1 r1 m Q) (hg : ∀ a, Q a → FM.Costs W H C pf c2 r2 (g a) T)
    (hc : c1 + c2 ≤ c) (hr : r1 + r2 ≤ r) : FM.Costs W H C pf c r (m >>= g) T := FM.Costs.bind' hm hg hc hr
theorem LM.Costs.bind {c1 r1 c2 r2 c r : Nat} {m : LM α} {Q : α → Prop} {g : α → LM β} {T : β → Prop} (hm : LM.Costs W H C pf c1 r1 m Q) (hg : ∀ a, Q a → LM.Costs W H C pf c2 r2 (g a) T)
    (hc : c1 + c2 ≤ c) (hr : r1 + r2 ≤ r) : LM.Costs W H C pf c r (m >>= g) T := by
  unfold LM.Costs
  rw [FM.lm_bind]
  exact FM.Costs.bind hm hg hc hr
theorem WM.Costs.bind {c1 c2 c : Nat} {m : WM α} {Q : α → Prop} {g : α → WM β} {T : β → Prop} (hm : WM.Costs W H C pf c1 m Q) (hg : ∀ a, Q a → WM.Costs W H C pf c2 (g a) T)
    (hc : c1 + c2 ≤ c) : WM.Costs W H C pf c (m >>= g) T := by
  unfold WM.Costs
  rw [FM.wm_bind]
  exact FM.Costs.bind hm hg hc (Nat.le_refl 0)
theorem FM.Costs.weaken {c r c' r' : Nat} {m : FM α} {Q Q' : α → Prop} (h : FM.Costs W H C pf c r m Q) (hc : c ≤ c') (hr : r ≤ r') (hQ : ∀ a, Q a → Q' a) : FM.Costs W H C pf c' r' m Q' :=
  fun n k N K hn hk s b f hs => (h n k N K (by omega) (by omega) s b f hs).weaken (fun _ _ h => h) fun _ _ _ _ h => ⟨hQ _ h.1, h.2.mono (by omega) (by omega)⟩

theorem WM.Costs.pure {c : Nat} (a : α) {Q : α → Prop} (h : Q a) : WM.Costs W H C pf c (WM.pure a) Q := fun _ _ _ _ _ _ _ _ _ hs => ⟨h, hs.mono (by omega) (by omega)⟩
theorem WM.Costs.lift (r : R α) : WM.Costs W H C pf 0 (WM.lift r) fun a => r = .ok a := by
  intro n k N K hn hk s b f hs
  cases r with
  | ok a => exact ⟨rfl, hs.mono (by omega) (by omega)⟩
  | error e => exact hs.within (by omega) (by omega)
theorem WM.Costs.lift_bind {c : Nat} {r : R α} {g : α → WM β} {T : β → Prop} (hg : ∀ a, r = .ok a → WM.Costs W H C pf c (g a) T) : WM.Costs W H C pf c (WM.lift r >>= g) T :=
  WM.Costs.bind (WM.Costs.lift r) hg (by omega)
theorem LM.Costs.lift (r : R α) : LM.Costs W H C pf 0 0 (LM.lift r) fun a => r = .ok a := WM.Costs.lift r
theorem LM.Costs.lift_bind {c k : Nat} {r : R α} {g : α → LM β} {T : β → Prop} (hg : ∀ a, r = .ok a → LM.Costs W H C pf c k (g a) T) : LM.Costs W H C pf c k (LM.lift r >>= g) T :=
  LM.Costs.bind (LM.Costs.lift r) hg (by omega) (by omega)
theorem FM.Costs.lift (r : R α) : FM.Costs W H C pf 0 0 (FM.lift r) fun a => r = .ok a := WM.Costs.lift r
theorem FM.Costs.lift_bind {c k : Nat} {r : R α} {g : α → FM β} {T : β → Prop} (hg : ∀ a, r = .ok a → FM.Costs W H C pf c k (g a) T) : FM.Costs W H C pf c k (FM.lift r >>= g) T :=
  FM.Costs.bind (FM.Costs.lift r) hg (by omega) (by omega)
theorem LM.Costs.pure {c r : Nat} (a : α) {Q : α → Prop} (h : Q a) : LM.Costs W H C pf c r (LM.pure a) Q := fun _ _ _ _ _ _ _ _ _ hs => ⟨h, hs.mono (by omega) (by omega)⟩

theorem WM.Costs.writeAll {c : Nat} (d : Bytes) (h : 4 * d.length ≤ c) : WM.Costs W H C pf c (WM.writeAll d) fun _ => True := by
  intro n k N K hn hk s b f hs
  obtain ⟨h1, h2, h3, h4⟩ := hs
  intro r
  cases r with
  | none => exact ⟨trivial, h1, h2, by push_cast; omega, by omega⟩
  | some e => exact ⟨by omega, by omega⟩

theorem LM.Costs.fill (y : UInt16) (rows : Rows) : LM.Costs W H C pf 0 1 (LM.fillBuffers y rows) fun _ => True := by
  intro n k N K hn hk s b f hs r
  obtain ⟨h1, h2, h3, h4⟩ := hs
  cases r with
  | ok r => exact ⟨trivial, h1, h2, by omega, by omega⟩
  | error e => exact ⟨by omega, by omega⟩

theorem WM.Costs.forEach {l : List α} {body : α → WM Unit} (c : α → Nat) (h : ∀ x ∈ l, WM.Costs W H C pf (c x) (body x) fun _ => True) :
    WM.Costs W H C pf (l.map c).sum (WM.forEach l body) fun _ => True := by
  induction l with
  | nil => exact WM.Costs.pure () trivial
  | cons x l ih => exact WM.Costs.bind (h x (by simp)) (fun _ _ => ih fun y hy => h y (by simp [hy])) (by simp)
theorem WM.Costs.forFold {l : List α} {body : β → α → WM β} (c : α → Nat) (h : ∀ s, ∀ x ∈ l, WM.Costs W H C pf (c x) (body s x) fun _ => True) :
    ∀ {s : β}, WM.Costs W H C pf (l.map c).sum (WM.forFold l s body) fun _ => True := by
  induction l with
  | nil => exact fun {s} => WM.Costs.pure s trivial
  | cons x l ih => exact fun {s} => WM.Costs.bind (h s x (by simp)) (fun _ _ => ih fun s y hy => h s y (by simp [hy])) (by simp)
theorem LM.Costs.forFold {l : List α} {body : β → α → LM β} {c r : Nat} (h : ∀ s, ∀ x ∈ l, LM.Costs W H C pf c r (body s x) fun _ => True) :
    ∀ {s : β}, LM.Costs W H C pf (l.length * c) (l.length * r) (LM.forFold l s body) fun _ => True := by
  induction l with
  | nil => exact fun {s} => LM.Costs.pure s trivial
  | cons x l ih =>
    exact fun {s} => LM.Costs.bind (h s x (by simp)) (fun _ _ => ih fun s y hy => h s y (by simp [hy])) (by simp; ring_nf; omega) (by simp; ring_nf; omega)
end

/-! ### Bits -/

section
variable {α β : Type} {W H C : Nat} {E : Nat → Nat → Prop}

/-- Hoare triples about the state of the bit buffer and the counters. -/
def WM.Runs (W H C : Nat) (E : Nat → Nat → Prop) (P : BitState → Nat → Nat → Prop) (m : WM α) (Q : α → BitState → Nat → Nat → Prop) : Prop :=
  ∀ s b f, P s b f → (FM.wm m s).Acc W H C E Q b f

theorem WM.Runs.bind {P : BitState → Nat → Nat → Prop} {m : WM α} {Q : α → BitState → Nat → Nat → Prop} {g : α → WM β} {T : β → BitState → Nat → Nat → Prop}
    (hm : WM.Runs W H C E P m Q) (hg : ∀ a, WM.Runs W H C E (Q a) (g a) T) : WM.Runs W H C E P (m >>= g) T := by
  intro s b f h
  rw [FM.wm_bind]
  exact FProg.Acc.bind (hm s b f h) fun a s' b' f' h' => hg a s' b' f' h'
theorem WM.Runs.pure {P : BitState → Nat → Nat → Prop} (a : α) {Q : α → BitState → Nat → Nat → Prop} (h : ∀ s b f, P s b f → Q a s b f) : WM.Runs W H C E P (WM.pure a) Q := h
theorem WM.Runs.get_bind {P : BitState → Nat → Nat → Prop} {g : BitState → WM β} {T : β → BitState → Nat → Nat → Prop}
    (hg : ∀ a, WM.Runs W H C E (fun s b f => s = a ∧ P s b f) (g a) T) : WM.Runs W H C E P (WM.get >>= g) T :=
  WM.Runs.bind (Q := fun a s b f => s = a ∧ P s b f) (fun s b f h => ⟨rfl, h⟩) hg
theorem WM.Runs.set {P : BitState → Nat → Nat → Prop} {x : BitState} {Q : Unit → BitState → Nat → Nat → Prop} (h : ∀ s b f, P s b f → Q () x b f) : WM.Runs W H C E P (WM.set x) Q := h
theorem WM.Runs.lift {P : BitState → Nat → Nat → Prop} {r : R α} {Q : α → BitState → Nat → Nat → Prop} (hE : ∀ s b f, P s b f → E b f)
    (h : ∀ a, r = .ok a → ∀ s b f, P s b f → Q a s b f) : WM.Runs W H C E P (WM.lift r) Q := by
  intro s b f hp
  cases r with
  | ok a => exact h a rfl s b f hp
  | error e => exact hE s b f hp
theorem WM.Runs.lift_bind {P : BitState → Nat → Nat → Prop} {r : R α} {g : α → WM β} {T : β → BitState → Nat → Nat → Prop} (hE : ∀ s b f, P s b f → E b f)
    (hg : ∀ a, r = .ok a → WM.Runs W H C E P (g a) T) : WM.Runs W H C E P (WM.lift r >>= g) T :=
  WM.Runs.bind (Q := fun a s b f => r = .ok a ∧ P s b f) (WM.Runs.lift hE fun a ha s b f h => ⟨ha, h⟩) fun a s b f h => hg a h.1 s b f h.2
theorem WM.Runs.writeAll {P : BitState → Nat → Nat → Prop} {c : Bytes} {Q : Unit → BitState → Nat → Nat → Prop} (hE : ∀ s b f, P s b f → E (b + c.length) f)
    (h : ∀ s b f, P s b f → Q () s (b + c.length) f) : WM.Runs W H C E P (WM.writeAll c) Q := by
  intro s b f hp r
  cases r with
  | none => exact h s b f hp
  | some e => exact hE s b f hp
theorem WM.Runs.weaken {P P' : BitState → Nat → Nat → Prop} {m : WM α} {Q Q' : α → BitState → Nat → Nat → Prop} (h : WM.Runs W H C E P m Q) (hP : ∀ s b f, P' s b f → P s b f)
    (hQ : ∀ a s b f, Q a s b f → Q' a s b f) : WM.Runs W H C E P' m Q' := fun s b f hp => (h s b f (hP s b f hp)).weaken (fun _ _ h => h) hQ

/-- At most `x` more bytes may be written, the state of the bit buffer is `s0`. -/
def Room (s0 : BitState) (n k x : Nat) : BitState → Nat → Nat → Prop := fun s b f => s = s0 ∧ b + x ≤ n ∧ f ≤ k
/-- Failures with at most `n` bytes and `k` rows. -/
def Lim (n k : Nat) : Nat → Nat → Prop := fun b f => b ≤ n ∧ f ≤ k

theorem flushByte_runs (pf : Platform) (fr : Int) (s0 : BitState) {n k N x : Nat} (hn : n ≤ N) :
    WM.Runs W H C (Lim N k) (Room s0 n k (x + 2)) (flushByteFromBitBuffer pf fr) fun _ => Room s0 n k x := by
  have hE : ∀ s b f, Room s0 n k (x + 2) s b f → Lim N k b f := by rintro s b f ⟨h1, h2, h3⟩; exact ⟨by omega, h3⟩
  unfold flushByteFromBitBuffer
  dsimp only
  with_reducible refine WM.Runs.get_bind fun s => ?_
  refine WM.Runs.weaken (P := Room s0 n k (x + 2)) ?_ (fun _ _ _ h => h.2) fun _ _ _ _ h => h
  with_reducible refine WM.Runs.lift_bind hE fun _ _ => WM.Runs.lift_bind hE fun _ _ => WM.Runs.lift_bind hE fun v _ => ?_
  with_reducible refine WM.Runs.bind (Q := fun _ => Room s0 n k (x + 1)) ?_ fun _ => ?_
  · refine WM.Runs.writeAll ?_ ?_
    · rintro s b f ⟨h1, h2, h3⟩
      exact ⟨by simp only [List.length_cons, List.length_nil]; omega, h3⟩
    · rintro s b f ⟨h1, h2, h3⟩
      exact ⟨h1, by simp only [List.length_cons, List.length_nil]; omega, h3⟩
  · split
    · refine WM.Runs.writeAll ?_ ?_
      · rintro s b f ⟨h1, h2, h3⟩
        exact ⟨by simp only [List.length_cons, List.length_nil]; omega, h3⟩
      · rintro s b f ⟨h1, h2, h3⟩
        exact ⟨h1, by simp only [List.length_cons, List.length_nil]; omega, h3⟩
    · exact WM.Runs.pure () fun s b f h => ⟨h.1, by have := h.2.1; omega, h.2.2⟩

theorem flushBytes_runs (pf : Platform) (s0 : BitState) {n k : Nat} (l : List Nat) : ∀ {x : Nat},
    WM.Runs W H C (Lim n k) (Room s0 n k (x + 2 * l.length)) (WM.forEach l fun i => flushByteFromBitBuffer pf ((i * 8 : Nat) : Int)) fun _ => Room s0 n k x := by
  induction l with
  | nil => exact fun {x} => WM.Runs.pure () fun s b f h => h
  | cons i l ih =>
    intro x
    refine WM.Runs.bind (m := flushByteFromBitBuffer pf ((i * 8 : Nat) : Int)) ((flushByte_runs pf _ s0 (x := x + 2 * l.length) (Nat.le_refl n)).weaken ?_ fun _ _ _ _ h => h) fun _ => ih
    rintro s b f ⟨h1, h2, h3⟩
    exact ⟨h1, by simp only [List.length_cons] at h2; omega, h3⟩

theorem toBeBytes_length (pf : Platform) (v : Nat) : (toBeBytes pf v).length = pf.wordBytes := by simp [toBeBytes]

/-- A word of bits becomes at most twice as many bytes. -/
theorem writeBitBuffer_runs (pf : Platform) (s0 : BitState) {n k x : Nat} :
    WM.Runs W H C (Lim n k) (Room s0 n k (x + 2 * (pf.wordBits / 8))) (writeBitBuffer pf) fun _ => Room s0 n k x := by
  have hb : pf.wordBits / 8 = pf.wordBytes := by rw [wordBits_eq_bytes]; omega
  unfold writeBitBuffer
  with_reducible refine WM.Runs.get_bind fun s => ?_
  refine WM.Runs.weaken (P := Room s0 n k (x + 2 * (pf.wordBits / 8))) ?_ (fun _ _ _ h => h.2) fun _ _ _ _ h => h
  split
  · have := flushBytes_runs (W := W) (H := H) (C := C) pf s0 (n := n) (k := k) (List.range (pf.wordBits / 8)) (x := x)
    rwa [List.length_range] at this
  · refine WM.Runs.writeAll ?_ ?_ <;> rintro s b f ⟨h1, h2, h3⟩ <;> rw [toBeBytes_length]
    · exact ⟨by omega, h3⟩
    · exact ⟨h1, by omega, h3⟩
end

section
variable {W H C : Nat} {pf : Platform} (hpf : pf.Valid)
include hpf

theorem word_cases : pf.wordBits = 32 ∨ pf.wordBits = 64 := by
  rcases hpf with h | h <;> simp [Platform.wordBits, h]

omit hpf in
theorem ckI8 {v a : Int} (h : ckI pf 8 v = .ok a) (h0 : -128 ≤ v) (h1 : v < 128) : a = v := by
  unfold ckI at h
  rw [if_pos ⟨by simpa using h0, by simpa using h1⟩] at h
  exact (Except.ok.inj h).symm

theorem flushBitBuffer_costs (fuel : Nat) : WM.Costs W H C pf 0 (flushBitBuffer pf fuel) fun _ => True := by
  have hw := word_cases hpf
  induction fuel with
  | zero => exact (WM.Costs.lift (α := Unit) (.error .diverge)).weaken (by omega) (by omega) fun _ _ => trivial
  | succ fuel ih =>
    intro n k N K hn hk
    have hE : ∀ s b f, Charged pf n k s b f → 4 * b ≤ N ∧ f ≤ K := fun s b f h => h.within (by omega) (by omega)
    change WM.Runs W H C _ (Charged pf n k) (flushBitBuffer pf (fuel + 1)) _
    unfold flushBitBuffer
    with_reducible refine WM.Runs.get_bind fun s0 => ?_
    split
    · rename_i hfree
      have key : ∀ s b f, (s = s0 ∧ Charged pf n k s b f) → (FM.wm (flushByteFromBitBuffer pf s0.free) s).Acc W H C (fun b f => 4 * b ≤ N ∧ f ≤ K)
          (fun _ s' b' f' => s' = s0 ∧ Charged pf n k s0 b f ∧ b' ≤ b + 2 ∧ f' ≤ k) b f := by
        rintro s b f ⟨rfl, h⟩
        have := flushByte_runs (W := W) (H := H) (C := C) pf s.free s (n := b + 2) (k := k) (N := b + 2) (x := 0) (Nat.le_refl _) s b f ⟨rfl, by omega, h.rows⟩
        refine this.weaken ?_ ?_
        · rintro b' f' ⟨h1, h2⟩
          have := h.cost
          have := h.high
          exact ⟨by omega, by omega⟩
        · rintro _ s' b' f' ⟨h1, h2, h3⟩
          exact ⟨h1, h, by omega, h3⟩
      with_reducible refine WM.Runs.bind (Q := fun _ s b f => s = s0 ∧ 0 ≤ s.free ∧ 4 * (b : Int) + pf.wordBits ≤ n + s.free + 8 ∧ f ≤ k) ?_ fun _ => ?_
      · intro s b f h
        refine (key s b f h).weaken (fun _ _ h => h) ?_
        rintro _ s' b' f' ⟨rfl, h2, h3, h4⟩
        have := h2.cost
        exact ⟨rfl, h2.low, by omega, h4⟩
      · with_reducible refine WM.Runs.get_bind fun s1 => ?_
        with_reducible refine WM.Runs.lift_bind ?_ fun a ha => ?_
        · rintro s b f ⟨rfl, rfl, h1, h2, h3⟩
          omega
        · with_reducible refine WM.Runs.bind (Q := fun _ s b f => Charged pf n k s b f) ?_ fun _ => ?_
          · refine WM.Runs.set ?_
            rintro s b f ⟨rfl, rfl, h1, h2, h3⟩
            have := ckI8 ha (by omega) (by omega)
            subst this
            exact ⟨by dsimp only; omega, by dsimp only; omega, by dsimp only; omega, h3⟩
          · intro s b f h
            exact ih n k N K (by omega) (by omega) s b f h
    · exact WM.Runs.pure () fun s b f h => ⟨trivial, h.2.mono (by omega) (by omega)⟩

theorem writeBits_costs (value : Nat) {size : Nat} (hsize : size ≤ 32) : WM.Costs W H C pf size (writeBits pf value size) fun _ => True := by
  have hw := word_cases hpf
  intro n k N K hn hk
  have hE : ∀ s b f, Charged pf n k s b f → 4 * b ≤ N ∧ f ≤ K := fun s b f h => h.within (by omega) (by omega)
  change WM.Runs W H C _ (Charged pf n k) (writeBits pf value size) _
  unfold writeBits
  dsimp only
  have hb : ((size : Int).bmod 256) = size := by
    rw [Int.bmod_eq_of_le] <;> omega
  rw [hb]
  with_reducible refine WM.Runs.get_bind fun s0 => ?_
  have hE' : ∀ s b f, (s = s0 ∧ Charged pf n k s b f) → 4 * b ≤ N ∧ f ≤ K := fun s b f h => hE s b f h.2
  with_reducible refine WM.Runs.lift_bind hE' fun fb hfb => ?_
  split
  · rename_i hneg
    with_reducible refine WM.Runs.lift_bind hE' fun _ _ => WM.Runs.lift_bind hE' fun _ _ => WM.Runs.lift_bind hE' fun hi _ => WM.Runs.lift_bind hE' fun lo _ => ?_
    with_reducible refine WM.Runs.bind (Q := fun _ s b f => s = { s0 with buffer := hi ||| lo } ∧ Charged pf n k s0 b f) ?_ fun _ => ?_
    · refine WM.Runs.set ?_
      rintro s b f ⟨rfl, h⟩
      exact ⟨rfl, h⟩
    · with_reducible refine WM.Runs.bind (Q := fun _ s b f => s.free = s0.free ∧ 0 ≤ s0.free ∧ s0.free ≤ pf.wordBits ∧ 4 * (b : Int) ≤ n + s0.free ∧ f ≤ k) ?_ fun _ => ?_
      · rintro s b f ⟨rfl, h⟩
        have := writeBitBuffer_runs (W := W) (H := H) (C := C) pf { s0 with buffer := hi ||| lo } (n := b + 2 * (pf.wordBits / 8)) (k := k) (x := 0) _ b f ⟨rfl, by omega, h.rows⟩
        obtain ⟨h1, h2, h3, h4⟩ := h
        have h5 := ckI8 hfb (by omega) (by omega)
        refine this.weaken ?_ ?_
        · rintro b' f' ⟨hb', hf'⟩
          exact ⟨by omega, by omega⟩
        · rintro _ s' b' f' ⟨rfl, hb', hf'⟩
          exact ⟨rfl, h1, h2, by omega, by omega⟩
      · with_reducible refine WM.Runs.lift_bind ?_ fun a ha => ?_
        · rintro s b f ⟨h0, h1, h2, h3, h4⟩
          have h5 := ckI8 hfb (by omega) (by omega)
          exact ⟨by omega, by omega⟩
        · refine WM.Runs.set ?_
          rintro s b f ⟨h0, h1, h2, h3, h4⟩
          have h5 := ckI8 hfb (by omega) (by omega)
          have h6 := ckI8 ha (by omega) (by omega)
          subst h5 h6
          exact ⟨trivial, by dsimp only; omega, by dsimp only; omega, by dsimp only; push_cast; omega, by omega⟩
  · rename_i hneg
    with_reducible refine WM.Runs.lift_bind hE' fun hi _ => ?_
    refine WM.Runs.set ?_
    rintro s b f ⟨rfl, h1, h2, h3, h4⟩
    have h5 := ckI8 hfb (by omega) (by omega)
    subst h5
    exact ⟨trivial, by dsimp only; omega, by dsimp only; omega, by dsimp only; push_cast; omega, by omega⟩

theorem finalize_costs : WM.Costs W H C pf 7 (finalizeBitBuffer pf) fun _ => True := by
  have hw := word_cases hpf
  unfold finalizeBitBuffer
  refine WM.Costs.bind (c2 := 0) (writeBits_costs hpf _ (by omega)) (fun _ _ => WM.Costs.bind (c2 := 0) (flushBitBuffer_costs hpf _) (fun _ _ => ?_) (Nat.le_refl 0)) (by omega)
  intro n k N K hn hk s b f h
  obtain ⟨h1, h2, h3, h4⟩ := h
  exact ⟨trivial, by dsimp only; omega, by dsimp only; omega, by dsimp only; omega, by omega⟩

/-- Code words of at most 16 bits. -/
def Short (t : HuffmanTable) : Prop := ∀ x ∈ t.lookup, x.1 ≤ 16

omit hpf in
theorem ckU_le {b : Nat} {v : Int} {n : Nat} (h : ckU pf b v = .ok n) (h0 : 0 ≤ v) : (n : Int) ≤ v := by
  unfold ckU at h
  split at h
  · have := Except.ok.inj h
    omega
  · split at h
    · cases h
    · have := Except.ok.inj h
      have h1 : v % 2 ^ b ≤ v := by
        have h2 := Int.mul_ediv_add_emod v (2 ^ b)
        have h3 : 0 ≤ (2 : Int) ^ b * (v / 2 ^ b) := Int.mul_nonneg (by positivity) (Int.ediv_nonneg h0 (by positivity))
        linarith
      have h2 : 0 ≤ v % 2 ^ b := Int.emod_nonneg _ (by positivity)
      omega

omit hpf in
theorem Short.get {t : HuffmanTable} (ht : Short t) {v : Nat} {x : Nat × Nat} (h : t.getForValue pf v = .ok x) : x.1 ≤ 16 := by
  unfold HuffmanTable.getForValue at h
  obtain ⟨y, h1, h⟩ := R.bind_ok h
  obtain ⟨_, -, h⟩ := R.bind_ok h
  have := Except.ok.inj h
  subst this
  unfold idx at h1
  split at h1
  · rename_i a ha
    have := Except.ok.inj h1
    subst this
    exact ht _ (List.mem_of_getElem? ha)
  · cases h1

theorem huffmanEncode_costs (v : Nat) {t : HuffmanTable} (ht : Short t) : WM.Costs W H C pf 16 (huffmanEncode pf v t) fun _ => True := by
  unfold huffmanEncode
  with_reducible refine WM.Costs.lift_bind fun a ha => ?_
  exact (writeBits_costs hpf _ (Nat.le_trans (ht.get ha) (by decide))).weaken (ht.get ha) (Nat.le_refl 0) fun _ h => h

theorem huffmanEncodeValue_costs {size : Nat} (hs : size ≤ 15) (symbol v : Nat) {t : HuffmanTable} (ht : Short t) :
    WM.Costs W H C pf 31 (huffmanEncodeValue pf size symbol v t) fun _ => True := by
  unfold huffmanEncodeValue
  with_reducible refine WM.Costs.lift_bind fun a ha => WM.Costs.lift_bind fun _ _ => WM.Costs.lift_bind fun n hn => ?_
  have h1 := ht.get ha
  have h2 := ckU_le hn (by omega)
  exact (writeBits_costs hpf _ (by omega)).weaken (by omega) (Nat.le_refl 0) fun _ h => h

omit hpf in
theorem getCode_size {v : Int} {x : Nat × Nat} (h : getCode pf v = .ok x) : x.1 ≤ 15 := by
  unfold getCode at h
  obtain ⟨a, -, h⟩ := R.bind_ok h
  obtain ⟨b, -, h⟩ := R.bind_ok h
  obtain ⟨n, h1, h⟩ := R.bind_ok h
  obtain ⟨_, -, h⟩ := R.bind_ok h
  obtain ⟨_, -, h⟩ := R.bind_ok h
  have := Except.ok.inj h
  subst this
  have h0 : repr16 (b * 2) ||| 1 ≠ 0 := by
    have := Nat.right_le_or (n := repr16 (b * 2)) (m := 1)
    omega
  have : leadingZeros16 (repr16 (b * 2) ||| 1) ≤ 15 := by
    unfold leadingZeros16
    rw [if_neg h0]
    omega
  have := ckU_le h1 (by omega)
  have h3 : n % 256 ≤ n := Nat.mod_le _ _
  exact Nat.le_trans h3 (by omega)

theorem writeDc_costs (v p : Int) {t : HuffmanTable} (ht : Short t) : WM.Costs W H C pf 31 (writeDc pf v p t) fun _ => True := by
  unfold writeDc
  with_reducible refine WM.Costs.lift_bind fun a ha => WM.Costs.lift_bind fun x hx => ?_
  exact huffmanEncodeValue_costs hpf (getCode_size hx) _ _ ht

theorem writeZrl_costs {t : HuffmanTable} (ht : Short t) (fuel : Nat) : ∀ z, WM.Costs W H C pf z (writeZrl pf t fuel z) fun _ => True := by
  induction fuel with
  | zero => exact fun z => (WM.Costs.lift (α := Nat) (.error .diverge)).weaken (by omega) (by omega) fun _ _ => trivial
  | succ fuel ih =>
    intro z
    unfold writeZrl
    split
    · refine WM.Costs.bind (c2 := z - 16) (huffmanEncode_costs hpf _ ht) (fun _ _ => ?_) (by omega)
      with_reducible refine WM.Costs.lift_bind fun n hn => ?_
      have := ckU_le hn (by omega)
      exact (ih n).weaken (by omega) (Nat.le_refl 0) fun _ h => h
    · exact WM.Costs.pure _ trivial

theorem writeAcLoop_costs {t : HuffmanTable} (ht : Short t) (l : List Int) : ∀ z, WM.Costs W H C pf (z + 31 * l.length) (writeAcLoop pf t l z) fun _ => True := by
  induction l with
  | nil => exact fun z => WM.Costs.pure _ trivial
  | cons v l ih =>
    intro z
    unfold writeAcLoop
    rw [List.length_cons]
    split
    · with_reducible refine WM.Costs.lift_bind fun n hn => ?_
      have := ckU_le hn (by omega)
      exact (ih n).weaken (by omega) (Nat.le_refl 0) fun _ h => h
    · refine WM.Costs.bind (c2 := 31 + 31 * l.length) (writeZrl_costs hpf ht _ z) (fun n _ => ?_) (by omega)
      with_reducible refine WM.Costs.lift_bind fun x hx => WM.Costs.lift_bind fun _ _ => ?_
      exact WM.Costs.bind (huffmanEncodeValue_costs hpf (getCode_size hx) _ _ ht) (fun _ _ => ih 0) (by omega)

theorem writeAcBlock_costs {t : HuffmanTable} (ht : Short t) (b : List Int) (start stop : Nat) :
    WM.Costs W H C pf (31 * (stop - start) + 16) (writeAcBlock pf b start stop t) fun _ => True := by
  unfold writeAcBlock
  with_reducible refine WM.Costs.lift_bind fun l hl => ?_
  have hlen : l.length ≤ stop - start := by
    unfold slice at hl
    split at hl
    · have := Except.ok.inj hl
      subst this
      rw [List.length_take]
      omega
    · cases hl
  refine WM.Costs.bind (c2 := 16) (writeAcLoop_costs hpf ht l 0) (fun z _ => ?_) (by omega)
  split
  · exact huffmanEncode_costs hpf _ ht
  · exact WM.Costs.pure _ trivial

theorem writeBlock_costs {t u : HuffmanTable} (ht : Short t) (hu : Short u) (b : List Int) (p : Int) : WM.Costs W H C pf 2000 (writeBlock pf b p t u) fun _ => True := by
  unfold writeBlock
  with_reducible refine WM.Costs.lift_bind fun _ _ => ?_
  exact WM.Costs.bind (writeDc_costs hpf _ _ ht) (fun _ _ => writeAcBlock_costs hpf hu _ _ _) (by omega)

omit hpf in
theorem writeMarker_costs (m : Marker) : WM.Costs W H C pf 8 (writeMarker pf m) fun _ => True := by
  unfold writeMarker
  with_reducible refine WM.Costs.lift_bind fun _ _ => ?_
  exact WM.Costs.writeAll _ (by simp)

/-- What restart markers cost per MCU. -/
def rstCost (interval : Nat) : Nat := if interval > 0 then 15 else 0

theorem scanLoop_costs {α σ : Type} (interval : Nat) (reset : σ → σ) {c : Nat} {body : α → σ → WM σ} {items : List α}
    (hb : ∀ x ∈ items, ∀ s, WM.Costs W H C pf c (body x s) fun _ => True) (st : Rst × σ) :
    WM.Costs W H C pf (items.length * (rstCost interval + c)) (scanLoop pf interval reset body items st) fun _ => True := by
  unfold scanLoop
  refine (WM.Costs.forFold (fun _ => rstCost interval + c) fun st x hx => ?_).weaken (by simp) (Nat.le_refl 0) fun _ h => h
  refine WM.Costs.bind (c1 := rstCost interval) (c2 := c) (Q := fun _ => True) ?_ (fun _ _ => ?_) (Nat.le_refl _)
  · unfold restartBefore
    split
    · rename_i h
      unfold rstCost
      rw [if_pos h.1]
      refine WM.Costs.bind (c2 := 8) (finalize_costs hpf) (fun _ _ => ?_) (by omega)
      with_reducible exact WM.Costs.bind (c2 := 0) (writeMarker_costs _) (fun _ _ => WM.Costs.pure _ trivial) (by omega)
    · exact WM.Costs.pure _ trivial
  · refine WM.Costs.bind (c2 := 0) (hb x hx _) (fun _ _ => ?_) (by omega)
    with_reducible refine WM.Costs.lift_bind fun _ _ => ?_
    exact WM.Costs.pure _ trivial
end

/-! ### Headers: 4 for every byte -/

section
variable {W H C : Nat} {pf : Platform}

theorem writeU8_costs (v : Nat) : WM.Costs W H C pf 4 (writeU8 v) fun _ => True := WM.Costs.writeAll _ (by simp)
theorem writeU16_costs (v : Nat) : WM.Costs W H C pf 8 (writeU16 v) fun _ => True := WM.Costs.writeAll _ (by simp)
theorem write_costs {c : Nat} {d : Bytes} (h : 4 * d.length ≤ c) : WM.Costs W H C pf c (write d) fun _ => True := WM.Costs.writeAll _ h

theorem writeSegment_costs (m : Marker) (data : Bytes) : WM.Costs W H C pf (4 * (data.length + 4)) (writeSegment pf m data) fun _ => True := by
  unfold writeSegment
  with_reducible
    refine WM.Costs.bind (c2 := 4 * data.length + 8) (writeMarker_costs _) (fun _ _ => ?_) (by omega)
    refine WM.Costs.lift_bind fun _ _ => ?_
    exact WM.Costs.bind (writeU16_costs _) (fun _ _ => write_costs (Nat.le_refl _)) (by omega)

theorem writeHeader_costs (d : Density) : WM.Costs W H C pf 72 (writeHeader pf d) fun _ => True := by
  unfold writeHeader
  with_reducible
    refine WM.Costs.bind (c2 := 64) (writeMarker_costs _) (fun _ _ => ?_) (by decide)
    refine WM.Costs.bind (c2 := 56) (writeU16_costs _) (fun _ _ => ?_) (by decide)
    refine WM.Costs.bind (c1 := 20) (c2 := 36) (write_costs (by decide)) (fun _ _ => ?_) (by decide)
    refine WM.Costs.bind (c1 := 8) (c2 := 28) (write_costs (by decide)) (fun _ _ => ?_) (by decide)
    refine WM.Costs.bind (c1 := 20) (c2 := 8) (Q := fun _ => True) ?_ (fun _ _ => write_costs (by decide)) (by decide)
  cases d <;>
    exact WM.Costs.bind (c2 := 16) (writeU8_costs _) (fun _ _ => WM.Costs.bind (writeU16_costs _) (fun _ _ => writeU16_costs _) (by decide)) (by decide)

theorem writeAdobe_costs (ct : JpegColorType) : WM.Costs W H C pf 64 (writeAdobe pf ct) fun _ => True := by
  cases ct
  · exact WM.Costs.pure _ trivial
  · exact WM.Costs.pure _ trivial
  · exact writeSegment_costs (.app 14) (ascii [65, 100, 111, 98, 101, 0, 0, 0, 0, 0, 0, 0])
  · exact writeSegment_costs (.app 14) (ascii [65, 100, 111, 98, 101, 0, 0, 0, 0, 0, 0, 2])

theorem writeHuffmanSegment_costs (cls : CodingClass) (d : Nat) {t : HuffmanTable} (ht : TableLen t) : WM.Costs W H C pf 1108 (writeHuffmanSegment pf cls d t) fun _ => True := by
  have h1 := ht.1
  have h2 := ht.2
  unfold writeHuffmanSegment
  with_reducible
    refine WM.Costs.lift_bind fun _ _ => ?_
    refine WM.Costs.bind (c2 := 1100) (writeMarker_costs _) (fun _ _ => ?_) (by decide)
    refine WM.Costs.lift_bind fun _ _ => ?_
    refine WM.Costs.bind (c2 := 1092) (writeU16_costs _) (fun _ _ => ?_) (by decide)
    refine WM.Costs.bind (c2 := 1088) (writeU8_costs _) (fun _ _ => ?_) (by decide)
    refine WM.Costs.bind (c1 := 64) (c2 := 1024) (write_costs (by rw [List.length_map]; omega)) (fun _ _ => ?_) (by decide)
    exact write_costs (by rw [List.length_map]; omega)

theorem writeQuantizationSegment_costs (d : Nat) (t : QuantizationTable) : WM.Costs W H C pf 276 (writeQuantizationSegment pf d t) fun _ => True := by
  unfold writeQuantizationSegment
  with_reducible
    refine WM.Costs.lift_bind fun _ _ => ?_
    refine WM.Costs.bind (c2 := 268) (writeMarker_costs _) (fun _ _ => ?_) (by decide)
    refine WM.Costs.bind (c2 := 260) (writeU16_costs _) (fun _ _ => ?_) (by decide)
    refine WM.Costs.bind (c2 := 256) (writeU8_costs _) (fun _ _ => ?_) (by decide)
    refine (WM.Costs.forEach (fun _ => 4) fun v _ => ?_).weaken (by decide) (Nat.le_refl 0) fun _ h => h
    exact WM.Costs.lift_bind fun _ _ => writeU8_costs _

theorem writeDriOpt_costs (i : Option UInt16) : WM.Costs W H C pf 24 (writeDriOpt pf i) fun _ => True := by
  cases i with
  | none => exact WM.Costs.pure _ trivial
  | some i =>
    change WM.Costs W H C pf 24 (writeDri pf i.toNat) fun _ => True
    unfold writeDri
    with_reducible
      refine WM.Costs.bind (c2 := 16) (writeMarker_costs _) (fun _ _ => ?_) (by decide)
      exact WM.Costs.bind (writeU16_costs _) (fun _ _ => writeU16_costs _) (by decide)

theorem writeChromaHuffman_costs (n : Nat) {t : HuffPair} (hd : TableLen t.dc) (ha : TableLen t.ac) : WM.Costs W H C pf 2216 (writeChromaHuffman pf n t) fun _ => True := by
  unfold writeChromaHuffman
  split
  · with_reducible exact WM.Costs.bind (writeHuffmanSegment_costs _ _ hd) (fun _ _ => writeHuffmanSegment_costs _ _ ha) (by decide)
  · exact WM.Costs.pure _ trivial

theorem writeFrameHeader_costs (w h : UInt16) {cs : List Component} (hcs : cs.length ≤ 4) (progressive : Bool) :
    WM.Costs W H C pf 88 (Jpeg.writeFrameHeader pf w h cs progressive) fun _ => True := by
  unfold Jpeg.writeFrameHeader
  with_reducible
    refine WM.Costs.bind (c2 := 80) (writeMarker_costs _) (fun _ _ => ?_) (by decide)
    refine WM.Costs.lift_bind fun _ _ => WM.Costs.lift_bind fun _ _ => ?_
    refine WM.Costs.bind (c2 := 72) (writeU16_costs _) (fun _ _ => ?_) (by decide)
    refine WM.Costs.bind (c2 := 68) (writeU8_costs _) (fun _ _ => ?_) (by decide)
    refine WM.Costs.bind (c2 := 60) (writeU16_costs _) (fun _ _ => ?_) (by decide)
    refine WM.Costs.bind (c2 := 52) (writeU16_costs _) (fun _ _ => ?_) (by decide)
    refine WM.Costs.bind (c2 := 48) (writeU8_costs _) (fun _ _ => ?_) (by decide)
    refine (WM.Costs.forEach (fun _ => 12) fun c _ => ?_).weaken (by simp; omega) (Nat.le_refl 0) fun _ h => h
    refine WM.Costs.bind (c2 := 8) (writeU8_costs _) (fun _ _ => ?_) (by decide)
    refine WM.Costs.lift_bind fun _ _ => ?_
    exact WM.Costs.bind (writeU8_costs _) (fun _ _ => writeU8_costs _) (by decide)

theorem writeScanHeader_costs (cs : List Component) (spectral : Option (Nat × Nat)) :
    WM.Costs W H C pf (32 + 8 * cs.length) (writeScanHeader pf cs spectral) fun _ => True := by
  unfold writeScanHeader
  with_reducible
    refine WM.Costs.bind (c2 := 24 + 8 * cs.length) (writeMarker_costs _) (fun _ _ => ?_) (by omega)
    refine WM.Costs.lift_bind fun _ _ => WM.Costs.lift_bind fun _ _ => ?_
    refine WM.Costs.bind (c2 := 16 + 8 * cs.length) (writeU16_costs _) (fun _ _ => ?_) (by omega)
    refine WM.Costs.bind (c2 := 12 + 8 * cs.length) (writeU8_costs _) (fun _ _ => ?_) (by omega)
    refine WM.Costs.bind (c1 := 8 * cs.length) (c2 := 12) (Q := fun _ => True) ?_ (fun _ _ => ?_) (by omega)
    · refine (WM.Costs.forEach (fun _ => 8) fun c _ => ?_).weaken (by simp; omega) (Nat.le_refl 0) fun _ h => h
      refine WM.Costs.bind (c2 := 4) (writeU8_costs _) (fun _ _ => ?_) (by decide)
      exact WM.Costs.lift_bind fun _ _ => writeU8_costs _
    · refine WM.Costs.bind (c2 := 8) (writeU8_costs _) (fun _ _ => ?_) (by decide)
      exact WM.Costs.bind (writeU8_costs _) (fun _ _ => writeU8_costs _) (by decide)
end

/-! ### Scans -/

/-- Tables that fit in their segments, with code words of at most 16 bits. -/
structure PairFine (t : HuffPair) : Prop where
  len : PairLen t
  dc : Short t.dc
  ac : Short t.ac

/-- Settings for which the bounds hold: always (`Encoder.Wf`). -/
structure Fine (e : Encoder) : Prop where
  t0 : PairFine e.huffmanTables.1
  t1 : PairFine e.huffmanTables.2

theorem pairIdx_mem {α : Type} {p : α × α} {i : Nat} {a : α} (h : pairIdx p i = .ok a) : a = p.1 ∨ a = p.2 := by
  unfold pairIdx idx at h
  split at h
  · rename_i x hx
    have := Except.ok.inj h
    subst this
    simpa using List.mem_of_getElem? hx
  · cases h

theorem Fine.table {e : Encoder} (h : Fine e) {i : Nat} {t : HuffPair} (ht : pairIdx e.huffmanTables i = .ok t) : PairFine t := by
  rcases pairIdx_mem ht with rfl | rfl
  · exact h.t0
  · exact h.t1

theorem idx_mem {α : Type} {l : List α} {i : Nat} {a : α} (h : idx l i = .ok a) : a ∈ l := by
  unfold idx at h
  split at h
  · rename_i x hx
    have := Except.ok.inj h
    subst this
    exact List.mem_of_getElem? hx
  · cases h

section
variable {W H C : Nat} {pf : Platform} (hpf : pf.Valid)
include hpf

theorem sequentialScan_costs {e : Encoder} (he : Fine e) {blocks : Blocks} {B : Nat} (hB : ∀ b ∈ blocks, b.length ≤ B) (ci : Component × Nat) :
    WM.Costs W H C pf (47 + B * (rstCost e.interval + 2000)) (sequentialScan pf e blocks ci) fun _ => True := by
  unfold sequentialScan
  with_reducible
    refine WM.Costs.bind (c2 := B * (rstCost e.interval + 2000) + 7) (writeScanHeader_costs _ _) (fun _ _ => ?_) (by simp; omega)
    refine WM.Costs.lift_bind fun bs hbs => ?_
    refine WM.Costs.bind (c2 := 7) (scanLoop_costs hpf _ _ (c := 2000) (fun block _ prevDc => ?_) _) (fun _ _ => finalize_costs hpf)
      (Nat.add_le_add_right (Nat.mul_le_mul_right _ (hB bs (idx_mem hbs))) 7)
    refine WM.Costs.lift_bind fun t ht => WM.Costs.lift_bind fun u hu => ?_
    exact WM.Costs.bind (writeBlock_costs hpf (he.table ht).dc (he.table hu).ac _ _) (fun _ _ => (WM.Costs.lift _).weaken (Nat.le_refl 0) (Nat.le_refl 0) fun _ _ => trivial) (by omega)

theorem dcScan_costs {e : Encoder} (he : Fine e) {blocks : Blocks} {B : Nat} (hB : ∀ b ∈ blocks, b.length ≤ B) (ci : Component × Nat) :
    WM.Costs W H C pf (47 + B * (rstCost e.interval + 31)) (dcScan pf e blocks ci) fun _ => True := by
  unfold dcScan
  with_reducible
    refine WM.Costs.bind (c2 := B * (rstCost e.interval + 31) + 7) (writeScanHeader_costs _ _) (fun _ _ => ?_) (by simp; omega)
    refine WM.Costs.lift_bind fun bs hbs => ?_
    refine WM.Costs.bind (c2 := 7) (scanLoop_costs hpf _ _ (c := 31) (fun block _ prevDc => ?_) _) (fun _ _ => finalize_costs hpf)
      (Nat.add_le_add_right (Nat.mul_le_mul_right _ (hB bs (idx_mem hbs))) 7)
    refine WM.Costs.lift_bind fun _ _ => WM.Costs.lift_bind fun t ht => ?_
    exact WM.Costs.bind (c2 := 0) (writeDc_costs hpf _ _ (he.table ht).dc) (fun _ _ => WM.Costs.pure _ trivial) (by omega)

theorem acScan_costs {e : Encoder} (he : Fine e) {blocks : Blocks} {B : Nat} (hB : ∀ b ∈ blocks, b.length ≤ B) (band : Nat × Nat) (ci : Component × Nat) :
    WM.Costs W H C pf (47 + B * (rstCost e.interval + (31 * (band.2 - band.1) + 16))) (acScan pf e blocks band ci) fun _ => True := by
  unfold acScan
  with_reducible
    refine WM.Costs.lift_bind fun _ _ => ?_
    refine WM.Costs.bind (c2 := B * (rstCost e.interval + (31 * (band.2 - band.1) + 16)) + 7) (writeScanHeader_costs _ _) (fun _ _ => ?_) (by simp; omega)
    refine WM.Costs.lift_bind fun bs hbs => ?_
    refine WM.Costs.bind (c2 := 7) (scanLoop_costs hpf _ _ (c := 31 * (band.2 - band.1) + 16) (fun block _ prevDc => ?_) _) (fun _ _ => finalize_costs hpf)
      (Nat.add_le_add_right (Nat.mul_le_mul_right _ (hB bs (idx_mem hbs))) 7)
    refine WM.Costs.lift_bind fun t ht => ?_
    exact writeAcBlock_costs hpf (he.table ht).ac _ _ _

theorem encodeMcu_costs {e : Encoder} (he : Fine e) (op : Operations) (q : QuantizationTable × QuantizationTable) (rows : Rows) (maxH maxV bufferWidth blockX : Nat) (prevDc : List Int)
    (hh : ∀ c ∈ e.components, c.horizontalSamplingFactor ≤ maxH) (hv : ∀ c ∈ e.components, c.verticalSamplingFactor ≤ maxV) :
    WM.Costs W H C pf (e.components.length * (maxV * (maxH * 2000))) (encodeMcu pf e op q rows maxH maxV bufferWidth blockX prevDc) fun _ => True := by
  unfold encodeMcu
  refine (WM.Costs.forFold (fun _ => maxV * (maxH * 2000)) fun st ci hci => ?_).weaken (by simp) (Nat.le_refl 0) fun _ h => h
  have hm : ci.1 ∈ e.components := List.fst_mem_of_mem_zipIdx hci
  refine (WM.Costs.forFold (fun _ => maxH * 2000) fun st v _ => ?_).weaken (by simpa using Nat.mul_le_mul_right _ (hv _ hm)) (Nat.le_refl 0) fun _ h => h
  refine (WM.Costs.forFold (fun _ => 2000) fun st h _ => ?_).weaken (by simpa using hh _ hm) (Nat.le_refl 0) fun _ h => h
  unfold encodeMcuBlock
  with_reducible
    refine WM.Costs.lift_bind fun _ _ => WM.Costs.lift_bind fun _ _ => WM.Costs.lift_bind fun _ _ => WM.Costs.lift_bind fun _ _ => WM.Costs.lift_bind fun _ _ => ?_
    refine WM.Costs.lift_bind fun t ht => WM.Costs.lift_bind fun u hu => ?_
    refine WM.Costs.bind (c2 := 0) (writeBlock_costs hpf (he.table ht).dc (he.table hu).ac _ _) (fun _ _ => ?_) (by omega)
    exact WM.Costs.lift_bind fun _ _ => (WM.Costs.lift _).weaken (Nat.le_refl 0) (Nat.le_refl 0) fun _ _ => trivial
end

end Jpeg
