import Verif.Proofs.Prog
/-! Which failures are possible at all: every method but `optimize_huffman_table` and `fill_buffers` of the AVX2 images ends, and without
undefined behaviour, whatever the image, the settings and the writer are. -/
namespace Jpeg
open WM
set_option maxRecDepth 10000

/-- The admitted failures contain all panics that are no undefined behaviour. -/
structure Lax (A : Fail → Prop) : Prop where
  panic : ∀ k, k ≠ .ub → A (.panic k)

/-- Every failure is admitted. -/
def ROnly (A : Fail → Prop) {α : Type} (r : R α) : Prop := ∀ f, r = .error f → A f

/-- `free_bits` is an `i8`. -/
def FreeOk (s : BitState) : Prop := -128 ≤ s.free ∧ s.free ≤ 127

/-- Every end of the program is admitted, whatever the writer answers (its errors must be admitted). -/
def Prog.Only (A : Fail → Prop) {α : Type} (I : α → BitState → Prop) : Prog (R (α × BitState)) → Prop
  | .done (.error f) => A f
  | .done (.ok a) => I a.1 a.2
  | .write _ k => ∀ e, (∀ x, e = some x → A (.err x)) → (k e).Only A I

/-- The same for a writer method. -/
def WM.Only (A : Fail → Prop) {α : Type} (m : WM α) : Prop := ∀ s, FreeOk s → (m s).Only A fun _ => FreeOk

section R
variable {A : Fail → Prop} {α β : Type}

theorem ROnly.ok (a : α) : ROnly A (.ok a : R α) := fun _ h => by cases h
theorem ROnly.pure (a : α) : ROnly A (Pure.pure a : R α) := fun _ h => by cases h
theorem ROnly.error {f : Fail} (h : A f) : ROnly A (.error f : R α) := fun _ h' => by cases h'; exact h
theorem ROnly.panic (hA : Lax A) {k : PanicKind} (h : k ≠ .ub) : ROnly A (.error (.panic k) : R α) := .error (hA.panic k h)

theorem ROnly.bind_of {r : R α} {f : α → R β} (hr : ROnly A r) (hf : ∀ a, r = .ok a → ROnly A (f a)) : ROnly A (r >>= f) := by
  intro x hx
  cases r with
  | error e => exact hr x (by simpa [Bind.bind, Except.bind] using hx)
  | ok a => exact hf a rfl x hx

theorem ROnly.bind {r : R α} {f : α → R β} (hr : ROnly A r) (hf : ∀ a, ROnly A (f a)) : ROnly A (r >>= f) := hr.bind_of fun a _ => hf a
theorem ROnly.bind' {r : R α} {f : α → R β} (hr : ROnly A r) (hf : ∀ a, ROnly A (f a)) : ROnly A (r.bind f) := ROnly.bind hr hf

theorem ROnly.ite {c : Prop} [Decidable c] {a b : R α} (ha : ROnly A a) (hb : ROnly A b) : ROnly A (if c then a else b) := by
  split <;> assumption

theorem ROnly.forFoldR_of (I : β → Prop) {l : List α} {s : β} {body : β → α → R β} (hs : I s) (h : ∀ s x, x ∈ l → I s → ROnly A (body s x))
    (hI : ∀ s x s', x ∈ l → I s → body s x = .ok s' → I s') : ROnly A (forFoldR l s body) := by
  induction l generalizing s with
  | nil => exact .ok s
  | cons x xs ih =>
    exact (h s x (by simp) hs).bind_of fun a ha => ih (hI s x a (by simp) hs ha) (fun s y hy => h s y (by simp [hy])) (fun s y s' hy => hI s y s' (by simp [hy]))

theorem ROnly.forFoldR {l : List α} {s : β} {body : β → α → R β} (h : ∀ s x, ROnly A (body s x)) : ROnly A (forFoldR l s body) :=
  .forFoldR_of (fun _ => True) trivial (fun s x _ _ => h s x) fun _ _ _ _ _ _ => trivial

theorem ROnly.mapR {l : List α} {f : α → R β} (h : ∀ x, ROnly A (f x)) : ROnly A (mapR l f) := by
  induction l with
  | nil => exact .ok _
  | cons x xs ih => exact (h x).bind' fun a => ih.bind' fun b => .ok _

theorem ckI_only (hA : Lax A) (pf : Platform) (n : Nat) (v : Int) : ROnly A (ckI pf n v) := by
  unfold ckI; exact .ite (.ok _) (.ite (.panic hA (by decide)) (.ok _))
theorem ckU_only (hA : Lax A) (pf : Platform) (n : Nat) (v : Int) : ROnly A (ckU pf n v) := by
  unfold ckU; exact .ite (.ok _) (.ite (.panic hA (by decide)) (.ok _))
theorem ckUsize_only (hA : Lax A) (pf : Platform) (v : Int) : ROnly A (ckUsize pf v) := ckU_only hA _ _ _
theorem ckShift_only (hA : Lax A) (pf : Platform) (n : Nat) (v : Int) : ROnly A (ckShift pf n v) := by
  unfold ckShift; exact .ite (.ok _) (.ite (.panic hA (by decide)) (.ok _))
theorem shlU_only (hA : Lax A) (pf : Platform) (n a : Nat) (v : Int) : ROnly A (shlU pf n a v) := by
  unfold shlU; exact (ckShift_only hA _ _ _).bind fun _ => .ok _
theorem shrU_only (hA : Lax A) (pf : Platform) (n a : Nat) (v : Int) : ROnly A (shrU pf n a v) := by
  unfold shrU; exact (ckShift_only hA _ _ _).bind fun _ => .ok _
theorem idx_only (hA : Lax A) (l : List α) (i : Nat) : ROnly A (idx l i) := by
  unfold idx; split
  · exact .ok _
  · exact .panic hA (by decide)
theorem setIdx_only (hA : Lax A) (l : List α) (i : Nat) (a : α) : ROnly A (setIdx l i a) := by
  unfold setIdx; exact .ite (.ok _) (.panic hA (by decide))
theorem debugAssert_only (hA : Lax A) (pf : Platform) (c : Bool) : ROnly A (debugAssert pf c) := by
  unfold debugAssert; exact .ite (.panic hA (by decide)) (.ok _)
theorem assert'_only (hA : Lax A) (c : Bool) : ROnly A (assert' c) := by
  unfold assert'; exact .ite (.ok _) (.panic hA (by decide))

theorem ckI8_range {pf : Platform} {v r : Int} (h : ckI pf 8 v = .ok r) : -128 ≤ r ∧ r ≤ 127 := by
  unfold ckI at h
  split at h
  · cases h; omega
  · split at h
    · cases h
    · cases h
      have := Int.le_bmod (x := v) (m := 2 ^ 8) (by decide)
      have := Int.bmod_lt (x := v) (m := 2 ^ 8) (by decide)
      omega
theorem ckU8_range {pf : Platform} {v : Int} {r : Nat} (h : ckU pf 8 v = .ok r) : r < 256 := by
  unfold ckU at h
  split at h
  · cases h; omega
  · split at h
    · cases h
    · cases h
      have := Int.emod_lt_of_pos v (b := 2 ^ 8) (by decide)
      have := Int.emod_nonneg v (b := 2 ^ 8) (by decide)
      omega
theorem ckI16_range {pf : Platform} {v r : Int} (h : ckI pf 16 v = .ok r) : -32768 ≤ r ∧ r ≤ 32767 := by
  unfold ckI at h
  split at h
  · cases h; omega
  · split at h
    · cases h
    · cases h
      have := Int.le_bmod (x := v) (m := 2 ^ 16) (by decide)
      have := Int.bmod_lt (x := v) (m := 2 ^ 16) (by decide)
      omega

end R

section W
variable {A : Fail → Prop} {α β : Type}

theorem Prog.Only.bind {I : α → BitState → Prop} {J : β → BitState → Prop} {p : Prog (R (α × BitState))} {f : R (α × BitState) → Prog (R (β × BitState))} (hp : p.Only A I)
    (hf : ∀ a s, I a s → (f (.ok (a, s))).Only A J) (he : ∀ e, f (.error e) = .done (.error e)) : (p.bind f).Only A J := by
  induction p with
  | done r =>
    cases r with
    | error e => rw [Prog.bind, he]; exact hp
    | ok a => exact hf a.1 a.2 hp
  | write c k ih => exact fun e hx => ih e (hp e hx)

theorem WM.Only.bind {m : WM α} {f : α → WM β} (hm : m.Only A) (hf : ∀ a, (f a).Only A) : (WM.bind m f).Only A := fun s hs =>
  Prog.Only.bind (hm s hs) (fun a s' hs' => hf a s' hs') fun _ => rfl
theorem WM.Only.bind' {m : WM α} {f : α → WM β} (hm : m.Only A) (hf : ∀ a, (f a).Only A) : (m >>= f).Only A := hm.bind hf
theorem WM.Only.pure (a : α) : (WM.pure a).Only A := fun _ hs => hs
theorem WM.Only.pure' (a : α) : (Pure.pure a : WM α).Only A := fun _ hs => hs
theorem WM.Only.lift {r : R α} (h : ROnly A r) : (WM.lift r).Only A := fun s hs => by
  cases r with
  | ok a => exact hs
  | error f => exact h f rfl
theorem WM.Only.lift_bind {r : R α} {f : α → WM β} (h : ROnly A r) (hf : ∀ a, r = .ok a → (f a).Only A) : (WM.lift r >>= f).Only A := fun s hs => by
  cases r with
  | ok a => exact hf a rfl s hs
  | error e => exact h e rfl
theorem WM.Only.lift_bind' {r : R α} {f : α → WM β} (h : ROnly A r) (hf : ∀ a, (f a).Only A) : (WM.lift r >>= f).Only A :=
  WM.Only.lift_bind h fun a _ => hf a
theorem WM.Only.get_bind {f : BitState → WM β} (hf : ∀ s, FreeOk s → (f s).Only A) : (WM.get >>= f).Only A := fun s hs => hf s hs s hs
theorem WM.Only.set {s : BitState} (h : FreeOk s) : (WM.set s).Only A := fun _ _ => h
theorem WM.Only.writeAll (c : Bytes) : (WM.writeAll c).Only A := fun _ hs e hx => by
  cases e with
  | none => exact hs
  | some e => exact hx e rfl
theorem WM.Only.ite {c : Prop} [Decidable c] {a b : WM α} (ha : a.Only A) (hb : b.Only A) : (if c then a else b).Only A := by
  split <;> assumption
theorem WM.Only.forEach {l : List α} {body : α → WM Unit} (h : ∀ x, (body x).Only A) : (WM.forEach l body).Only A := by
  induction l with
  | nil => exact WM.Only.pure ()
  | cons x xs ih => exact (h x).bind fun _ => ih
theorem WM.Only.forFold {l : List α} {s : β} {body : β → α → WM β} (h : ∀ s x, (body s x).Only A) : (WM.forFold l s body).Only A := by
  induction l generalizing s with
  | nil => exact WM.Only.pure s
  | cons x xs ih => exact (h s x).bind fun _ => ih

/-- Weakening. -/
theorem Prog.Only.mono {I J : α → BitState → Prop} {p : Prog (R (α × BitState))} (hp : p.Only A I) (h : ∀ a s, I a s → J a s) : p.Only A J := by
  induction p with
  | done r =>
    cases r with
    | error e => exact hp
    | ok a => exact h _ _ hp
  | write c k ih => exact fun e hx => ih e (hp e hx)

/-- A loop whose state satisfies `V`. -/
theorem WM.Only.forFold_of (V : β → Prop) {l : List α} {s : β} {body : β → α → WM β} (hs : V s)
    (h : ∀ s x, x ∈ l → V s → ∀ b, FreeOk b → (body s x b).Only A fun r b => V r ∧ FreeOk b) : (WM.forFold l s body).Only A := by
  induction l generalizing s with
  | nil => exact WM.Only.pure s
  | cons x xs ih =>
    exact fun b hb => Prog.Only.bind (h s x (by simp) hs b hb) (fun r b' hr => ih hr.1 (fun s y hy => h s y (by simp [hy])) b' hr.2) fun _ => rfl

end W

syntax "only_step" : tactic
macro_rules | `(tactic| only_step) => `(tactic| first
  | with_reducible exact ckI_only (by assumption) _ _ _ | with_reducible exact ckU_only (by assumption) _ _ _ | with_reducible exact ckUsize_only (by assumption) _ _
  | with_reducible exact ckShift_only (by assumption) _ _ _ | with_reducible exact shlU_only (by assumption) _ _ _ _ | with_reducible exact shrU_only (by assumption) _ _ _ _
  | with_reducible exact idx_only (by assumption) _ _ | with_reducible exact setIdx_only (by assumption) _ _ _ | with_reducible exact debugAssert_only (by assumption) _ _
  | with_reducible exact assert'_only (by assumption) _ | with_reducible exact ROnly.ok _ | with_reducible exact ROnly.pure _
  | with_reducible exact ROnly.panic (by assumption) (by decide)
  | with_reducible refine ROnly.ite ?_ ?_ | with_reducible refine ROnly.bind ?_ ?_ | with_reducible refine ROnly.bind' ?_ ?_ | with_reducible refine ROnly.forFoldR ?_ | with_reducible refine ROnly.mapR ?_
  | with_reducible exact WM.Only.pure _ | with_reducible exact WM.Only.pure' _ | with_reducible exact WM.Only.writeAll _
  | with_reducible refine WM.Only.ite ?_ ?_ | with_reducible refine WM.Only.get_bind ?_ | with_reducible refine WM.Only.lift_bind' ?_ ?_ | with_reducible refine WM.Only.bind' ?_ ?_ | with_reducible refine WM.Only.bind ?_ ?_
  | with_reducible refine WM.Only.forEach ?_ | with_reducible refine WM.Only.forFold ?_ | with_reducible refine WM.Only.lift ?_)
syntax "only" : tactic
macro_rules | `(tactic| only) => `(tactic| repeat (first | with_reducible intro _ | only_step))

section
variable {A : Fail → Prop} (hA : Lax A)
include hA

omit hA in
theorem writeU8_only (v : Nat) : (writeU8 v).Only A := by unfold writeU8; only
omit hA in
theorem writeU16_only (v : Nat) : (writeU16 v).Only A := by unfold writeU16; only
omit hA in
theorem write_only (v : Bytes) : (write v).Only A := by unfold write; only
macro_rules | `(tactic| only_step) => `(tactic| first | with_reducible exact writeU8_only _ | with_reducible exact writeU16_only _ | with_reducible exact write_only _)
/-- `flush_byte_from_bit_buffer` does not change the bit buffer. -/
theorem flushByte_keeps (pf : Platform) (f : Int) (s : BitState) (I : BitState → Prop) (h : I s) :
    (flushByteFromBitBuffer pf f s).Only A fun _ => I := by
  have hw : ∀ v, (writeU8 v s).Only A fun _ => I := fun v e hx => by
    cases e with
    | none => exact h
    | some e => exact hx e rfl
  have hl : ∀ {α β : Type} (r : R α) (g : α → WM β), ROnly A r → (∀ a, (g a s).Only A fun _ => I) → ((WM.lift r >>= g) s).Only A fun _ => I := by
    intro α β r g hr hg
    cases r with
    | ok a => exact hg a
    | error e => exact hr e rfl
  unfold flushByteFromBitBuffer
  show Prog.Only A (fun _ => I) ((fun s => _) s)
  refine hl _ _ (ckI_only hA _ _ _) fun _ => hl _ _ (ckI_only hA _ _ _) fun _ => hl _ _ (shrU_only hA _ _ _ _) fun _ => ?_
  refine Prog.Only.bind (I := fun _ x => x = s) (fun e hx => ?_) (fun a s' hs' => ?_) fun _ => rfl
  · cases e with
    | none => rfl
    | some e => exact hx e rfl
  · subst hs'
    dsimp only
    split
    · exact hw _
    · exact h

theorem flushByte_only (pf : Platform) (f : Int) : (flushByteFromBitBuffer pf f).Only A := fun s hs => flushByte_keeps hA pf f s FreeOk hs

theorem flushBitBuffer_only {pf : Platform} (hpf : pf.Valid) (n : Nat) (hn : 0 < n) (s : BitState) (hs : FreeOk s) (h : (pf.wordBits : Int) < s.free + 8 * n) :
    (flushBitBuffer pf n s).Only A fun _ => FreeOk := by
  have hw := hpf.wordBits_eq
  induction n generalizing s with
  | zero => omega
  | succ n ih =>
    show Prog.Only A (fun _ => FreeOk) ((if s.free ≤ (pf.wordBits : Int) - 8 then _ else _ : WM Unit) s)
    by_cases hc : s.free ≤ (pf.wordBits : Int) - 8
    · rw [if_pos hc]
      refine Prog.Only.bind (I := fun _ x => x = s) (flushByte_keeps hA _ _ _ _ rfl) (fun a s' hs' => ?_) fun _ => rfl
      subst hs'
      show Prog.Only A (fun _ => FreeOk) ((WM.lift (ckI pf 8 (s'.free + 8)) >>= _) s')
      have hr : ckI pf 8 (s'.free + 8) = .ok (s'.free + 8) := by
        unfold ckI
        rw [if_pos]
        obtain ⟨h1, h2⟩ := hs
        constructor <;> omega
      rw [hr]
      show Prog.Only A (fun _ => FreeOk) (flushBitBuffer pf n { s' with free := s'.free + 8 })
      obtain ⟨h1, h2⟩ := hs
      refine ih (by omega) _ ⟨?_, ?_⟩ ?_ <;> dsimp only <;> omega
    · rw [if_neg hc]
      exact hs
macro_rules | `(tactic| only_step) => `(tactic| first | with_reducible exact flushByte_only (by assumption) _ _)

theorem writeBitBuffer_only (pf : Platform) : (writeBitBuffer pf).Only A := by unfold writeBitBuffer; only
macro_rules | `(tactic| only_step) => `(tactic| first | with_reducible exact writeBitBuffer_only (by assumption) _)

theorem writeBits_only (pf : Platform) (v n : Nat) : (writeBits pf v n).Only A := by
  unfold writeBits
  dsimp only
  refine WM.Only.get_bind fun s hs => WM.Only.lift_bind (ckI_only hA _ _ _) fun f hf => WM.Only.ite ?_ ?_
  · refine WM.Only.lift_bind (ckI_only hA _ _ _) fun _ _ => WM.Only.lift_bind (ckI_only hA _ _ _) fun _ _ => WM.Only.lift_bind (shlU_only hA _ _ _ _) fun _ _ =>
      WM.Only.lift_bind (shrU_only hA _ _ _ _) fun _ _ => WM.Only.bind' (WM.Only.set hs) fun _ => WM.Only.bind' (writeBitBuffer_only hA pf) fun _ =>
      WM.Only.lift_bind (ckI_only hA _ _ _) fun f' hf' => WM.Only.set (ckI8_range hf')
  · exact WM.Only.lift_bind (shlU_only hA _ _ _ _) fun _ _ => WM.Only.set (ckI8_range hf)
macro_rules | `(tactic| only_step) => `(tactic| first | with_reducible exact writeBits_only (by assumption) _ _ _)

theorem finalize_only {pf : Platform} (hpf : pf.Valid) : (finalizeBitBuffer pf).Only A := by
  have hw := hpf.wordBits_eq
  unfold finalizeBitBuffer
  refine WM.Only.bind' (writeBits_only hA _ _ _) fun _ => WM.Only.bind' (fun s hs => flushBitBuffer_only hA hpf 33 (by omega) s hs ?_) fun _ => WM.Only.set ?_
  · obtain ⟨h1, h2⟩ := hs
    omega
  · constructor <;> dsimp only <;> omega
macro_rules | `(tactic| only_step) => `(tactic| first | with_reducible exact finalize_only (by assumption) (by assumption))

theorem toU8_only (pf : Platform) (m : Marker) : ROnly A (m.toU8 pf) := by cases m <;> unfold Marker.toU8 <;> only
macro_rules | `(tactic| only_step) => `(tactic| first | with_reducible exact toU8_only (by assumption) _ _)
theorem writeMarker_only (pf : Platform) (m : Marker) : (writeMarker pf m).Only A := by unfold writeMarker; only
macro_rules | `(tactic| only_step) => `(tactic| first | with_reducible exact writeMarker_only (by assumption) _ _)
theorem writeSegment_only (pf : Platform) (m : Marker) (d : Bytes) : (writeSegment pf m d).Only A := by unfold writeSegment; only
theorem writeDensity_only (d : Density) : (writeDensity d).Only A := by cases d <;> unfold writeDensity <;> only
macro_rules | `(tactic| only_step) => `(tactic| first | with_reducible exact writeSegment_only (by assumption) _ _ _ | with_reducible exact writeDensity_only (by assumption) _)
theorem writeHeader_only (pf : Platform) (d : Density) : (writeHeader pf d).Only A := by unfold writeHeader; only
theorem writeHuffmanSegment_only (pf : Platform) (c : CodingClass) (n : Nat) (t : HuffmanTable) : (writeHuffmanSegment pf c n t).Only A := by
  unfold writeHuffmanSegment; only
theorem qget_only (q : QuantizationTable) (i : Nat) : ROnly A (q.get i) := by unfold QuantizationTable.get; only
macro_rules | `(tactic| only_step) => `(tactic| first | with_reducible exact qget_only (by assumption) _ _ | with_reducible exact writeHeader_only (by assumption) _ _ | with_reducible exact writeHuffmanSegment_only (by assumption) _ _ _ _)
theorem writeQuantizationSegment_only (pf : Platform) (n : Nat) (t : QuantizationTable) : (writeQuantizationSegment pf n t).Only A := by
  unfold writeQuantizationSegment; only
theorem writeDri_only (pf : Platform) (n : Nat) : (writeDri pf n).Only A := by unfold writeDri; only
theorem getForValue_only (pf : Platform) (t : HuffmanTable) (v : Nat) : ROnly A (t.getForValue pf v) := by unfold HuffmanTable.getForValue; only
macro_rules | `(tactic| only_step) => `(tactic| first | with_reducible exact writeQuantizationSegment_only (by assumption) _ _ _ | with_reducible exact writeDri_only (by assumption) _ _ | with_reducible exact getForValue_only (by assumption) _ _ _)
theorem huffmanEncode_only (pf : Platform) (v : Nat) (t : HuffmanTable) : (huffmanEncode pf v t).Only A := by unfold huffmanEncode; only
theorem huffmanEncodeValue_only (pf : Platform) (a b c : Nat) (t : HuffmanTable) : (huffmanEncodeValue pf a b c t).Only A := by
  unfold huffmanEncodeValue; only
theorem getCode_only (pf : Platform) (v : Int) : ROnly A (getCode pf v) := by unfold getCode; only
macro_rules | `(tactic| only_step) => `(tactic| first | with_reducible exact huffmanEncode_only (by assumption) _ _ _ | with_reducible exact huffmanEncodeValue_only (by assumption) _ _ _ _ _ | with_reducible exact getCode_only (by assumption) _ _)
theorem writeDc_only (pf : Platform) (a b : Int) (t : HuffmanTable) : (writeDc pf a b t).Only A := by unfold writeDc; only
macro_rules | `(tactic| only_step) => `(tactic| first | with_reducible exact writeDc_only (by assumption) _ _ _ _)

theorem writeZrl_only (pf : Platform) (t : HuffmanTable) (n z : Nat) (h : z < 16 * n) : (writeZrl pf t n z).Only A := by
  induction n generalizing z with
  | zero => omega
  | succ n ih =>
    unfold writeZrl
    split
    · refine WM.Only.bind' (huffmanEncode_only hA _ _ _) fun _ => WM.Only.lift_bind (ckU_only hA _ _ _) fun z' hz => ih z' ?_
      rename_i hc
      by_cases h8 : z < 272
      · have : ckU pf 8 ((z : Int) - 16) = .ok (z - 16) := by
          unfold ckU
          rw [if_pos (by constructor <;> omega)]
          congr 1
          omega
        rw [this] at hz
        cases hz
        omega
      · have := ckU8_range hz
        omega
    · exact WM.Only.pure _

theorem writeAcLoop_only (pf : Platform) (t : HuffmanTable) (l : List Int) (z : Nat) (h : z < 256) : (writeAcLoop pf t l z).Only A := by
  induction l generalizing z with
  | nil => unfold writeAcLoop; only
  | cons v l ih =>
    unfold writeAcLoop
    refine WM.Only.ite (WM.Only.lift_bind (ckU_only hA _ _ _) fun z' hz => ih z' (ckU8_range hz)) ?_
    refine WM.Only.bind' (writeZrl_only hA _ _ _ _ (by omega)) fun z' => ?_
    refine WM.Only.lift_bind' (getCode_only hA _ _) fun c => ?_
    refine WM.Only.lift_bind' (shlU_only hA _ _ _ _) fun _ => WM.Only.bind' (huffmanEncodeValue_only hA _ _ _ _ _) fun _ => ih 0 (by omega)

theorem slice_only {α : Type} (l : List α) (a b : Nat) : ROnly A (slice l a b) := by unfold slice; only
macro_rules | `(tactic| only_step) => `(tactic| first | with_reducible exact slice_only (by assumption) _ _ _ | with_reducible exact writeAcLoop_only (by assumption) _ _ _ 0 (by decide))
theorem writeAcBlock_only (pf : Platform) (b : List Int) (i j : Nat) (t : HuffmanTable) : (writeAcBlock pf b i j t).Only A := by
  unfold writeAcBlock; only
macro_rules | `(tactic| only_step) => `(tactic| first | with_reducible exact writeAcBlock_only (by assumption) _ _ _ _ _)
theorem writeBlock_only (pf : Platform) (b : List Int) (p : Int) (t u : HuffmanTable) : (writeBlock pf b p t u).Only A := by
  unfold writeBlock; only
theorem writeFrameHeader_only (pf : Platform) (w h : UInt16) (c : List Component) (p : Bool) : (writeFrameHeader pf w h c p).Only A := by
  unfold writeFrameHeader; only
theorem writeScanHeader_only (pf : Platform) (c : List Component) (p : Option (Nat × Nat)) : (writeScanHeader pf c p).Only A := by
  unfold writeScanHeader; only
theorem writeChromaHuffman_only (pf : Platform) (n : Nat) (t : HuffPair) : (writeChromaHuffman pf n t).Only A := by
  unfold writeChromaHuffman; only
theorem writeDriOpt_only (pf : Platform) (n : Option UInt16) : (writeDriOpt pf n).Only A := by cases n <;> unfold writeDriOpt <;> only
macro_rules | `(tactic| only_step) => `(tactic| first | with_reducible exact writeBlock_only (by assumption) _ _ _ _ _ | with_reducible exact writeFrameHeader_only (by assumption) _ _ _ _ _ | with_reducible exact writeScanHeader_only (by assumption) _ _ _ | with_reducible exact writeChromaHuffman_only (by assumption) _ _ _ | with_reducible exact writeDriOpt_only (by assumption) _ _)
theorem encWriteFrameHeader_only (pf : Platform) (e : Encoder) (im : ImageBuffer) (q : QuantizationTable × QuantizationTable) :
    (e.writeFrameHeader pf im q).Only A := by unfold Encoder.writeFrameHeader; only
theorem restartBefore_only {σ : Type} {pf : Platform} (hpf : pf.Valid) (n : Nat) (r : Rst) (f : σ → σ) (s : σ) :
    (restartBefore pf n r f s).Only A := by unfold restartBefore; only
theorem restartAfter_only (pf : Platform) (n : Nat) (r : Rst) : ROnly A (restartAfter pf n r) := by unfold restartAfter; only
macro_rules | `(tactic| only_step) => `(tactic| first | with_reducible exact encWriteFrameHeader_only (by assumption) _ _ _ _ | with_reducible exact restartBefore_only (by assumption) (by assumption) _ _ _ _ | with_reducible exact restartAfter_only (by assumption) _ _ _)
theorem scanLoop_only {α σ : Type} {pf : Platform} (hpf : pf.Valid) (n : Nat) (f : σ → σ) (body : α → σ → WM σ) (l : List α) (st : Rst × σ)
    (h : ∀ x s, (body x s).Only A) : (scanLoop pf n f body l st).Only A := by
  unfold scanLoop; repeat (first | with_reducible exact h _ _ | with_reducible intro _ | only_step)
theorem ceilDiv_only (a b : Nat) : ROnly A (ceilDiv a b) := by unfold ceilDiv; only
theorem divR_only (a b : Nat) : ROnly A (divR a b) := by unfold divR; only
theorem pairIdx_only {α : Type} (p : α × α) (i : Nat) : ROnly A (pairIdx p i) := by unfold pairIdx; only
theorem rowsGet_only (r : Rows) (i : Nat) : ROnly A (r.get i) := by unfold Rows.get; only
theorem withCapacity_only (pf : Platform) (n k : Nat) : ROnly A (withCapacity pf n k) := by unfold withCapacity; only
macro_rules | `(tactic| only_step) => `(tactic| first | with_reducible exact ceilDiv_only (by assumption) _ _ | with_reducible exact divR_only (by assumption) _ _ | with_reducible exact pairIdx_only (by assumption) _ _ | with_reducible exact rowsGet_only (by assumption) _ _ | with_reducible exact withCapacity_only (by assumption) _ _ _)
theorem initRows_only (pf : Platform) (n k : Nat) : ROnly A (initRows pf n k) := by
  unfold initRows
  refine (withCapacity_only hA _ _ _).bind fun _ => ?_
  split <;> only
theorem getBlock_only (pf : Platform) (d : Bytes) (a b c e w : Nat) : ROnly A (getBlock pf d a b c e w) := by unfold getBlock; only
theorem quantize_only (pf : Platform) (q : QuantizationTable) (v : Int) (i : Nat) : ROnly A (q.quantize pf v i) := by
  unfold QuantizationTable.quantize; only
macro_rules | `(tactic| only_step) => `(tactic| first | with_reducible exact initRows_only (by assumption) _ _ _ | with_reducible exact getBlock_only (by assumption) _ _ _ _ _ _ _ | with_reducible exact quantize_only (by assumption) _ _ _ _)
theorem quantizeBlock_only (pf : Platform) (b : List Int) (q : QuantizationTable) : ROnly A (quantizeBlock pf b q) := by
  unfold quantizeBlock; only
theorem descale_only (pf : Platform) (x : Int) (n : Nat) : ROnly A (descale pf x n) := by unfold descale i32; only
theorem i32_only (pf : Platform) (x : Int) : ROnly A (i32 pf x) := by unfold i32; only
macro_rules | `(tactic| only_step) => `(tactic| first | with_reducible exact quantizeBlock_only (by assumption) _ _ _ | with_reducible exact descale_only (by assumption) _ _ _ | with_reducible exact i32_only (by assumption) _ _)
theorem dct8_only (pf : Platform) (g : Int → R Int) (hg : ∀ x, ROnly A (g x)) (n : Nat) (d : List Int) : ROnly A (dct8 pf g n d) := by
  unfold dct8; repeat (first | with_reducible exact hg _ | with_reducible intro _ | only_step)
theorem fdct_only (pf : Platform) (d : List Int) : ROnly A (fdct pf d) := by
  unfold fdct dctRow dctCol
  repeat (first | with_reducible refine dct8_only (by assumption) _ _ ?_ _ _ | with_reducible intro _ | only_step)
/-- The DCT of both builds. -/
theorem op_only (simd : Bool) (pf : Platform) (d : List Int) : ROnly A ((if simd then avx2Operations else defaultOperations).fdct pf d) := by
  cases simd
  · exact fdct_only hA pf d
  · exact .ok _

end
end Jpeg
