/-
Basic vocabulary of the model: platform, failures, checked integer arithmetic, writer programs.
-/
namespace Jpeg

/-- Build profile and target. `checked`: `debug_assertions`/`overflow-checks` are on (a debug build);
`wordBytes`: `core::mem::size_of::<usize>()` (src/writer.rs:29 uses it for `BUFFER_SIZE`). -/
structure Platform where
  checked : Bool
  wordBytes : Nat
deriving DecidableEq, Repr

/-- The targets rustc supports that satisfy `usize` of 32 or 64 bits. 16 bit targets are not modelled.
Not in /repo: the compilation target of src/lib.rs. -/
def Platform.Valid (pf : Platform) : Prop := pf.wordBytes = 4 ∨ pf.wordBytes = 8

instance (pf : Platform) : Decidable pf.Valid := by unfold Platform.Valid; infer_instance

/-- src/writer.rs:29 `BUFFER_SIZE = size_of::<usize>() * 8`. -/
def Platform.wordBits (pf : Platform) : Nat := pf.wordBytes * 8

/-- src/error.rs:7-29 `EncodingError`. `io` is `IoError`: the model knows a `std::io::Error` by its message. -/
inductive EncodingError where
  | invalidAppSegment (nr : UInt8)
  | appSegmentTooLarge (len : Nat)
  | iccTooLarge (len : Nat)
  | badImageData (length required : Nat)
  | zeroImageDimensions (width height : UInt16)
  | io (msg : String)
  | write (msg : String)
deriving DecidableEq, Repr

/-- Why the Rust code would panic (or, for `ub`, have undefined behaviour in `unsafe` code).
Rust semantics used throughout src/*.rs, e.g. src/encoder.rs:311. -/
inductive PanicKind where
  | overflow | index | assert | debugAssert | divZero | unwrap | unreachable | capacity | ub
deriving DecidableEq, Repr

/-- Abnormal outcomes: a panic, a loop that does not terminate (fuel exhausted in the model),
or an ordinary `Err(EncodingError)`. Rust semantics, no single line in src/*.rs. -/
inductive Fail where
  | panic (k : PanicKind)
  | diverge
  | err (e : EncodingError)
deriving DecidableEq, Repr

/-- Result of a computation that may fail. Rust semantics, no single line in src/*.rs. -/
abbrev R := Except Fail

deriving instance DecidableEq for Except

/-- Integer overflow semantics of Rust: exact result `v` of an operation on a signed type with range
`[-2^(bits-1), 2^(bits-1))`. In range: `v`. Otherwise debug builds panic, release builds wrap.
Rust semantics of `+ - *` e.g. in src/fdct.rs:113-220. -/
def ckI (pf : Platform) (bits : Nat) (v : Int) : R Int :=
  if -(2 : Int) ^ (bits - 1) ≤ v ∧ v < (2 : Int) ^ (bits - 1) then .ok v
  else if pf.checked then .error (.panic .overflow)
  else .ok (v.bmod (2 ^ bits))

/-- The same for unsigned types of `bits` bits.
Rust semantics of `+ - *` e.g. in src/huffman.rs:138-153. -/
def ckU (pf : Platform) (bits : Nat) (v : Int) : R Nat :=
  if 0 ≤ v ∧ v < (2 : Int) ^ bits then .ok v.toNat
  else if pf.checked then .error (.panic .overflow)
  else .ok (v % 2 ^ bits).toNat

/-- Overflow semantics for `usize`. e.g. src/encoder.rs:679-683. -/
def ckUsize (pf : Platform) (v : Int) : R Nat := ckU pf pf.wordBits v

/-- Shift amounts: Rust panics (debug) or masks (release) when the amount is not in `0..bits`.
e.g. src/writer.rs:118. -/
def ckShift (pf : Platform) (bits : Nat) (s : Int) : R Nat :=
  if 0 ≤ s ∧ s < bits then .ok s.toNat
  else if pf.checked then .error (.panic .overflow)
  else .ok (s % bits).toNat

/-- `a << s` on an unsigned type of `bits` bits: bits shifted out are lost, only the amount is checked.
e.g. src/writer.rs:118. -/
def shlU (pf : Platform) (bits : Nat) (a : Nat) (s : Int) : R Nat := do
  let s ← ckShift pf bits s
  .ok (a * 2 ^ s % 2 ^ bits)

/-- `a >> s` on an unsigned type of `bits` bits. e.g. src/writer.rs:110-140. -/
def shrU (pf : Platform) (bits : Nat) (a : Nat) (s : Int) : R Nat := do
  let s ← ckShift pf bits s
  .ok (a / 2 ^ s)

/-- Slice/array/Vec indexing `l[i]`. e.g. src/encoder.rs:707. -/
def idx {α : Type} (l : List α) (i : Nat) : R α :=
  match l[i]? with
  | some a => .ok a
  | none => .error (.panic .index)

/-- Indexed assignment `l[i] = a`. e.g. src/quantization.rs:280. -/
def setIdx {α : Type} (l : List α) (i : Nat) (a : α) : R (List α) :=
  if i < l.length then .ok (l.set i a) else .error (.panic .index)

/-- `debug_assert!(c)`: only checked in debug builds. e.g. src/encoder.rs:958. -/
def debugAssert (pf : Platform) (c : Bool) : R Unit :=
  if pf.checked && !c then .error (.panic .debugAssert) else .ok ()

/-- `assert!(c)`. e.g. src/encoder.rs:311. -/
def assert' (c : Bool) : R Unit := if c then .ok () else .error (.panic .assert)

/-- `v as u8` of a natural number. e.g. src/encoder.rs:393. -/
def u8 (n : Nat) : UInt8 := UInt8.ofNat n

/-- A sequence of bytes. `&[u8]`/`Vec<u8>`, e.g. src/writer.rs:40. -/
abbrev Bytes := List UInt8

/-- A program over an abstract writer: it either finishes with a value or performs one call
`write_all(c)` (src/writer.rs:35-42, trait `JfifWrite`) and continues with its result
(`none` = `Ok(())`, `some e` = `Err(e)`). The code is generic in `W: JfifWrite`, so calling
`write_all` is the only thing it can do with the writer. -/
inductive Prog (α : Type) where
  | done (a : α)
  | write (c : Bytes) (k : Option EncodingError → Prog α)

namespace Prog
/-- `?` as in src/writer.rs:94-130. -/
def bind {α β : Type} : Prog α → (α → Prog β) → Prog β
  | .done a, f => f a
  | .write c k, f => .write c (fun r => (k r).bind f)
end Prog

/-- An implementation of `JfifWrite` (src/writer.rs:35-42): state and response are arbitrary. -/
structure Sink (σ : Type) where
  writeAll : σ → Bytes → σ × Option EncodingError

/-- Run a program against a writer.
Rust semantics: calls of `JfifWrite::write_all`, src/writer.rs:40. -/
def Prog.run {σ α : Type} (S : Sink σ) : Prog α → σ → σ × α
  | .done a, w => (w, a)
  | .write c k, w => (k (S.writeAll w c).2).run S (S.writeAll w c).1

/-- `impl JfifWrite for Vec<u8>` (src/writer.rs:50-56; with `std` the same through `io::Write for Vec<u8>`). -/
def vecSink : Sink Bytes := ⟨fun w c => (w ++ c, none)⟩

/-- The fields of `JfifWriter` apart from the writer itself (src/writer.rs:67-71). -/
structure BitState where
  buffer : Nat
  free : Int
deriving DecidableEq, Repr

/-- A method of `JfifWriter`/`Encoder`: reads and updates the bit buffer, calls the writer, may fail.
The bit state after a failure is not kept: the encoder is consumed by `encode`.
src/writer.rs:67-71, 73-90. -/
def WM (α : Type) := BitState → Prog (R (α × BitState))

namespace WM
def pure {α : Type} (a : α) : WM α := fun s => .done (.ok (a, s))

/-- Sequencing with `?`: an error ends the computation. -/
def bind {α β : Type} (m : WM α) (f : α → WM β) : WM β := fun s =>
  (m s).bind fun
    | .error e => .done (.error e)
    | .ok (a, s') => f a s'

instance : Monad WM where
  pure := WM.pure
  bind := WM.bind

/-- A computation that does not touch the writer. Rust semantics, no single line in src/*.rs. -/
def lift {α : Type} (r : R α) : WM α := fun s =>
  match r with
  | .ok a => .done (.ok (a, s))
  | .error e => .done (.error e)

def get : WM BitState := fun s => .done (.ok (s, s))
def set (s : BitState) : WM Unit := fun _ => .done (.ok ((), s))

/-- `self.w.write_all(c)?` — src/writer.rs:40, called e.g. at src/writer.rs:94. -/
def writeAll (c : Bytes) : WM Unit := fun s =>
  .write c fun
    | none => .done (.ok ((), s))
    | some e => .done (.error (.err e))
end WM

/-- `for x in l { body }` without further state. e.g. src/encoder.rs:693. -/
def WM.forEach {α : Type} (l : List α) (body : α → WM Unit) : WM Unit :=
  match l with
  | [] => WM.pure ()
  | x :: xs => WM.bind (body x) fun _ => WM.forEach xs body

/-- `for x in l { body }` with loop state `s`. e.g. src/encoder.rs:712-775. -/
def WM.forFold {α β : Type} (l : List α) (s : β) (body : β → α → WM β) : WM β :=
  match l with
  | [] => WM.pure s
  | x :: xs => WM.bind (body s x) fun s' => WM.forFold xs s' body

/-- The same loop for computations that do not touch the writer. e.g. src/encoder.rs:965-978. -/
def forFoldR {α β : Type} (l : List α) (s : β) (body : β → α → R β) : R β :=
  match l with
  | [] => .ok s
  | x :: xs => (body s x).bind fun s' => forFoldR xs s' body

/-- Collect the results of a fallible computation over a list. e.g. src/encoder.rs:985-1020. -/
def mapR {α β : Type} (l : List α) (f : α → R β) : R (List β) :=
  match l with
  | [] => .ok []
  | x :: xs => (f x).bind fun y => (mapR xs f).bind fun ys => .ok (y :: ys)

end Jpeg
