import Verif.Model.NewFile
/-! `impl<W: io::Write> JfifWrite for W` (src/writer.rs:58-65) for any `W`: the default method `io::Write::write_all` of Rust's standard library over a
`write` with arbitrary state and answers. -/
namespace Jpeg

/-- An implementation of `io::Write` by its method `write` (the bound of src/writer.rs:59): state and answers are arbitrary. -/
structure IoWrite (σ : Type) where
  write : σ → Bytes → σ × Answer

/-- The default method `io::Write::write_all` of std, called in src/writer.rs:62:
`while !buf.is_empty() { match self.write(buf) { Ok(0) => return Err(WriteZero), Ok(n) => buf = &buf[n..], Err(Interrupted) => {}, Err(e) => return Err(e) } }`.
`io.All s buf acc s' r`: called in the state `s` with `buf` it returns `r` in the state `s'`, after calls of `write` that have together accepted the bytes
`acc` (at most what was passed). A call that never returns (interrupted for ever) has no such `r`. An answer larger than the buffer, a violation of the
contract of `write`, makes the slicing panic. -/
inductive IoWrite.All {σ : Type} (io : IoWrite σ) : σ → Bytes → Bytes → σ → R Unit → Prop
  | finished (s : σ) : All io s [] [] s (.ok ())
  | zero {s s' : σ} {buf : Bytes} : buf ≠ [] → io.write s buf = (s', .wrote 0) →
      All io s buf [] s' (.error (.err (.io "failed to write whole buffer")))
  | some {s s' s'' : σ} {buf acc : Bytes} {n : Nat} {r : R Unit} : buf ≠ [] → io.write s buf = (s', .wrote n) → n ≠ 0 → n ≤ buf.length →
      All io s' (buf.drop n) acc s'' r → All io s buf (buf.take n ++ acc) s'' r
  | more {s s' : σ} {buf : Bytes} {n : Nat} : buf ≠ [] → io.write s buf = (s', .wrote n) → buf.length < n →
      All io s buf buf s' (.error (.panic .index))
  | interrupted {s s' s'' : σ} {buf acc : Bytes} {r : R Unit} : buf ≠ [] → io.write s buf = (s', .interrupted) → All io s' buf acc s'' r →
      All io s buf acc s'' r
  | failed {s s' : σ} {buf : Bytes} {msg : String} : buf ≠ [] → io.write s buf = (s', .failed msg) → All io s buf [] s' (.error (.err (.io msg)))

/-- A program (a call of the encoder) over such a writer: `io.Runs p s acc s' r` says that, started with the writer in the state `s`, it returns `r` and
leaves the writer in the state `s'`, and that the calls of `write` have accepted the bytes `acc`. src/writer.rs:58-65. -/
inductive IoWrite.Runs {σ : Type} (io : IoWrite σ) : Prog (R Unit) → σ → Bytes → σ → R Unit → Prop
  | done (a : R Unit) (s : σ) : Runs io (.done a) s [] s a
  | ok {c acc acc' : Bytes} {k : Option EncodingError → Prog (R Unit)} {s s' s'' : σ} {r : R Unit} : io.All s c acc s' (.ok ()) →
      Runs io (k none) s' acc' s'' r → Runs io (.write c k) s (acc ++ acc') s'' r
  | err {c acc acc' : Bytes} {k : Option EncodingError → Prog (R Unit)} {s s' s'' : σ} {e : EncodingError} {r : R Unit} :
      io.All s c acc s' (.error (.err e)) → Runs io (k (some e)) s' acc' s'' r → Runs io (.write c k) s (acc ++ acc') s'' r
  | panic {c acc : Bytes} {k : Option EncodingError → Prog (R Unit)} {s s' : σ} {x : PanicKind} :
      io.All s c acc s' (.error (.panic x)) → Runs io (.write c k) s acc s' (.error (.panic x))

/-- `impl Write for &mut [u8]` of std (a caller's `Encoder::new(&mut slice[..], q)`, src/encoder.rs:241 with src/writer.rs:58-65): the state is what has been
stored and how much room is left; `write` stores as much as fits and never fails. (std also overrides `write_all` for it, with the same results.) -/
def sliceWrite : IoWrite (Bytes × Nat) := ⟨fun s buf => ((s.1 ++ buf.take s.2, s.2 - min s.2 buf.length), .wrote (min s.2 buf.length))⟩

end Jpeg
