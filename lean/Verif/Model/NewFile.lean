import Verif.Model.Encoder
/-! Model of `Encoder::new_file` (src/encoder.rs:1170-1188): the writer is a `BufWriter<File>`, dropped at the end of `encode` (which consumes
the encoder). The parts of Rust's standard library involved (`io::Write::write_all`, `BufWriter`) are modelled from its documentation and
source; the operating system is arbitrary. -/
namespace Jpeg

/-- What the operating system answers to `write(buf)`: some bytes were stored, the call was interrupted by a signal, or it failed.
Operating system behind src/encoder.rs:1184. -/
inductive Answer where
  | wrote (n : Nat)
  | interrupted
  | failed (msg : String)

/-- A file: its contents, and the answers to the next calls of `write` (any finite list; later calls store everything).
src/encoder.rs:1184 -/
structure File where
  content : Bytes
  answers : List Answer

/-- Loop that writes all of `buf`, used by `io::Write::write_all` and `BufWriter::flush_buf` (std): returns the new contents, the remaining
answers, the part of `buf` that was not written and the error. A write of no bytes is the error `WriteZero`; interrupted calls are repeated.
`wrote n` is limited to the length of `buf`. Used through src/encoder.rs:1185. -/
def pushAll : List Answer → Bytes → Bytes → File × Bytes × Option EncodingError
  | [], content, buf => (⟨content ++ buf, []⟩, [], none)
  | a :: answers, content, buf =>
    if buf = [] then (⟨content, a :: answers⟩, [], none)
    else match a with
      | .wrote 0 => (⟨content, answers⟩, buf, some (.io "failed to write whole buffer"))
      | .wrote n => pushAll answers (content ++ buf.take n) (buf.drop n)
      | .interrupted => pushAll answers content buf
      | .failed e => (⟨content, answers⟩, buf, some (.io e))

/-- `BufWriter<File>` (std). src/encoder.rs:1185 -/
structure BufWriter where
  file : File
  buf : Bytes

/-- `DEFAULT_BUF_SIZE` (std), the capacity of `BufWriter::new`. src/encoder.rs:1185 -/
def BufWriter.capacity : Nat := 8192

/-- `BufWriter::flush_buf` (std): what was not written stays in the buffer.
Used through src/encoder.rs:1185. -/
def BufWriter.flushBuf (w : BufWriter) : BufWriter × Option EncodingError :=
  let r := pushAll w.file.answers w.file.content w.buf
  (⟨r.1, r.2.1⟩, r.2.2)

/-- `BufWriter::write_all` and `write_all_cold` (std). Used through src/encoder.rs:1185. -/
def BufWriter.writeAll (w : BufWriter) (c : Bytes) : BufWriter × Option EncodingError :=
  if c.length < capacity - w.buf.length then (⟨w.file, w.buf ++ c⟩, none)
  else
    match (if c.length > capacity - w.buf.length then w.flushBuf else (w, none)) with
    | (w, some e) => (w, some e)
    | (w, none) =>
      if c.length ≥ capacity then
        let r := pushAll w.file.answers w.file.content c
        (⟨r.1, w.buf⟩, r.2.2)
      else (⟨w.file, w.buf ++ c⟩, none)

/-- `Drop for BufWriter` (std): flushes, and ignores errors.
When the encoder of src/encoder.rs:1172-1187 goes out of scope. -/
def BufWriter.drop (w : BufWriter) : File := w.flushBuf.1.file

/-- `impl<W: io::Write> JfifWrite for W` (src/writer.rs:58-65) for `BufWriter<File>`. -/
def fileSink : Sink BufWriter := ⟨BufWriter.writeAll⟩

/-- `File::create`, `BufWriter::new`, `Encoder::new` (src/encoder.rs:1180-1187), then `encode` or `encode_image` (the program `p`), then the
drop of the encoder and its writer: contents of the file and result. -/
def encodeToFile (p : Prog (R Unit)) (answers : List Answer) : Bytes × R Unit :=
  let r := p.run fileSink ⟨⟨[], answers⟩, []⟩
  (r.1.drop.content, r.2)

end Jpeg
