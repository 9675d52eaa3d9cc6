import Verif.Model.NewFile
/-! Model of `Encoder::new_file` (src/encoder.rs:1180-1187) as a whole, with the file system it works on, and of the impl of `JfifWrite` for references
(src/writer.rs:43-48). -/
namespace Jpeg

/-- The files of a file system by their paths (`AsRef<Path>`, src/encoder.rs:1180): their contents. Directories, links to the same file and other processes are not modelled. -/
abbrev FileSystem (π : Type) := π → Option Bytes

/-- `File::create(path)` (std; src/encoder.rs:1184): the system either refuses (`refused`, with a message) or there is an empty file at `path`, whatever was there before. -/
def FileSystem.create {π : Type} [DecidableEq π] (fs : FileSystem π) (path : π) (refused : Option String) : FileSystem π × R Unit :=
  match refused with
  | some msg => (fs, .error (.err (.io msg)))
  | none => (fun q => if q = path then some [] else fs q, .ok ())

/-- What a file that contained `old` contains after `new` was written to it from its start: `File::create` returns a handle at position 0 (std; src/encoder.rs:1184). -/
def overwrite (old new : Bytes) : Bytes := new ++ old.drop new.length

/-- `let mut encoder = Encoder::new_file(path, quality)?`, configuration, then `encoder.encode(…)` or `encoder.encode_image(…)` (the program `p`) and the drop of the
encoder: src/encoder.rs:1180-1187. `File::create` comes first, and its error is returned with `?` (src/encoder.rs:1184). -/
def encodeToPath {π : Type} [DecidableEq π] (fs : FileSystem π) (path : π) (refused : Option String) (p : Prog (R Unit)) (answers : List Answer) : FileSystem π × R Unit :=
  match fs.create path refused with
  | (fs', .error e) => (fs', .error e)
  | (fs', .ok ()) => (fun q => if q = path then some (overwrite ((fs' path).getD []) (encodeToFile p answers).1) else fs' q, (encodeToFile p answers).2)

/-- A place in a caller's memory `μ` that holds a writer. A mutable reference `&mut W` (src/writer.rs:44) is one. -/
structure Place (μ σ : Type) where
  get : μ → σ
  set : σ → μ → μ
  get_set : ∀ s m, get (set s m) = s
  set_set : ∀ s s' m, set s (set s' m) = set s m
  set_get : ∀ m, set (get m) m = m

/-- `impl<W: JfifWrite + ?Sized> JfifWrite for &mut W` (src/writer.rs:43-48; with `std` the same through `io::Write for &mut W`): `(**self).write_all(buf)`. -/
def refSink {μ σ : Type} (at_ : Place μ σ) (S : Sink σ) : Sink μ :=
  ⟨fun m buf => let r := S.writeAll (at_.get m) buf; (at_.set r.1 m, r.2)⟩

end Jpeg
