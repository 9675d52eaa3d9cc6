import Verif.Props.Complete
import Verif.Props.Independence
import Verif.Model.FileSystem
/-! C88: writers passed by reference. C89: files made by `new_file`. -/
namespace Jpeg

theorem run_ref {μ σ α : Type} (pl : Place μ σ) (S : Sink σ) (p : Prog α) (m : μ) :
    p.run (refSink pl S) m = (pl.set (p.run S (pl.get m)).1 m, (p.run S (pl.get m)).2) := by
  induction p generalizing m with
  | done a => simp [Prog.run, pl.set_get]
  | write c k ih =>
    simp only [Prog.run]
    rw [ih]
    simp only [refSink, pl.get_set, pl.set_set]

/-- Encode several images, each with its own encoder, into the same writer; stops at the first error, like `?`. -/
def Spec.inTurn {σ : Type} (S : Sink σ) : List (Prog (R Unit)) → σ → σ × R Unit
  | [], w => (w, .ok ())
  | p :: ps, w => match p.run S w with
    | (w', .ok ()) => inTurn S ps w'
    | (w', .error e) => (w', .error e)

/-- C88: an encoder that gets a reference to a writer does to the writer what an encoder does that owns it: same bytes in the same calls, same result; afterwards the caller has
the writer back in that state, and nothing else in the caller's memory has changed. For any writer, also a reference again. -/
theorem C88_lent {μ σ : Type} (pl : Place μ σ) (S : Sink σ) {pf : Platform} {simd : Bool} {e : Encoder} {p : Prog (R Unit)} (_ : Spec.AnyCall pf simd e p) (m : μ) :
    (p.run (refSink pl S) m).2 = (p.run S (pl.get m)).2 ∧ pl.get (p.run (refSink pl S) m).1 = (p.run S (pl.get m)).1 ∧
    ∀ {τ : Type} (other : Place μ τ), (∀ s m, other.get (pl.set s m) = other.get m) → other.get (p.run (refSink pl S) m).1 = other.get m := by
  rw [run_ref]
  exact ⟨rfl, pl.get_set _ _, fun other h => h _ _⟩

/-- C88 for several encoders, one after the other, that borrow the same writer. -/
theorem C88_in_turn {μ σ : Type} (pl : Place μ σ) (S : Sink σ) (ps : List (Prog (R Unit))) (m : μ) :
    Spec.inTurn (refSink pl S) ps m = (pl.set (Spec.inTurn S ps (pl.get m)).1 m, (Spec.inTurn S ps (pl.get m)).2) := by
  induction ps generalizing m with
  | nil => simp [Spec.inTurn, pl.set_get]
  | cons p ps ih =>
    simp only [Spec.inTurn]
    rw [run_ref]
    cases hr : p.run S (pl.get m) with
    | mk w r =>
      cases r with
      | error e => rfl
      | ok u => dsimp only; rw [ih]; simp only [pl.get_set, pl.set_set]

/-- C88: images written into a borrowed `Vec` are appended to it one after the other. -/
theorem C88_vec {μ : Type} (pl : Place μ Bytes) {jobs : List (Prog (R Unit) × Bytes)} (hj : ∀ j ∈ jobs, Spec.Writes j.1 j.2) (m : μ) :
    (Spec.inTurn (refSink pl vecSink) (jobs.map (·.1)) m).2 = .ok () ∧
    pl.get (Spec.inTurn (refSink pl vecSink) (jobs.map (·.1)) m).1 = pl.get m ++ (jobs.map (·.2)).flatten := by
  rw [C88_in_turn]
  have h : ∀ out, Spec.inTurn vecSink (jobs.map (·.1)) out = (out ++ (jobs.map (·.2)).flatten, .ok ()) := by
    clear m
    induction jobs with
    | nil => intro out; simp [Spec.inTurn]
    | cons j jobs ih =>
      intro out
      simp only [List.map_cons, Spec.inTurn]
      rw [hj j (by simp) out]
      dsimp only
      rw [ih (fun j h => hj j (List.mem_cons_of_mem _ h))]
      simp
  rw [h]
  exact ⟨rfl, pl.get_set _ _⟩

-- a `Vec` next to a counter in the caller's memory, and a reference to that reference
example : ∃ (pl : Place (Bytes × Nat) Bytes) (other : Place (Bytes × Nat) Nat), (∀ s m, other.get (pl.set s m) = other.get m) ∧
    ∀ m c, ((refSink pl vecSink).writeAll m c).1 = (m.1 ++ c, m.2) :=
  ⟨⟨Prod.fst, fun s m => (s, m.2), fun _ _ => rfl, fun _ _ _ => rfl, fun _ => rfl⟩, ⟨Prod.snd, fun s m => (m.1, s), fun _ _ => rfl, fun _ _ _ => rfl, fun _ => rfl⟩,
    fun _ _ => rfl, fun _ _ => rfl⟩

-- a file of one pixel is written twice
example : ∃ e p bytes, Configured ⟨true, 8⟩ 80 [] e ∧ Spec.AnyCall ⟨true, 8⟩ true e p ∧ ∀ j ∈ [(p, bytes), (p, bytes)], Spec.Writes j.1 j.2 := by
  obtain ⟨e, h1, h2⟩ := reachable_exists ⟨true, 8⟩ 80 [] (by decide)
  have hd := delivers_builtin (pf := ⟨true, 8⟩) (data := [7]) (w := 1) (h := 1) (ct := .luma) true (by decide) (by unfold Spec.SliceOk; decide)
  have ho : e.getOptimizedHuffmanTables = false := by rw [h2.optimized]; rfl
  obtain ⟨t, -, hw⟩ := writes_image (by decide) h1 true hd ⟨by decide, by decide, Or.inl rfl, Or.inl ho⟩
  exact ⟨e, _, _, h1, .encodeImage (imageFor ⟨true, 8⟩ true [7] 1 1 .luma), List.forall_mem_cons.mpr ⟨hw, List.forall_mem_cons.mpr ⟨hw, by simp⟩⟩⟩

section
variable {π : Type} [DecidableEq π] (fs : FileSystem π) (path : π)

/-- C89: if the file cannot be created, the error of the system is returned and no file is touched. -/
theorem C89_refused (msg : String) (p : Prog (R Unit)) (answers : List Answer) :
    encodeToPath fs path (some msg) p answers = (fs, .error (.err (.io msg))) := rfl

variable {pf : Platform} {simd : Bool} {e : Encoder} {p : Prog (R Unit)} (hp : Spec.AnyCall pf simd e p)
include hp

/-- C89: otherwise only the file at `path` changes. What it contained before is gone and has no influence; whatever the system does when it is asked to write, it contains an initial
part of the output for a `Vec`; if the system does not fail, all of it, with the same result. -/
theorem C89_created (answers : List Answer) :
    (∀ q, q ≠ path → (encodeToPath fs path none p answers).1 q = fs q) ∧
    (∃ content, (encodeToPath fs path none p answers).1 path = some content ∧ content <+: (p.run vecSink []).1 ∧
      ((encodeToPath fs path none p answers).2 = .ok () → (p.run vecSink []).2 = .ok () ∧ ∃ lost, content ++ lost = (p.run vecSink []).1 ∧ lost.length ≤ 8192) ∧
      ((∀ a ∈ answers, a = .interrupted ∨ ∃ n, 0 < n ∧ a = .wrote n) → content = (p.run vecSink []).1 ∧ (encodeToPath fs path none p answers).2 = (p.run vecSink []).2)) ∧
    ∀ fs' : FileSystem π, (encodeToPath fs' path none p answers).1 path = (encodeToPath fs path none p answers).1 path ∧
      (encodeToPath fs' path none p answers).2 = (encodeToPath fs path none p answers).2 := by
  refine ⟨fun q hq => ?_, ⟨(encodeToFile p answers).1, ?_, C45_initial_part hp answers, fun ho => ?_, fun ha => ?_⟩, fun fs' => ⟨?_, rfl⟩⟩
  · simp [encodeToPath, overwrite, FileSystem.create, hq]
  · simp [encodeToPath, overwrite, FileSystem.create]
  · obtain ⟨lost, h1, h2, h3⟩ := C45_ok hp ho
    exact ⟨h3, lost, h1, h2⟩
  · have := C45_complete hp ha
    exact ⟨congrArg Prod.fst this, congrArg Prod.snd this⟩
  · simp [encodeToPath, overwrite, FileSystem.create]

end

/-- A use of `new_file`: path, answer to the creation, `encode` call, answers to the writes. -/
structure Spec.Job (π : Type) where
  path : π
  refused : Option String
  call : Prog (R Unit)
  answers : List Answer

/-- The file system after a sequence of uses. -/
def Spec.afterJobs {π : Type} [DecidableEq π] (fs : FileSystem π) (jobs : List (Spec.Job π)) : FileSystem π :=
  jobs.foldl (fun fs j => (encodeToPath fs j.path j.refused j.call j.answers).1) fs

/-- C89: after any history of uses of `new_file`, each file is what it was before if no use has created it, and otherwise what the last one that did leaves there when it starts with
no file at all. -/
theorem C89_history {π : Type} [DecidableEq π] (fs : FileSystem π) (jobs : List (Spec.Job π)) (q : π) :
    Spec.afterJobs fs jobs q = match (jobs.filter fun j => decide (j.path = q) && j.refused.isNone).getLast? with
      | none => fs q
      | some j => (encodeToPath (fun _ => none) q none j.call j.answers).1 q := by
  unfold Spec.afterJobs
  induction jobs using List.reverseRecOn with
  | nil => rfl
  | append_singleton jobs j ih =>
    rw [List.foldl_append, List.foldl_cons, List.foldl_nil, List.filter_append]
    generalize List.foldl _ fs jobs = fs' at *
    cases hr : j.refused with
    | some msg =>
      have hf : List.filter (fun j => decide (j.path = q) && j.refused.isNone) [j] = [] := by simp [hr]
      rw [hf, List.append_nil, ← ih]
      rfl
    | none =>
      by_cases hq : j.path = q
      · have hf : List.filter (fun j => decide (j.path = q) && j.refused.isNone) [j] = [j] := by simp [hr, hq]
        rw [hf, List.getLast?_concat, hq]
        simp [encodeToPath, overwrite, FileSystem.create]
      · have hf : List.filter (fun j => decide (j.path = q) && j.refused.isNone) [j] = [] := by simp [hq]
        rw [hf, List.append_nil, ← ih]
        simp [encodeToPath, overwrite, FileSystem.create, Ne.symm hq]

/-- Nothing is written by a call that is rejected without output. -/
theorem encodeToFile_nothing {p : Prog (R Unit)} {r : R Unit} (h : ∀ w, p.run fileSink w = (w, r)) (answers : List Answer) : encodeToFile p answers = ([], r) := by
  simp only [encodeToFile, h, BufWriter.drop, BufWriter.flushBuf]
  cases answers <;> rfl

/-- C89: input that `encode` or `encode_image` rejects leaves an empty file, also where there was a file before: the old contents are lost before the input is looked at. -/
theorem C89_rejected {π : Type} [DecidableEq π] (fs : FileSystem π) (path : π) (pf : Platform) (simd : Bool) (e : Encoder) (answers : List Answer) :
    (∀ image : ImageBuffer, image.width = 0 ∨ image.height = 0 → (encodeToPath fs path none (e.encodeImage pf simd image) answers).1 path = some [] ∧
      (encodeToPath fs path none (e.encodeImage pf simd image) answers).2 = .error (.err (.zeroImageDimensions image.width image.height))) ∧
    ∀ (data : Bytes) (w h : UInt16) (ct : ColorType), w.toNat * h.toNat * ct.bytesPerPixel < 2 ^ pf.wordBits → data.length < w.toNat * h.toNat * ct.bytesPerPixel →
      (encodeToPath fs path none (e.encode pf simd data w h ct) answers).1 path = some [] ∧
      (encodeToPath fs path none (e.encode pf simd data w h ct) answers).2 = .error (.err (.badImageData data.length (w.toNat * h.toNat * ct.bytesPerPixel))) := by
  have key : ∀ (p : Prog (R Unit)) (r : R Unit), (∀ w, p.run fileSink w = (w, r)) → (encodeToPath fs path none p answers).1 path = some [] ∧
      (encodeToPath fs path none p answers).2 = r := by
    intro p r h
    simp [encodeToPath, overwrite, FileSystem.create, encodeToFile_nothing h answers]
  exact ⟨fun image hz => key _ _ fun w => C15_zero_dimension_image pf simd e image hz fileSink w,
    fun data w h ct hfit hshort => key _ _ fun o => C15_short_data_rejected pf simd e data w h ct hfit hshort fileSink o⟩

/-- FALSE: "if encoding fails, an existing file keeps its contents". -/
theorem C89_keeps_false : ∃ (e : Encoder) (fs : FileSystem String) (r : R Unit), Configured ⟨true, 8⟩ 80 [] e ∧ fs "a.jpg" = some [0xFF, 0xD8, 0xFF, 0xD9] ∧
    encodeToPath fs "a.jpg" none (e.encode ⟨true, 8⟩ true [1, 2] 1 1 .rgb) [] = (fun _ => some [], r) ∧ r = .error (.err (.badImageData 2 3)) := by
  obtain ⟨e, h1, -⟩ := reachable_exists ⟨true, 8⟩ 80 [] (by decide)
  refine ⟨e, fun q => if q = "a.jpg" then some [0xFF, 0xD8, 0xFF, 0xD9] else some [], _, h1, rfl, ?_, rfl⟩
  have h := (C89_rejected (π := String) (fun q => if q = "a.jpg" then some [0xFF, 0xD8, 0xFF, 0xD9] else some []) "a.jpg" ⟨true, 8⟩ true e []).2 [1, 2] 1 1 .rgb (by decide) (by decide)
  refine Prod.ext ?_ h.2
  funext q
  by_cases hq : q = "a.jpg"
  · subst hq; exact h.1
  · rw [(C89_created _ "a.jpg" (.encode ..) []).1 q hq]
    exact if_neg hq

-- a history: two files are made, the second creation of "a" is refused by the system
example (e : Encoder) (p p' : Prog (R Unit)) (h : p = e.encode ⟨true, 8⟩ true [1] 1 1 .luma) (h' : p' = e.encode ⟨true, 8⟩ true [2] 1 1 .luma) :
    Spec.afterJobs (fun _ => none) [⟨"a", none, p, []⟩, ⟨"b", none, p', []⟩, ⟨"a", some "Permission denied", p', []⟩] "a" = some (p.run vecSink []).1 := by
  rw [C89_history]
  obtain ⟨-, ⟨c, h1, -, -, h2⟩, -⟩ := C89_created (π := String) (fun _ => none) "a" (p := p) (pf := ⟨true, 8⟩) (simd := true) (e := e) (h ▸ .encode ..) []
  rw [← (h2 (by simp)).1, ← h1]
  rfl

end Jpeg
