import Verif.Proofs.Strict
/-! C14: a failing writer. -/
namespace Jpeg

/-- A writer that behaves like `S` and records every call with its answer. -/
def recording {σ : Type} (S : Sink σ) : Sink (σ × List (Bytes × Option EncodingError)) :=
  ⟨fun w c => (((S.writeAll w.1 c).1, w.2 ++ [(c, (S.writeAll w.1 c).2)]), (S.writeAll w.1 c).2)⟩

theorem run_recording {σ α : Type} (S : Sink σ) (p : Prog α) (w : σ) (log : List (Bytes × Option EncodingError)) :
    p.run (recording S) (w, log) = (((p.run S w).1, log ++ p.calls S w), (p.run S w).2) := by
  induction p generalizing w log with
  | done a => simp [Prog.run, Prog.calls]
  | write c k ih =>
    have h := ih (S.writeAll w c).2 (S.writeAll w c).1 (log ++ [(c, (S.writeAll w c).2)])
    simp only [Prog.run, Prog.calls, recording] at h ⊢
    rw [h]
    simp

/-- What a caller sees of a run on the recording writer, against the run on a `Vec` that accepts everything:
either no call failed, the chunks make up the complete output and the result is the same; or exactly the last call
failed, the result is its error, and what was handed over (including the chunk that failed) is an initial
part of the complete output. -/
def StopsAtFirstError (p : Prog (R Unit)) : Prop :=
  ∀ (σ : Type) (S : Sink σ) (w : σ),
    let log := (p.run (recording S) (w, [])).1.2
    let complete := (p.run vecSink []).1
    ((∀ x ∈ log, x.2 = none) ∧ (log.map (·.1)).flatten = complete ∧ (p.run S w).2 = (p.run vecSink []).2) ∨
    ∃ (pre : List (Bytes × Option EncodingError)) (c : Bytes) (e : EncodingError), log = pre ++ [(c, some e)] ∧ (∀ x ∈ pre, x.2 = none) ∧
      (pre.map (·.1)).flatten ++ c <+: complete ∧ (p.run S w).2 = .error (.err e)

theorem Prog.Strict.stops {p : Prog (R Unit)} (h : p.Strict) : StopsAtFirstError p := by
  intro σ S w
  simp only [run_recording, Prog.run_vec, List.nil_append]
  exact h.run S w

/-- C14 for `encode`: any writer, any configuration, any input, any build. -/
theorem C14_encode (pf : Platform) (simd : Bool) (e : Encoder) (data : Bytes) (w h : UInt16) (ct : ColorType) :
    StopsAtFirstError (e.encode pf simd data w h ct) := (encode_strict ..).stops

/-- C14 for `encode_image` with any image buffer. -/
theorem C14_encode_image (pf : Platform) (simd : Bool) (e : Encoder) (image : ImageBuffer) :
    StopsAtFirstError (e.encodeImage pf simd image) := (encodeImage_strict ..).stops

/-- Recording does not change the behaviour of the writer. -/
theorem C14_recording_transparent {σ α : Type} (S : Sink σ) (p : Prog α) (w : σ) :
    (p.run (recording S) (w, [])).1.1 = (p.run S w).1 ∧ (p.run (recording S) (w, [])).2 = (p.run S w).2 := by
  simp [run_recording]

/-- A writer with room for `n` bytes (cf. writing to a `&mut [u8]` or a full disk): a chunk that does not fit is
written in part and reported as an error. State: bytes stored so far. -/
def boundedSink (n : Nat) : Sink Bytes :=
  ⟨fun w c => if w.length + c.length ≤ n then (w ++ c, none) else (w ++ c.take (n - w.length), some (.io "full"))⟩

theorem run_bounded {n : Nat} {p : Prog (R Unit)} (hp : p.Strict) (w : Bytes) (hw : w.length ≤ n) :
    (p.run (boundedSink n) w).1 = (w ++ p.exec.1).take n ∧
      (p.run (boundedSink n) w).2 = if (w ++ p.exec.1).length ≤ n then p.exec.2 else .error (.err (.io "full")) := by
  induction p generalizing w with
  | done a => simp [Prog.run, Prog.exec, List.take_of_length_le, hw]
  | write c k ih =>
    simp only [Prog.run, Prog.exec]
    by_cases hc : w.length + c.length ≤ n
    · have := ih none hp.2 (w ++ c) (by simpa using hc)
      simp only [boundedSink, hc, if_true] at this ⊢
      simpa using this
    · simp only [boundedSink, hc, if_false, hp.1, Prog.run]
      have : ¬ (w ++ (c ++ (k none).exec.1)).length ≤ n := by simp; omega
      simp only [this, if_false, and_true]
      rw [List.take_append, List.take_of_length_le hw, List.take_append_of_le_length (by omega)]

/-- C14, the special case of a writer that runs full: it holds exactly the first `n` bytes of the complete output,
and the result is an error iff something was lost. -/
theorem C14_full_disk (pf : Platform) (simd : Bool) (e : Encoder) (data : Bytes) (w h : UInt16) (ct : ColorType) (n : Nat) :
    let p := e.encode pf simd data w h ct
    let complete := (p.run vecSink []).1
    (p.run (boundedSink n) []).1 = complete.take n ∧
      (p.run (boundedSink n) []).2 = if complete.length ≤ n then (p.run vecSink []).2 else .error (.err (.io "full")) := by
  have := run_bounded (n := n) (encode_strict pf simd e data w h ct) [] (by simp)
  simpa [Prog.run_vec] using this

end Jpeg
