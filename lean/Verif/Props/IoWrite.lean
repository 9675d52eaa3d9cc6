import Verif.Proofs.IoWrite
import Verif.Props.NewFile
import Verif.Model.Error
/-! C78: any `io::Write`. -/
namespace Jpeg

section
variable {pf : Platform} {simd : Bool} {e : Encoder} {p : Prog (R Unit)} (hp : Spec.AnyCall pf simd e p) {σ : Type} {io : IoWrite σ}
include hp

omit hp in
/-- Where errors and panics come from: an error reported by the writer (`?` with `From<io::Error>`), the error of std for a writer that accepts nothing, and
the panic of std when it claims more than it was given. -/
theorem IoWrite.All.caused {s s' : σ} {buf acc : Bytes} {r : R Unit} (h : io.All s buf acc s' r) : match (generalizing := false) r with
    | .ok () => True
    | .error (.err x) => ∃ t b msg, b ≠ [] ∧ x.source = Option.some msg ∧ x.display = msg ∧ ((io.write t b).2 = .failed msg ∨ (io.write t b).2 = .wrote 0 ∧ msg = "failed to write whole buffer")
    | .error _ => ∃ t b n, (io.write t b).2 = .wrote n ∧ b.length < n := by
  induction h with
  | finished s => trivial
  | @zero s s' buf hb hw => exact ⟨s, buf, _, hb, rfl, rfl, Or.inr ⟨by rw [hw], rfl⟩⟩
  | some _ _ _ _ _ ih => exact ih
  | @more s s' buf n _ hw hn => exact ⟨s, buf, n, by rw [hw], hn⟩
  | interrupted _ _ _ ih => exact ih
  | @failed s s' buf msg hb hw => exact ⟨s, buf, msg, hb, rfl, rfl, Or.inl (by rw [hw])⟩

omit hp in
theorem IoWrite.Runs.caused {p : Prog (R Unit)} (hp : p.Strict) {s s' : σ} {acc : Bytes} {r : R Unit} (h : io.Runs p s acc s' r) :
    (acc = p.exec.1 ∧ r = p.exec.2) ∨
    (∃ x, r = .error (.err x) ∧ ∃ t b msg, b ≠ [] ∧ x.source = Option.some msg ∧ x.display = msg ∧
      ((io.write t b).2 = .failed msg ∨ (io.write t b).2 = .wrote 0 ∧ msg = "failed to write whole buffer")) ∨
    (r = .error (.panic .index) ∧ ∃ t b n, (io.write t b).2 = .wrote n ∧ b.length < n) := by
  induction h with
  | done a s => simp [Prog.exec]
  | ok hw _ ih =>
    rw [hw.accepted.2.1 rfl]
    simp only [Prog.exec]
    rcases ih hp.2 with ⟨rfl, h2⟩ | h2
    · exact Or.inl ⟨rfl, h2⟩
    · exact Or.inr h2
  | @err c acc acc' k s s' s'' e r hw hr _ =>
    rw [hp.1] at hr
    cases hr
    exact Or.inr (Or.inl ⟨e, rfl, hw.caused⟩)
  | @panic c acc k s s' x hw =>
    rcases hw.accepted.2.2.2 with ⟨e, he⟩ | he | he
    · cases he
    · cases he
    · exact Or.inr (Or.inr ⟨he, hw.caused⟩)

/-- C78: whatever the writer's `write` does (short writes, interruptions, errors, answers that break the contract), the bytes it has accepted when `encode`
returns are an initial part of the complete output (the output into a `Vec`). They are all of it, and the result is the same as for the `Vec`, unless the
writer has failed: it has reported an error, or accepted nothing of some data (then the result is an error with the writer's, or std's, as its source and its
message), or claimed to have written more than it was given (then std panics). -/
theorem C78_initial_part {s s' : σ} {acc : Bytes} {r : R Unit} (h : io.Runs p s acc s' r) : acc <+: (p.run vecSink []).1 ∧
    ((acc = (p.run vecSink []).1 ∧ r = (p.run vecSink []).2) ∨
    (∃ x, r = .error (.err x) ∧ ∃ t b msg, b ≠ [] ∧ x.source = Option.some msg ∧ x.display = msg ∧
      ((io.write t b).2 = .failed msg ∨ (io.write t b).2 = .wrote 0 ∧ msg = "failed to write whole buffer")) ∨
    (r = .error (.panic .index) ∧ ∃ t b n, (io.write t b).2 = .wrote n ∧ b.length < n)) := by
  simp only [Prog.run_vec, List.nil_append]
  exact ⟨(h.accepted hp.strict).1, h.caused hp.strict⟩

/-- C78: `Ok` means that the calls of `write` have together accepted exactly the complete output. -/
theorem C78_ok {s s' : σ} {acc : Bytes} (h : io.Runs p s acc s' (.ok ())) : acc = (p.run vecSink []).1 ∧ (p.run vecSink []).2 = .ok () := by
  rcases (C78_initial_part hp h).2 with ⟨h1, h2⟩ | ⟨x, h2, -⟩ | ⟨h2, -⟩
  · exact ⟨h1, h2.symm⟩
  · cases h2
  · cases h2

omit hp in
/-- C78: a writer that accepts at least one byte per call, and no more than it was given, or asks to be called again (`Interrupted`), this not for ever
(`μ` gets smaller), has no influence on the output or the result, however it splits the data. (`good` are the states it can be in.) -/
theorem C78_short_writes (good : σ → Prop) (μ : σ → Nat)
    (h : ∀ s buf, good s → buf ≠ [] → good (io.write s buf).1 ∧ ((∃ n, 0 < n ∧ n ≤ buf.length ∧ (io.write s buf).2 = .wrote n) ∨
      ((io.write s buf).2 = .interrupted ∧ μ (io.write s buf).1 < μ s))) (s : σ) (hs : good s) :
    ∃ s', io.Runs p s (p.run vecSink []).1 s' (p.run vecSink []).2 ∧ ∀ acc s'' r, io.Runs p s acc s'' r → acc = (p.run vecSink []).1 ∧ r = (p.run vecSink []).2 := by
  simp only [Prog.run_vec, List.nil_append]
  obtain ⟨s', -, hr⟩ := IoWrite.runs_exists good (fun s hs buf => IoWrite.all_exists good μ h s hs buf) p s hs
  exact ⟨s', hr, fun acc s'' r h' => ⟨(h'.unique hr).1, (h'.unique hr).2.2⟩⟩

/-- C78: encoding into a slice of `n` bytes (`&mut [u8]` as the writer). If the complete output fits, the slice starts with it and the result is that of the
`Vec`; otherwise the slice is filled with the first `n` bytes and the result is the error for a full buffer. This is the only possible outcome. -/
theorem C78_slice (n : Nat) : ∀ acc s r, sliceWrite.Runs p ([], n) acc s r ↔
    acc = (p.run vecSink []).1.take n ∧ s = ((p.run vecSink []).1.take n, n - (p.run vecSink []).1.length) ∧
    r = if (p.run vecSink []).1.length ≤ n then (p.run vecSink []).2 else .error (.err (.io "failed to write whole buffer")) := by
  intro acc s r
  simp only [Prog.run_vec, List.nil_append]
  have h := slice_runs hp.strict [] n
  rw [List.nil_append] at h
  constructor
  · intro h'
    obtain ⟨rfl, rfl, rfl⟩ := h'.unique h
    exact ⟨rfl, rfl, rfl⟩
  · rintro ⟨rfl, rfl, rfl⟩
    exact h

/-- C78: encoding into a slice returns `Ok` if and only if it returns `Ok` for a `Vec` and the output fits. -/
theorem C78_slice_ok (n : Nat) : (∃ acc s, sliceWrite.Runs p ([], n) acc s (.ok ())) ↔ (p.run vecSink []).2 = .ok () ∧ (p.run vecSink []).1.length ≤ n := by
  simp only [C78_slice hp]
  constructor
  · rintro ⟨acc, s, -, -, h⟩
    by_cases hl : (p.run vecSink []).1.length ≤ n
    · rw [if_pos hl] at h
      exact ⟨h.symm, hl⟩
    · rw [if_neg hl] at h
      cases h
  · rintro ⟨h1, h2⟩
    exact ⟨_, _, rfl, rfl, by rw [if_pos h2, h1]⟩

omit hp in
/-- C78: the theorems about arbitrary writers (`Sink`) cover every `io::Write` whose `write_all` returns: it is a `Sink`. -/
theorem C78_is_sink (hio : ∀ s buf, ∃ acc s', ∃ r : Option EncodingError, io.All s buf acc s' (match r with | none => .ok () | some e => .error (.err e))) :
    ∃ S : Sink σ, ∀ (p : Prog (R Unit)) (s : σ), ∃ acc, io.Runs p s acc (p.run S s).1 (p.run S s).2 := by
  classical
  refine ⟨⟨fun s buf => ((hio s buf).choose_spec.choose, (hio s buf).choose_spec.choose_spec.choose)⟩, fun p => ?_⟩
  induction p with
  | done a => exact fun s => ⟨[], .done a s⟩
  | write c k ih =>
    intro s
    have h := (hio s c).choose_spec.choose_spec.choose_spec
    generalize hr : (hio s c).choose_spec.choose_spec.choose = r at h
    obtain ⟨acc, hacc⟩ := ih r (hio s c).choose_spec.choose
    simp only [Prog.run, hr]
    cases r with
    | none => exact ⟨_, .ok h hacc⟩
    | some e => exact ⟨_, .err h hacc⟩
end

/-! ### Concrete cases -/

/-- Stores one byte per call and is interrupted before each: state `(stored, interrupted)`. -/
def stutter : IoWrite (Bytes × Bool) := ⟨fun s buf => if s.2 then ((s.1 ++ buf.take 1, false), .wrote 1) else ((s.1, true), .interrupted)⟩

-- `C78_short_writes` applies to it
example (p : Prog (R Unit)) : ∃ s', stutter.Runs p ([], false) (p.run vecSink []).1 s' (p.run vecSink []).2 := by
  obtain ⟨s', h, -⟩ := C78_short_writes (p := p) (io := stutter) (fun _ => True) (fun s => if s.2 then 0 else 1) (by
    rintro ⟨a, b⟩ buf - hb
    refine ⟨trivial, ?_⟩
    cases b with
    | true =>
      refine Or.inl ⟨1, by omega, List.length_pos_iff.mpr hb, ?_⟩
      simp [stutter]
    | false => exact Or.inr ⟨by simp [stutter], by simp [stutter]⟩) ([], false) trivial
  exact ⟨s', h⟩

-- a grey pixel into slices: 8192 bytes are enough, none is not
example : ∃ e, Encoder.new ⟨true, 8⟩ 75 = .ok e ∧ (∃ acc s, sliceWrite.Runs (e.encode ⟨true, 8⟩ false [200] 1 1 .luma) ([], 8192) acc s (.ok ())) ∧
    ¬ ∃ acc s, sliceWrite.Runs (e.encode ⟨true, 8⟩ false [200] 1 1 .luma) ([], 0) acc s (.ok ()) := by
  obtain ⟨t0, t1, -, -, he⟩ := encoder_new_ok 75
  have he := he ⟨true, 8⟩
  have h := one_pixel
  rw [he] at h
  obtain ⟨h1, h2⟩ := Prod.mk.inj (Except.ok.inj h)
  have h1 := of_decide_eq_true h1
  refine ⟨_, he, (C78_slice_ok (.encode ..) 8192).mpr ⟨h2, by omega⟩, fun h => ?_⟩
  have := (C78_slice_ok (.encode (pf := ⟨true, 8⟩) (simd := false) ..) 0).mp h
  omega

end Jpeg
