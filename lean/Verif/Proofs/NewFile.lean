import Verif.Model.NewFile
import Verif.Proofs.Strict
/-! `Encoder::new_file`: what ends up in the file. -/
namespace Jpeg

theorem pushAll_content (as : List Answer) (content buf : Bytes) :
    (pushAll as content buf).1.content ++ (pushAll as content buf).2.1 = content ++ buf ∧
    ((pushAll as content buf).2.2 = none → (pushAll as content buf).2.1 = []) := by
  induction as generalizing content buf with
  | nil => simp [pushAll]
  | cons a as ih =>
    unfold pushAll
    split
    · rename_i h; simp [h]
    · split
      · simp
      · rename_i n _
        have := ih (content ++ buf.take n) (buf.drop n)
        rw [List.append_assoc content, List.take_append_drop] at this
        exact this
      · exact ih content buf
      · simp

/-- The system never fails: no error and no write of nothing. -/
def Answer.Fine : Answer → Prop
  | .wrote n => 0 < n
  | .interrupted => True
  | .failed _ => False

theorem pushAll_fine {as : List Answer} (h : ∀ a ∈ as, a.Fine) (content buf : Bytes) :
    (pushAll as content buf).2.2 = none ∧ ∀ a ∈ (pushAll as content buf).1.answers, a.Fine := by
  induction as generalizing content buf with
  | nil => simp [pushAll]
  | cons a as ih =>
    have ha := h a (by simp)
    have has : ∀ a ∈ as, a.Fine := fun b hb => h b (by simp [hb])
    unfold pushAll
    split
    · exact ⟨rfl, h⟩
    · split
      · simp [Answer.Fine] at ha
      · exact ih has _ _
      · exact ih has _ _
      · simp [Answer.Fine] at ha

/-- Everything handed over so far. -/
def BufWriter.all (w : BufWriter) : Bytes := w.file.content ++ w.buf

theorem BufWriter.flushBuf_all (w : BufWriter) : w.flushBuf.1.all = w.all ∧ (w.flushBuf.2 = none → w.flushBuf.1.buf = []) :=
  pushAll_content w.file.answers w.file.content w.buf

theorem BufWriter.flushBuf_length (w : BufWriter) : w.flushBuf.1.buf.length ≤ w.buf.length := by
  have key : ∀ (as : List Answer) (content buf : Bytes), (pushAll as content buf).2.1.length ≤ buf.length := by
    intro as
    induction as with
    | nil => simp [pushAll]
    | cons a as ih =>
      intro content buf
      unfold pushAll
      split
      · simp
      · split
        · simp
        · refine (ih _ _).trans ?_
          simp
        · exact ih _ _
        · simp
  exact key _ _ _

theorem BufWriter.writeAll_all (w : BufWriter) (c : Bytes) (hw : w.buf.length ≤ capacity) :
    (w.writeAll c).1.buf.length ≤ capacity ∧
    ((w.writeAll c).2 = none → (w.writeAll c).1.all = w.all ++ c) ∧ (w.writeAll c).1.all <+: w.all ++ c := by
  unfold BufWriter.writeAll
  split
  · rename_i h
    refine ⟨by simp; omega, fun _ => by simp [BufWriter.all], ?_⟩
    simp [BufWriter.all]
  · rename_i h
    have h1 : (if c.length > capacity - w.buf.length then w.flushBuf else (w, none)).1.all = w.all ∧
        (if c.length > capacity - w.buf.length then w.flushBuf else (w, none)).1.buf.length ≤ w.buf.length ∧
        ((if c.length > capacity - w.buf.length then w.flushBuf else (w, none)).2 = none →
          (if c.length > capacity - w.buf.length then w.flushBuf else (w, none)).1.buf = [] ∨ c.length = capacity - w.buf.length) := by
      split
      · exact ⟨w.flushBuf_all.1, w.flushBuf_length, fun h => Or.inl (w.flushBuf_all.2 h)⟩
      · exact ⟨rfl, le_refl _, fun _ => Or.inr (by omega)⟩
    split
    · rename_i w' e he
      rw [he] at h1
      exact ⟨by omega, by simp, by rw [h1.1]; exact List.prefix_append _ _⟩
    · rename_i w' he
      by_cases hcap : c.length > capacity - w.buf.length
      · rw [if_pos hcap] at he
        have hb : w'.buf = [] := by
          have := w.flushBuf_all.2 (by rw [he])
          rwa [he] at this
        have ha : w'.file.content = w.all := by
          have := w.flushBuf_all.1
          rw [he] at this
          simpa [BufWriter.all, hb] using this
        split
        · obtain ⟨p1, p2⟩ := pushAll_content w'.file.answers w'.file.content c
          refine ⟨by simp [hb], fun hn => ?_, ?_⟩
          · rw [p2 hn, List.append_nil] at p1
            rw [← ha, ← p1]
            simp [BufWriter.all, hb]
          · rw [← ha, ← p1]
            simp [BufWriter.all, hb]
        · rename_i hlt
          refine ⟨by simp [hb]; omega, fun _ => ?_, ?_⟩ <;> rw [← ha] <;> simp [BufWriter.all, hb]
      · rw [if_neg hcap] at he
        simp only [Prod.mk.injEq, and_true] at he
        subst he
        split
        · rename_i hge
          have hb : w.buf = [] := by
            have : w.buf.length = 0 := by omega
            exact List.length_eq_zero_iff.mp this
          obtain ⟨p1, p2⟩ := pushAll_content w.file.answers w.file.content c
          refine ⟨hw, fun hn => ?_, ?_⟩
          · simp only [BufWriter.all, hb, List.append_nil]
            rw [p2 hn, List.append_nil] at p1
            exact p1
          · simp only [BufWriter.all, hb, List.append_nil]
            exact ⟨_, p1⟩
        · refine ⟨by simp; omega, fun _ => by simp [BufWriter.all], ?_⟩
          simp [BufWriter.all]

theorem BufWriter.writeAll_fine (w : BufWriter) (c : Bytes) (h : ∀ a ∈ w.file.answers, a.Fine) :
    (w.writeAll c).2 = none ∧ ∀ a ∈ (w.writeAll c).1.file.answers, a.Fine := by
  unfold BufWriter.writeAll
  split
  · exact ⟨rfl, h⟩
  · have h1 : (if c.length > capacity - w.buf.length then w.flushBuf else (w, none)).2 = none ∧
        ∀ a ∈ (if c.length > capacity - w.buf.length then w.flushBuf else (w, none)).1.file.answers, a.Fine := by
      split
      · exact pushAll_fine h _ _
      · exact ⟨rfl, h⟩
    split
    · rename_i w' e he
      rw [he] at h1
      simp at h1
    · rename_i w' he
      rw [he] at h1
      split
      · exact pushAll_fine h1.2 _ _
      · exact ⟨rfl, h1.2⟩

theorem BufWriter.drop_content (w : BufWriter) : w.drop.content <+: w.all ∧ ((∀ a ∈ w.file.answers, a.Fine) → w.drop.content = w.all) := by
  obtain ⟨h1, h2⟩ := w.flushBuf_all
  refine ⟨⟨w.flushBuf.1.buf, h1⟩, fun hf => ?_⟩
  have hn : w.flushBuf.2 = none := (pushAll_fine hf _ _).1
  rw [← h1, BufWriter.all, h2 hn, List.append_nil]
  rfl

/-- A strict program on a `BufWriter<File>`. -/
theorem run_file {p : Prog (R Unit)} (hp : p.Strict) (w : BufWriter) (hw : w.buf.length ≤ BufWriter.capacity) :
    (p.run fileSink w).1.all <+: w.all ++ p.exec.1 ∧
    (((p.run fileSink w).1.all = w.all ++ p.exec.1 ∧ (p.run fileSink w).2 = p.exec.2) ∨ ∃ e, (p.run fileSink w).2 = .error (.err e)) ∧
    (p.run fileSink w).1.buf.length ≤ BufWriter.capacity ∧
    ((∀ a ∈ w.file.answers, a.Fine) → (p.run fileSink w).1.all = w.all ++ p.exec.1 ∧ (p.run fileSink w).2 = p.exec.2 ∧
      ∀ a ∈ (p.run fileSink w).1.file.answers, a.Fine) := by
  induction p generalizing w with
  | done a => simp [Prog.run, Prog.exec, hw]
  | write c k ih =>
    obtain ⟨h1, h2, h3⟩ := w.writeAll_all c hw
    have h4 := w.writeAll_fine c
    simp only [Prog.run, Prog.exec, fileSink]
    cases he : (w.writeAll c).2 with
    | none =>
      have := ih none hp.2 (w.writeAll c).1 h1
      rw [h2 he] at this
      simp only [List.append_assoc] at this
      exact ⟨this.1, this.2.1, this.2.2.1, fun hf => this.2.2.2 (h4 hf).2⟩
    | some e =>
      rw [hp.1]
      refine ⟨?_, Or.inr ⟨e, rfl⟩, h1, fun hf => ?_⟩
      · simp only [Prog.run]
        refine h3.trans ?_
        rw [← List.append_assoc]
        exact List.prefix_append _ _
      · rw [(h4 hf).1] at he; cases he

/-- Nothing is handed to the system before the buffer is full. -/
theorem run_small {p : Prog (R Unit)} (w : BufWriter) (hw : w.buf.length + p.exec.1.length < BufWriter.capacity) :
    p.run fileSink w = (⟨w.file, w.buf ++ p.exec.1⟩, p.exec.2) := by
  induction p generalizing w with
  | done a => simp [Prog.run, Prog.exec]
  | write c k ih =>
    simp only [Prog.exec, List.length_append] at hw
    have e : w.writeAll c = (⟨w.file, w.buf ++ c⟩, none) := by
      unfold BufWriter.writeAll
      rw [if_pos (by omega)]
    have := ih none ⟨w.file, w.buf ++ c⟩ (by simp; omega)
    show (k (w.writeAll c).2).run fileSink (w.writeAll c).1 = _
    rw [e, this]
    simp only [Prog.exec, List.append_assoc]

end Jpeg
