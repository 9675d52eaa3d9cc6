import Verif.Model.IoWrite
import Verif.Proofs.Prog
/-! Programs over `io::Write`. -/
namespace Jpeg
variable {σ : Type} {io : IoWrite σ}

theorem IoWrite.All.accepted {s s' : σ} {buf acc : Bytes} {r : R Unit} (h : io.All s buf acc s' r) :
    acc <+: buf ∧ (r = .ok () → acc = buf) ∧ r ≠ .error .diverge ∧ ((∃ e, r = .error (.err e)) ∨ r = .ok () ∨ r = .error (.panic .index)) := by
  induction h with
  | finished s => simp
  | zero _ _ => simp
  | @some s s' s'' buf acc n r _ _ _ _ _ ih =>
    refine ⟨?_, fun hr => ?_, ih.2.2⟩
    · conv_rhs => rw [← List.take_append_drop n buf]
      exact (List.prefix_append_right_inj _).mpr ih.1
    · rw [ih.2.1 hr, List.take_append_drop]
  | more _ _ _ => simp
  | interrupted _ _ _ ih => exact ih
  | failed _ _ => simp

theorem IoWrite.All.unique {s s1 s2 : σ} {buf a1 a2 : Bytes} {r1 r2 : R Unit} (h1 : io.All s buf a1 s1 r1) (h2 : io.All s buf a2 s2 r2) :
    a1 = a2 ∧ s1 = s2 ∧ r1 = r2 := by
  induction h1 generalizing a2 s2 r2 with
  | finished s => cases h2 <;> first | exact ⟨rfl, rfl, rfl⟩ | (exact absurd rfl (by assumption))
  | zero hb hw =>
    cases h2 with
    | finished => exact absurd rfl hb
    | zero _ hw' => have := hw.symm.trans hw'; cases this; exact ⟨rfl, rfl, rfl⟩
    | some _ hw' hn => have := hw.symm.trans hw'; cases this; exact absurd rfl hn
    | more _ hw' hn => have := hw.symm.trans hw'; cases this; omega
    | interrupted _ hw' _ => have := hw.symm.trans hw'; cases this
    | failed _ hw' => have := hw.symm.trans hw'; cases this
  | some hb hw hn hl _ ih =>
    cases h2 with
    | finished => exact absurd rfl hb
    | zero _ hw' => have := hw.symm.trans hw'; cases this; exact absurd rfl hn
    | some _ hw' _ _ h => have := hw.symm.trans hw'; cases this; obtain ⟨rfl, rfl, rfl⟩ := ih h; exact ⟨rfl, rfl, rfl⟩
    | more _ hw' hm => have := hw.symm.trans hw'; cases this; omega
    | interrupted _ hw' _ => have := hw.symm.trans hw'; cases this
    | failed _ hw' => have := hw.symm.trans hw'; cases this
  | more hb hw hm =>
    cases h2 with
    | finished => exact absurd rfl hb
    | zero _ hw' => have := hw.symm.trans hw'; cases this; omega
    | some _ hw' _ hl => have := hw.symm.trans hw'; cases this; omega
    | more _ hw' => have := hw.symm.trans hw'; cases this; exact ⟨rfl, rfl, rfl⟩
    | interrupted _ hw' _ => have := hw.symm.trans hw'; cases this
    | failed _ hw' => have := hw.symm.trans hw'; cases this
  | interrupted hb hw _ ih =>
    cases h2 with
    | finished => exact absurd rfl hb
    | zero _ hw' => have := hw.symm.trans hw'; cases this
    | some _ hw' => have := hw.symm.trans hw'; cases this
    | more _ hw' => have := hw.symm.trans hw'; cases this
    | interrupted _ hw' h => have := hw.symm.trans hw'; cases this; exact ih h
    | failed _ hw' => have := hw.symm.trans hw'; cases this
  | failed hb hw =>
    cases h2 with
    | finished => exact absurd rfl hb
    | zero _ hw' => have := hw.symm.trans hw'; cases this
    | some _ hw' => have := hw.symm.trans hw'; cases this
    | more _ hw' => have := hw.symm.trans hw'; cases this
    | interrupted _ hw' h => have := hw.symm.trans hw'; cases this
    | failed _ hw' => have := hw.symm.trans hw'; cases this; exact ⟨rfl, rfl, rfl⟩

theorem IoWrite.Runs.unique {p : Prog (R Unit)} {s s1 s2 : σ} {a1 a2 : Bytes} {r1 r2 : R Unit} (h1 : io.Runs p s a1 s1 r1) (h2 : io.Runs p s a2 s2 r2) :
    a1 = a2 ∧ s1 = s2 ∧ r1 = r2 := by
  induction h1 generalizing a2 s2 r2 with
  | done a s => cases h2; exact ⟨rfl, rfl, rfl⟩
  | ok hw _ ih =>
    cases h2 with
    | ok hw' h => obtain ⟨rfl, rfl, -⟩ := hw.unique hw'; obtain ⟨rfl, rfl, rfl⟩ := ih h; exact ⟨rfl, rfl, rfl⟩
    | err hw' _ => cases (hw.unique hw').2.2
    | panic hw' => cases (hw.unique hw').2.2
  | err hw _ ih =>
    cases h2 with
    | ok hw' _ => cases (hw.unique hw').2.2
    | err hw' h =>
      obtain ⟨rfl, rfl, he⟩ := hw.unique hw'
      cases he
      obtain ⟨rfl, rfl, rfl⟩ := ih h
      exact ⟨rfl, rfl, rfl⟩
    | panic hw' => cases (hw.unique hw').2.2
  | panic hw =>
    cases h2 with
    | ok hw' _ => cases (hw.unique hw').2.2
    | err hw' _ => cases (hw.unique hw').2.2
    | panic hw' => obtain ⟨rfl, rfl, he⟩ := hw.unique hw'; cases he; exact ⟨rfl, rfl, rfl⟩

/-- A strict program over any writer. -/
theorem IoWrite.Runs.accepted {p : Prog (R Unit)} (hp : p.Strict) {s s' : σ} {acc : Bytes} {r : R Unit} (h : io.Runs p s acc s' r) :
    acc <+: p.exec.1 ∧ ((acc = p.exec.1 ∧ r = p.exec.2) ∨ (∃ e, r = .error (.err e)) ∨ r = .error (.panic .index)) := by
  induction h with
  | done a s => simp [Prog.exec]
  | ok hw _ ih =>
    obtain ⟨h1, h2⟩ := ih hp.2
    rw [hw.accepted.2.1 rfl]
    simp only [Prog.exec]
    refine ⟨(List.prefix_append_right_inj _).mpr h1, ?_⟩
    rcases h2 with ⟨rfl, h2⟩ | h2
    · exact Or.inl ⟨rfl, h2⟩
    · exact Or.inr h2
  | @err c acc acc' k s s' s'' e r hw hr _ =>
    rw [hp.1] at hr
    cases hr
    rw [List.append_nil]
    exact ⟨hw.accepted.1.trans (by simp [Prog.exec]), Or.inr (Or.inl ⟨e, rfl⟩)⟩
  | @panic c acc k s s' x hw =>
    refine ⟨hw.accepted.1.trans (by simp [Prog.exec]), Or.inr (Or.inr ?_)⟩
    rcases hw.accepted.2.2.2 with ⟨e, he⟩ | he | he
    · cases he
    · cases he
    · exact he

/-- A writer that stays in `good` states, keeps the contract, never fails there, and is interrupted only finitely often in a row. -/
theorem IoWrite.all_exists (good : σ → Prop) (μ : σ → Nat)
    (h : ∀ s buf, good s → buf ≠ [] → good (io.write s buf).1 ∧ ((∃ n, 0 < n ∧ n ≤ buf.length ∧ (io.write s buf).2 = .wrote n) ∨
      ((io.write s buf).2 = .interrupted ∧ μ (io.write s buf).1 < μ s))) (s : σ) (hs : good s) (buf : Bytes) :
    ∃ s', good s' ∧ io.All s buf buf s' (.ok ()) := by
  by_cases hb : buf = []
  · subst hb
    exact ⟨s, hs, .finished s⟩
  · obtain ⟨hg, ⟨n, h0, hn, hw⟩ | ⟨hw, hμ⟩⟩ := h s buf hs hb
    · obtain ⟨s', hs', ha⟩ := IoWrite.all_exists good μ h (io.write s buf).1 hg (buf.drop n)
      refine ⟨s', hs', ?_⟩
      have := IoWrite.All.some (io := io) hb (by rw [← hw]) (by omega) hn ha
      rwa [List.take_append_drop] at this
    · obtain ⟨s', hs', ha⟩ := IoWrite.all_exists good μ h (io.write s buf).1 hg buf
      exact ⟨s', hs', .interrupted hb (by rw [← hw]) ha⟩
termination_by (buf.length, μ s)
decreasing_by
  · rename_i hn
    have : 0 < buf.length := List.length_pos_iff.mpr hb
    apply Prod.Lex.left
    rw [List.length_drop]
    omega
  · apply Prod.Lex.right
    assumption

theorem IoWrite.runs_exists (good : σ → Prop) (hall : ∀ s, good s → ∀ buf, ∃ s', good s' ∧ io.All s buf buf s' (.ok ())) (p : Prog (R Unit)) (s : σ)
    (hs : good s) : ∃ s', good s' ∧ io.Runs p s p.exec.1 s' p.exec.2 := by
  induction p generalizing s with
  | done a => exact ⟨s, hs, .done a s⟩
  | write c k ih =>
    obtain ⟨s', hs', h⟩ := hall s hs c
    obtain ⟨s'', hs'', h'⟩ := ih none s' hs'
    exact ⟨s'', hs'', .ok h h'⟩

theorem slice_write (a : Bytes) (n : Nat) (buf : Bytes) :
    sliceWrite.write (a, n) buf = ((a ++ buf.take n, n - min n buf.length), .wrote (min n buf.length)) := rfl

/-- `write_all` into a slice. -/
theorem slice_all (a : Bytes) (n : Nat) (buf : Bytes) : sliceWrite.All (a, n) buf (buf.take n) (a ++ buf.take n, n - buf.length)
    (if buf.length ≤ n then .ok () else .error (.err (.io "failed to write whole buffer"))) := by
  by_cases hb : buf = []
  · subst hb
    simp
    exact .finished _
  · have hlen : 0 < buf.length := List.length_pos_iff.mpr hb
    by_cases hl : buf.length ≤ n
    · have hw := slice_write a n buf
      rw [Nat.min_eq_right hl, List.take_of_length_le hl] at hw
      rw [if_pos hl, List.take_of_length_le hl]
      have := IoWrite.All.some (acc := []) (r := .ok ()) hb hw (by omega) (by omega) (by rw [List.drop_length]; exact .finished _)
      rw [List.take_length, List.append_nil] at this
      exact this
    · rw [if_neg hl, show n - buf.length = 0 by omega]
      have hw := slice_write a n buf
      rw [Nat.min_eq_left (by omega), Nat.sub_self] at hw
      by_cases h0 : n = 0
      · subst h0
        exact .zero hb hw
      · have hd : buf.drop n ≠ [] := by
          intro h
          have := congrArg List.length h
          rw [List.length_drop] at this
          simp at this
          omega
        have hw' := slice_write (a ++ buf.take n) 0 (buf.drop n)
        rw [Nat.zero_min, List.take_zero, List.append_nil] at hw'
        have := IoWrite.All.some hb hw h0 (by omega) (.zero hd hw')
        rw [List.append_nil] at this
        exact this

/-- A strict program writing into a slice with room for `n` bytes. -/
theorem slice_runs {p : Prog (R Unit)} (hp : p.Strict) (a : Bytes) (n : Nat) :
    sliceWrite.Runs p (a, n) (p.exec.1.take n) (a ++ p.exec.1.take n, n - p.exec.1.length)
      (if p.exec.1.length ≤ n then p.exec.2 else .error (.err (.io "failed to write whole buffer"))) := by
  induction p generalizing a n with
  | done x => simpa [Prog.exec] using IoWrite.Runs.done x _
  | write c k ih =>
    have ha := slice_all a n c
    have hlen : (Prog.write c k).exec.1.length = c.length + (k none).exec.1.length := List.length_append
    by_cases hc : c.length ≤ n
    · rw [if_pos hc, List.take_of_length_le hc] at ha
      have h := ih none hp.2 (a ++ c) (n - c.length)
      have htake : (Prog.write c k).exec.1.take n = c ++ (k none).exec.1.take (n - c.length) := by
        show (c ++ _).take n = _
        rw [List.take_append, List.take_of_length_le hc]
      have := IoWrite.Runs.ok (k := k) ha h
      rw [htake, hlen, ← List.append_assoc, Nat.add_comm, Nat.sub_add_eq, Nat.sub_right_comm]
      by_cases ht : (k none).exec.1.length ≤ n - c.length
      · rw [if_pos ht] at this
        rw [if_pos (by omega)]
        exact this
      · rw [if_neg ht] at this
        rw [if_neg (by omega)]
        exact this
    · rw [if_neg hc] at ha
      have := IoWrite.Runs.err (k := k) ha (by rw [hp.1]; exact .done _ _)
      rw [List.append_nil] at this
      have htake : (Prog.write c k).exec.1.take n = c.take n := List.take_append_of_le_length (by omega)
      rw [htake, if_neg (by omega), show n - (Prog.write c k).exec.1.length = n - c.length by omega]
      exact this

end Jpeg
