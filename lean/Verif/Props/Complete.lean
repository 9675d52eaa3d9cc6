import Verif.Props.Stream
import Verif.Props.IoWrite
import Verif.Props.RoundTrip
/-! C83: whether a file is complete can be seen from the file, and agrees with the result of the call. -/
namespace Spec

/-- Skipping the rest of an entropy coded segment (`ecs`) as `skipEntropy` does. -/
theorem skipEntropy_ecs (bytes : List UInt8) : ∀ {c : UInt8} {r : List UInt8}, (ecs bytes).2 = 0xFF :: c :: r →
    c ≠ 0 ∧ skipEntropy bytes = if 0xD0 ≤ c ∧ c ≤ 0xD7 then skipEntropy r else some (0xFF :: c :: r) := by
  fun_induction ecs bytes with
  | case1 => intro c r h; cases h
  | case2 => intro c r h; cases h
  | case3 => intro c r h; cases h
  | case4 r ih =>
    intro c' r' h
    obtain ⟨h1, h2⟩ := ih h
    refine ⟨h1, ?_⟩
    simp only [skipEntropy, if_true, true_or]
    exact h2
  | case5 c r hc =>
    intro c' r' h
    simp only [List.cons.injEq, true_and] at h
    obtain ⟨rfl, rfl⟩ := h
    refine ⟨hc, ?_⟩
    simp only [skipEntropy, if_true, hc, false_or]
  | case6 b c r hb ih =>
    intro c' r' h
    obtain ⟨h1, h2⟩ := ih h
    refine ⟨h1, ?_⟩
    rw [skipEntropy, if_neg hb]
    exact h2

theorem decodeIntervals_skip (env : ScanEnv) (l : List (List DataUnit)) : ∀ {k : Nat} {m m' : Coefs} {bytes : List UInt8} {c : UInt8} {r : List UInt8},
    decodeIntervals env l k m bytes = some (m', 0xFF :: c :: r) → ¬ (0xD0 ≤ c ∧ c ≤ 0xD7) → skipEntropy bytes = some (0xFF :: c :: r) := by
  induction l with
  | nil => intro k m m' bytes c r h; simp [decodeIntervals] at h
  | cons units more ih =>
    intro k m m' bytes c r h hc
    unfold decodeIntervals at h
    split at h
    · cases h
    · split at h
      · have h := (Prod.mk.inj (Option.some.inj h)).2
        rw [(skipEntropy_ecs bytes h).2, if_neg hc]
      · split at h
        · rename_i c' rest he
          split at h
          · rename_i hk
            rw [(skipEntropy_ecs bytes he).2, if_pos]
            · exact ih h hc
            · rw [UInt8.le_iff_toNat_le, UInt8.le_iff_toNat_le]
              change 0xD0 ≤ c'.toNat ∧ c'.toNat ≤ 0xD7
              omega
          · cases h
        · cases h

theorem applySegment_rst {m : UInt8} (hm : 0xD0 ≤ m ∧ m ≤ 0xD7) (payload : List UInt8) (d : Dec) : applySegment m payload d = none := by
  have h1 : 0xD0 ≤ m.toNat := hm.1
  have h2 : m.toNat ≤ 0xD7 := hm.2
  have hne : ∀ n : UInt8, n.toNat < 0xD0 ∨ 0xD7 < n.toNat → m ≠ n := by rintro n hn rfl; omega
  unfold applySegment
  rw [if_neg (fun h => ?_), if_neg (hne _ (by decide)), if_neg (hne _ (by decide)), if_neg (hne _ (by decide)), if_neg (hne _ (by decide)), if_neg]
  · rintro (h | h) <;> exact hne _ (by decide) h
  · have : 0xE0 ≤ m.toNat := h.1
    omega

/-- What the decoder accepts can be skipped. -/
theorem segments_skip (strict whole : Bool) (fuel : Nat) : ∀ {d d' : Dec} {bytes : List UInt8}, segments strict whole fuel d bytes = some d' →
    skipSegments fuel bytes = some [] ∧ ∃ c r, bytes = 0xFF :: c :: r ∧ ¬ (0xD0 ≤ c ∧ c ≤ 0xD7) := by
  induction fuel with
  | zero => intro d d' bytes h; simp [segments] at h
  | succ fuel ih =>
    intro d d' bytes h
    unfold segments at h
    split at h
    · rename_i fuel' d m rest hfuel
      cases hfuel
      by_cases hm : m = 0xD9
      · rw [if_pos hm] at h
        split at h
        · rename_i hr
          subst hm
          refine ⟨?_, _, _, rfl, by decide⟩
          rw [hr.1]
          rfl
        · cases h
      · rw [if_neg hm] at h
        split at h
        · rename_i l1 l0 rest
          dsimp only at h
          split at h
          · cases h
          · rename_i hlen
            split at h
            · rename_i hda
              obtain ⟨⟨d1, rest'⟩, hscan, hseg⟩ := Option.bind_eq_some_iff.mp h
              obtain ⟨h1, c, r, h2, h3⟩ := ih hseg
              simp only at h1 h2
              subst h2
              refine ⟨?_, _, _, rfl, by rw [hda]; decide⟩
              rw [skipSegments, if_neg hm]
              dsimp only
              rw [if_neg hlen, if_pos hda]
              unfold decodeScan at hscan
              obtain ⟨f, -, hscan⟩ := Option.bind_eq_some_iff.mp hscan
              obtain ⟨s, -, hscan⟩ := Option.bind_eq_some_iff.mp hscan
              split at hscan
              · obtain ⟨⟨m', r'⟩, hint, hscan⟩ := Option.bind_eq_some_iff.mp hscan
                have hr := (Prod.mk.inj (Option.some.inj hscan)).2
                subst hr
                rw [decodeIntervals_skip _ _ hint h3]
                exact h1
              · cases hscan
            · rename_i hda
              obtain ⟨d1, happ, hseg⟩ := Option.bind_eq_some_iff.mp h
              obtain ⟨h1, -⟩ := ih hseg
              refine ⟨?_, _, _, rfl, fun hr => ?_⟩
              · rw [skipSegments, if_neg hm]
                dsimp only
                rw [if_neg hlen, if_neg hda]
                exact h1
              · rw [applySegment_rst hr] at happ
                cases happ
        · cases h
    · cases h

/-- A file the decoder accepts is one complete image for a reader that only skips. -/
theorem decode_skip {strict : Bool} {bytes : List UInt8} {d : Dec} (h : decode strict bytes = some d) : afterImage bytes = some [] := by
  unfold decode at h
  split at h
  · exact (segments_skip _ _ _ h).1
  · cases h

end Spec

namespace Jpeg
open _root_.Spec

theorem IoWrite.All.err_short {σ : Type} {io : IoWrite σ} {s s' : σ} {buf acc : Bytes} {r : R Unit} (h : io.All s buf acc s' r) :
    ∀ e, r = .error (.err e) → acc.length < buf.length := by
  induction h with
  | finished => intro e he; cases he
  | zero hb _ => intro e _; exact List.length_pos_iff.mpr hb
  | @some s s' s'' buf acc n r _ _ _ hn _ ih =>
    intro e he
    have := ih e he
    rw [List.length_append, List.length_take, List.length_drop] at *
    omega
  | more => intro e he; cases he
  | interrupted _ _ _ ih => exact ih
  | failed hb _ => intro e _; exact List.length_pos_iff.mpr hb

/-- No answer of the writer exceeds what it was given. -/
def IoWrite.Honest {σ : Type} (io : IoWrite σ) : Prop := ∀ s buf n, buf ≠ [] → (io.write s buf).2 = .wrote n → n ≤ buf.length

theorem IoWrite.All.no_panic {σ : Type} {io : IoWrite σ} (hio : io.Honest) {s s' : σ} {buf acc : Bytes} {r : R Unit} (h : io.All s buf acc s' r) :
    ∀ k, r ≠ .error (.panic k) := by
  induction h with
  | finished => intro e he; cases he
  | zero => intro e he; cases he
  | some _ _ _ _ _ ih => exact ih
  | @more s s' buf n hb hw hn =>
    have := hio s buf n hb (by rw [hw])
    omega
  | interrupted _ _ _ ih => exact ih
  | failed => intro e he; cases he

/-- With an honest writer either everything was accepted, or something is missing and the result is an error of the writer. -/
theorem IoWrite.Runs.missing {σ : Type} {io : IoWrite σ} (hio : io.Honest) {p : Prog (R Unit)} (hp : p.Strict) {s s' : σ} {acc : Bytes} {r : R Unit}
    (h : io.Runs p s acc s' r) : (acc = p.exec.1 ∧ r = p.exec.2) ∨ (acc.length < p.exec.1.length ∧ ∃ e, r = .error (.err e)) := by
  induction h with
  | done a s => simp [Prog.exec]
  | ok hw _ ih =>
    rw [hw.accepted.2.1 rfl]
    simp only [Prog.exec, List.length_append]
    rcases ih hp.2 with ⟨rfl, h2⟩ | ⟨h1, h2⟩
    · exact Or.inl ⟨rfl, h2⟩
    · exact Or.inr ⟨by omega, h2⟩
  | @err c acc acc' k s s' s'' e r hw hk _ =>
    right
    have hd := hp.1 e
    rw [hd] at hk
    cases hk
    have := hw.err_short e rfl
    simp only [Prog.exec, List.append_nil, List.length_append]
    exact ⟨by omega, e, rfl⟩
  | panic hw => exact absurd rfl (hw.no_panic hio _)

/-- C83: an initial part of the output of a successful call is the whole output exactly if a reader that skips segments by their lengths finds its end; otherwise such
a reader, and every decoder, sees that something is missing. -/
theorem C83_judged {f acc : Bytes} (h : IsOutput f) (hp : acc <+: f) : (acc = f ↔ afterImage acc = some []) ∧
    (acc ≠ f → afterImage acc = none ∧ ∀ strict, decode strict acc = none) := by
  have hfull : afterImage f = some [] := by
    have := C51_self_delimiting h []
    rwa [List.append_nil] at this
  have hcut : acc ≠ f → afterImage acc = none := by
    intro hne
    have hl : acc.length < f.length := lt_of_le_of_ne hp.length_le fun he => hne (hp.eq_of_length he)
    have := C51_truncation_detected h hl
    rwa [← List.prefix_iff_eq_take.mp hp] at this
  refine ⟨⟨fun he => he ▸ hfull, fun ha => ?_⟩, fun hne => ⟨hcut hne, fun strict => ?_⟩⟩
  · by_contra hne
    rw [hcut hne] at ha
    cases ha
  · cases hd : decode strict acc with
    | none => rfl
    | some d =>
      have := decode_skip hd
      rw [hcut hne] at this
      cases this

section
variable {pf : Platform} (hpf : pf.Valid) {q : UInt8} {calls : List Spec.Call} {e : Encoder} (hc : Configured pf q calls e) {simd : Bool} {p : Prog (R Unit)}
  (hp : Spec.AnyCall pf simd e p) {f : Bytes} (hf : p.run vecSink [] = (f, .ok ()))
include hpf hc hp hf

/-- C83: for every `io::Write` (that does not claim to have accepted more than it was given): the call returns `Ok` exactly if what was accepted is a complete
image, and otherwise it returns an error and what was accepted can be seen to be incomplete. -/
theorem C83_result {σ : Type} {io : IoWrite σ} (hio : io.Honest) {s s' : σ} {acc : Bytes} {r : R Unit} (h : io.Runs p s acc s' r) :
    (r = .ok () ↔ afterImage acc = some []) ∧
    (r ≠ .ok () → (∃ x, r = .error (.err x)) ∧ afterImage acc = none ∧ ∀ strict, decode strict acc = none) := by
  have hex : p.exec = (f, .ok ()) := by
    rw [Prog.run_vec, List.nil_append] at hf
    exact hf
  have hpre := (C78_initial_part hp h).1
  rw [hf] at hpre
  have hj := C83_judged (.of_call hpf hc hp hf) hpre
  rcases h.missing hio hp.strict with ⟨h1, h2⟩ | ⟨h1, x, h2⟩
  · rw [hex] at h1 h2
    simp only at h1 h2
    subst h2
    exact ⟨⟨fun _ => hj.1.mp h1, fun _ => rfl⟩, fun hr => absurd rfl hr⟩
  · rw [hex] at h1
    have hne : acc ≠ f := by rintro rfl; exact absurd h1 (lt_irrefl _)
    have hc := hj.2 hne
    subst h2
    refine ⟨⟨fun hr => (by cases hr), fun ha => ?_⟩, fun _ => ⟨⟨x, rfl⟩, hc⟩⟩
    rw [hc.1] at ha
    cases ha

/-- C83: if a decoder accepts the output (as it does in the cases of C01 - C03), it accepts what the writer has got exactly if the call returns `Ok`. -/
theorem C83_decodable {strict : Bool} (hd : (decode strict f).isSome) {σ : Type} {io : IoWrite σ} (hio : io.Honest) {s s' : σ} {acc : Bytes} {r : R Unit}
    (h : io.Runs p s acc s' r) : r = .ok () ↔ (decode strict acc).isSome := by
  have hpre := (C78_initial_part hp h).1
  rw [hf] at hpre
  have hr := C83_result hpf hc hp hf hio h
  have hj := C83_judged (.of_call hpf hc hp hf) hpre
  constructor
  · intro h1
    rw [hj.1.mpr (hr.1.mp h1)]
    exact hd
  · intro h1
    by_contra hne
    rw [(hr.2 hne).2.2 strict] at h1
    cases h1

/-- C83 for `Encoder::new_file`: `Ok` does not mean that the file is complete (C45), but the file tells: whatever the operating system did, the file is the complete
output exactly if the reader finds the end of the image in it. -/
theorem C83_new_file (answers : List Answer) : ((encodeToFile p answers).1 = f ↔ afterImage (encodeToFile p answers).1 = some []) ∧
    ((encodeToFile p answers).1 ≠ f → afterImage (encodeToFile p answers).1 = none ∧ ∀ strict, decode strict (encodeToFile p answers).1 = none) := by
  have h := C45_initial_part hp answers
  rw [hf] at h
  exact C83_judged (.of_call hpf hc hp hf) h

end

-- The hypotheses of C83: an RGB image with restart markers, the output of a debug build.
example : ∃ e p f, Configured ⟨true, 8⟩ 80 [.setRestartInterval 1] e ∧ Spec.AnyCall ⟨true, 8⟩ true e p ∧ p.run vecSink [] = (f, .ok ()) ∧ (decode true f).isSome ∧ sliceWrite.Honest ∧ stutter.Honest := by
  obtain ⟨e, h1, h2⟩ := reachable_exists ⟨true, 8⟩ 80 [.setRestartInterval 1] (by decide)
  have ho : e.getOptimizedHuffmanTables = false := by rw [h2.optimized]; rfl
  have hp := Spec.EncodeCall.data (pf := ⟨true, 8⟩) (simd := true) (e := e) [7, 8, 9, 250, 251, 252] 2 1 .rgb (by decide) (by unfold Spec.SliceOk; decide)
  have hs : Spec.Supported ⟨true, 8⟩ true e .ycbcr 2 1 (Spec.samplesOf .rgb [7, 8, 9, 250, 251, 252] 2) := ⟨by decide, by decide, Or.inl rfl, Or.inl ho⟩
  have h8 : Spec.EightBit e.getQuantizationTables := by
    intro t ht
    rw [h2.quant] at ht
    rcases ht with h | h <;> cases h
  have hst : ScansFine true e := by
    intro _ n hn
    rw [h2.scans] at hn; cases hn
  obtain ⟨f, d, hw, hd, -⟩ := C32_frame_header (by decide) h1 hp hs h8 hst
  have hw' : (e.encode ⟨true, 8⟩ true [7, 8, 9, 250, 251, 252] 2 1 .rgb).run vecSink [] = (f, .ok ()) := hw []
  refine ⟨e, _, f, h1, .encode .., hw', by rw [hd]; rfl, ?_, ?_⟩
  · intro s buf n hb h
    have := slice_write s.1 s.2 buf
    rw [show (s.1, s.2) = s from rfl] at this
    rw [this] at h
    cases h
    omega
  · intro s buf n hb h
    obtain ⟨a, b⟩ := s
    cases b with
    | true =>
      simp only [stutter, if_true] at h
      cases h
      exact List.length_pos_iff.mpr hb
    | false => simp [stutter] at h

end Jpeg
