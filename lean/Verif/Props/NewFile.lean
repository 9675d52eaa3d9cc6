import Verif.Proofs.NewFile
import Verif.Props.Writer
import Verif.Proofs.Tables
/-! C45: `Encoder::new_file`. -/
namespace Jpeg

/-- `encode` and `encode_image` on any encoder. -/
inductive Spec.AnyCall (pf : Platform) (simd : Bool) (e : Encoder) : Prog (R Unit) → Prop
  | encode (data : Bytes) (w h : UInt16) (ct : ColorType) : AnyCall pf simd e (e.encode pf simd data w h ct)
  | encodeImage (image : ImageBuffer) : AnyCall pf simd e (e.encodeImage pf simd image)

section
variable {pf : Platform} {simd : Bool} {e : Encoder} {p : Prog (R Unit)} (hp : Spec.AnyCall pf simd e p)
include hp

theorem Spec.AnyCall.strict : p.Strict := by
  cases hp with
  | encode => exact encode_strict ..
  | encodeImage => exact encodeImage_strict ..

/-- C45: whatever the operating system does (short writes, interruptions, errors), the file never contains anything but an initial part of
the complete output (the output into a `Vec`). -/
theorem C45_initial_part (answers : List Answer) : (encodeToFile p answers).1 <+: (p.run vecSink []).1 := by
  have h := run_file hp.strict ⟨⟨[], answers⟩, []⟩ (by simp)
  simp only [Prog.run_vec, List.nil_append]
  exact (BufWriter.drop_content _).1.trans h.1

/-- C45: if the system never fails, short writes and interruptions have no effect: the file contains the complete output, and the result is
the same. -/
theorem C45_complete {answers : List Answer} (ha : ∀ a ∈ answers, a = .interrupted ∨ ∃ n, 0 < n ∧ a = .wrote n) :
    encodeToFile p answers = p.run vecSink [] := by
  have hf : ∀ a ∈ answers, a.Fine := by
    intro a h
    rcases ha a h with rfl | ⟨n, hn, rfl⟩
    · trivial
    · exact hn
  obtain ⟨-, -, -, h⟩ := run_file hp.strict ⟨⟨[], answers⟩, []⟩ (by simp)
  obtain ⟨h1, h2, h3⟩ := h hf
  simp only [encodeToFile, Prog.run_vec, List.nil_append]
  rw [(BufWriter.drop_content _).2 h3, h1, h2]
  rfl

/-- C45: if `encode` returns `Ok`, at most the last 8192 bytes of the complete output are missing in the file. -/
theorem C45_ok {answers : List Answer} (ho : (encodeToFile p answers).2 = .ok ()) :
    ∃ lost, (encodeToFile p answers).1 ++ lost = (p.run vecSink []).1 ∧ lost.length ≤ 8192 ∧ (p.run vecSink []).2 = .ok () := by
  obtain ⟨-, h, hb, -⟩ := run_file hp.strict ⟨⟨[], answers⟩, []⟩ (by simp)
  rcases h with ⟨h1, h2⟩ | ⟨e, he⟩
  · simp only [Prog.run_vec, List.nil_append]
    refine ⟨(p.run fileSink ⟨⟨[], answers⟩, []⟩).1.flushBuf.1.buf, ?_, (BufWriter.flushBuf_length _).trans hb, ?_⟩
    · have := (BufWriter.flushBuf_all (p.run fileSink ⟨⟨[], answers⟩, []⟩).1).1
      rw [h1] at this
      exact this
    · rw [← h2]; exact ho
  · simp only [encodeToFile, he] at ho
    cases ho

/-- C45, a defect of the code: `Ok` does not mean that the file is complete, because the encoder never flushes the `BufWriter` it has created,
and dropping a `BufWriter` ignores errors. A complete output of less than 8192 bytes on a full disk: `encode` succeeds and the file is
empty. -/
theorem C45_lost (hl : (p.run vecSink []).1.length < 8192) :
    encodeToFile p [.failed "No space left on device"] = ([], (p.run vecSink []).2) := by
  simp only [Prog.run_vec, List.nil_append] at hl ⊢
  have := run_small (p := p) ⟨⟨[], [.failed "No space left on device"]⟩, []⟩ (by simpa [BufWriter.capacity] using hl)
  simp only [encodeToFile, this, List.nil_append, BufWriter.drop, BufWriter.flushBuf, pushAll]
  split <;> rfl
end

/-! ### Concrete cases -/

/-- A grey pixel, encoded into a `Vec`. -/
theorem one_pixel : (Encoder.new ⟨true, 8⟩ 75).map (fun e =>
    let r := (e.encode ⟨true, 8⟩ false [200] 1 1 .luma).run vecSink []
    (decide (0 < r.1.length ∧ r.1.length < 8192), r.2)) = .ok (true, .ok ()) := by
  decide +kernel

-- `C45_lost` applies to a real call: the output has bytes, the disk is full, the file stays empty, and the caller is told `Ok`
example : ∃ e, Encoder.new ⟨true, 8⟩ 75 = .ok e ∧ ∃ p, p = e.encode ⟨true, 8⟩ false [200] 1 1 .luma ∧ Spec.AnyCall ⟨true, 8⟩ false e p ∧
    0 < (p.run vecSink []).1.length ∧ encodeToFile p [.failed "No space left on device"] = ([], .ok ()) := by
  obtain ⟨t0, t1, -, -, he⟩ := encoder_new_ok 75
  have he := he ⟨true, 8⟩
  have h := one_pixel
  rw [he] at h
  obtain ⟨h1, h2⟩ := Prod.mk.inj (Except.ok.inj h)
  have h1 := of_decide_eq_true h1
  refine ⟨_, he, _, rfl, .encode .., h1.1, ?_⟩
  rw [C45_lost (.encode ..) h1.2, h2]

-- `C45_complete`: a system that stores a byte at a time, interrupted by signals
example : ∀ a ∈ [Answer.wrote 1, .interrupted, .wrote 1, .wrote 7, .interrupted], a = .interrupted ∨ ∃ n, 0 < n ∧ a = .wrote n := by
  intro a h
  simp only [List.mem_cons, List.not_mem_nil, or_false] at h
  rcases h with rfl | rfl | rfl | rfl | rfl <;> simp

end Jpeg
