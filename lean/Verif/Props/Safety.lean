import Verif.Proofs.SafeEncode
import Verif.Proofs.Formats
import Verif.Proofs.SafeImages
import Verif.Proofs.Ends
import Verif.Props.Api
import Verif.Props.Witness32
import Verif.Props.RoundTrip
import Verif.Spec.File

/-! C53: no undefined behaviour. C54: every call ends.

The model reports an out-of-bounds raw read or an overlong raw write of the AVX2 code (`_mm256_i32gather_epi32`
on the pixel slice, `set_len` after a raw copy into a `Vec`) as `panic .ub`. -/
namespace Jpeg.Spec

/-- The call has defined behaviour, whatever the writer does (including failing at any write). -/
def NoUb (p : Prog (R Unit)) : Prop := ∀ (σ : Type) (S : Sink σ) (w : σ), (p.run S w).2 ≠ .error (.panic .ub)

/-- The call ends, whatever the writer does (including failing at any write). -/
def Terminates (p : Prog (R Unit)) : Prop := ∀ (σ : Type) (S : Sink σ) (w : σ), (p.run S w).2 ≠ .error .diverge

end Jpeg.Spec

namespace Jpeg

theorem lax_noUb : Lax (· ≠ .panic .ub) := ⟨fun _ h => by simpa using h⟩

/-- `encode` has defined behaviour for every encoder, every pixel slice (of any length), every size and color type, with and
without SIMD and with any writer, provided that `width * height * bytes_per_pixel` does not overflow a `usize`. -/
theorem C53_encode {pf : Platform} (hpf : pf.Valid) (simd : Bool) (e : Encoder) {data : Bytes} (hs : Spec.SliceOk pf data) (w h : UInt16) (ct : ColorType)
    (hfit : w.toNat * h.toNat * ct.bytesPerPixel < 2 ^ pf.wordBits) : Spec.NoUb (e.encode pf simd data w h ct) := by
  intro σ S out
  by_cases hz : w = 0 ∨ h = 0
  · rw [C15_zero_dimension_rejected pf simd e data w h ct hz S out]
    simp
  by_cases hlen : data.length < w.toNat * h.toNat * ct.bytesPerPixel
  · rw [C15_short_data_rejected pf simd e data w h ct hfit hlen S out]
    simp
  rw [C15_enough_data_accepted pf simd e data w h ct hfit (by omega)]
  have hd := delivers_builtin (pf := pf) (data := data) (w := w) (h := h) (ct := ct) simd (by omega) hs
  obtain ⟨h1, h2⟩ := imageFor_width pf simd data w h ct
  have hw : w.toNat ≠ 0 := fun h => hz (Or.inl (UInt16.toNat_inj.mp (by simpa using h)))
  have hh : h.toNat ≠ 0 := fun h => hz (Or.inr (UInt16.toNat_inj.mp (by simpa using h)))
  have hsize : (w.toNat + 31) * (h.toNat + 31) < 2 ^ pf.wordBits := by
    have hb : 1 ≤ ct.bytesPerPixel := by cases ct <;> decide
    have hle : w.toNat * h.toNat ≤ data.length := le_trans (Nat.le_mul_of_pos_right _ hb) (by omega)
    have hw' := w.toNat_lt
    have hh' := h.toNat_lt
    have hexp : (w.toNat + 31) * (h.toNat + 31) = w.toNat * h.toNat + 31 * w.toNat + 31 * h.toNat + 961 := by ring
    unfold Spec.SliceOk at hs
    rcases hpf with hp | hp <;> simp only [Platform.wordBits, hp] at hs ⊢
    · omega
    · have : w.toNat * h.toNat ≤ 65535 * 65535 := Nat.mul_le_mul (by omega) (by omega)
      omega
  have key := (encodeImageInternal_only (A := (· ≠ .panic .ub)) lax_noUb hpf simd e (fun _ => by simp)
    (FillFine.of_delivers hpf hd (by rw [h1]; exact hw) (by rw [h2]; exact hh) e.samplingFactor (by rw [h1, h2]; exact hsize))
    (fun _ _ _ _ b _ _ _ => optimizeIf_loose lax_noUb (by simp) _ b)).run hpf S (fun _ _ _ _ => by simp) out
  intro hr
  exact key _ hr rfl

/-- `encode_image` has defined behaviour for every encoder and every image buffer whose own `fill_buffers` has. -/
theorem C53_encode_image {pf : Platform} (hpf : pf.Valid) (simd : Bool) (e : Encoder) {image : ImageBuffer}
    (hf : ∀ y rows, image.fillBuffers y rows ≠ .error (.panic .ub)) : Spec.NoUb (e.encodeImage pf simd image) := by
  intro σ S out hr
  have key := (encodeImageInternal_only (A := (· ≠ .panic .ub)) lax_noUb hpf simd e (fun _ => by simp) (image := image)
    (FillFine.of_safe lax_noUb pf (fun y r f hf' => by rintro rfl; exact hf y r hf') _)
    (fun _ _ _ _ b _ _ _ => optimizeIf_loose lax_noUb (by simp) _ b)).run hpf S (fun _ _ _ _ => by simp) out
  exact key _ hr rfl

/-- Without SIMD there is no undefined behaviour at all (the crate has no `unsafe` code then), whatever the size is. -/
theorem C53_scalar {pf : Platform} (hpf : pf.Valid) (e : Encoder) (data : Bytes) (w h : UInt16) (ct : ColorType) : Spec.NoUb (e.encode pf false data w h ct) := by
  intro σ S out
  unfold Encoder.encode
  have hreq : ROnly (· ≠ .panic .ub) (requiredLen pf w h ct) := by
    unfold requiredLen
    exact (ckUsize_only lax_noUb _ _).bind fun _ => ckUsize_only lax_noUb _ _
  cases hr : requiredLen pf w h ct with
  | error f => exact fun h => hreq f hr (by simpa [Prog.run] using h)
  | ok n =>
    dsimp only
    split
    · simp [Prog.run]
    · exact C53_encode_image hpf false e (fun y r h => imageFor_only lax_noUb data w _ ct y r _ h rfl) σ S out

/-- Without the bound on the size it is false: `C16_false_simd`. -/
theorem C53_bound_needed : ∃ e : Encoder, ¬ Spec.NoUb (e.encode ⟨false, 4⟩ true [] 32768 32768 .rgba) := by
  have h := C16_false_simd
  cases he : Encoder.new ⟨false, 4⟩ 90 with
  | error f => rw [he] at h; cases h
  | ok e =>
    rw [he] at h
    exact ⟨e, fun hn => hn _ vecSink [] (Except.ok.inj h)⟩

theorem lax_ends : Lax (· ≠ .diverge) := ⟨fun _ _ => by simp⟩

/-- `encode_image` ends for every configuration, every image buffer whose own `fill_buffers` ends and every writer, in debug and in
release builds. -/
theorem C54_encode_image {pf : Platform} (hpf : pf.Valid) {q : UInt8} {calls : List Spec.Call} {e : Encoder} (hc : Configured pf q calls e) (simd : Bool)
    {image : ImageBuffer} (hf : ∀ y rows, image.fillBuffers y rows ≠ .error .diverge) : Spec.Terminates (e.encodeImage pf simd image) := by
  intro σ S out hr
  have hop := opOk_for simd
  unfold opsFor at hop
  have key := (encodeImageInternal_only (A := (· ≠ .diverge)) lax_ends hpf simd e (fun _ => by simp) (image := image)
    (FillFine.of_safe lax_ends pf (fun y r f hf' => by rintro rfl; exact hf y r hf') _)
    (fun hw hh q0 q1 b h0 h1 hb => optimizeIf_ends lax_ends hpf hc.wf.scans hw hh hop h0 h1 hb)).run hpf S (fun _ _ _ _ => by simp) out
  exact key _ hr rfl

/-- `encode` ends for every configuration, pixel slice, size, color type and writer, in debug and in release builds. -/
theorem C54_encode {pf : Platform} (hpf : pf.Valid) {q : UInt8} {calls : List Spec.Call} {e : Encoder} (hc : Configured pf q calls e) (simd : Bool)
    (data : Bytes) (w h : UInt16) (ct : ColorType) : Spec.Terminates (e.encode pf simd data w h ct) := by
  intro σ S out
  unfold Encoder.encode
  have hreq : ROnly (· ≠ .diverge) (requiredLen pf w h ct) := by
    unfold requiredLen
    exact (ckUsize_only lax_ends _ _).bind fun _ => ckUsize_only lax_ends _ _
  cases hr : requiredLen pf w h ct with
  | error f => exact fun h => hreq f hr (by simpa [Prog.run] using h)
  | ok n =>
    dsimp only
    split
    · simp [Prog.run]
    · exact C54_encode_image hpf hc simd (fun y r h => imageFor_loose lax_ends (by simp) simd data w _ ct y r _ h rfl) σ S out

/-- A progressive encoder with optimised tables and a restart interval, an image of 65535 x 65535 pixels in a slice that is too short or not. -/
example (pf : Platform) (hpf : pf.Valid) (data : Bytes) : ∃ e, Configured pf 80 [.setProgressive true, .setOptimizedHuffmanTables true, .setRestartInterval 7] e ∧
    Spec.Terminates (e.encode pf true data 65535 65535 .rgb) := by
  obtain ⟨e, he, -⟩ := reachable_exists pf 80 [.setProgressive true, .setOptimizedHuffmanTables true, .setRestartInterval 7] (by decide)
  exact ⟨e, he, C54_encode hpf he true data 65535 65535 .rgb⟩

/-- Only one byte of data for a 200 x 100 image; a slice of a realistic size; a buffer that panics. -/
example (e : Encoder) : Spec.NoUb (e.encode ⟨false, 8⟩ true [7] 200 100 .bgra) :=
  C53_encode (by decide) true e (by unfold Spec.SliceOk; decide) 200 100 .bgra (by decide)

example (e : Encoder) : Spec.NoUb (e.encode ⟨true, 4⟩ true (List.replicate 60000 0) 200 100 .rgb) :=
  C53_encode (by decide) true e (by rw [Spec.SliceOk, List.length_replicate]; decide) 200 100 .rgb (by decide)

example (e : Encoder) : Spec.NoUb (e.encodeImage ⟨true, 8⟩ true ⟨.luma, 9, 9, fun _ _ => .error (.panic .index)⟩) :=
  C53_encode_image (by decide) true e (fun _ _ => by simp)

end Jpeg
