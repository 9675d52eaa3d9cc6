import Verif.Proofs.DebugWorks
import Verif.Props.AnyImage
import Verif.Props.Refine
import Verif.Props.RoundTrip
/-! C69: debug builds (with overflow checks and `debug_assert!`) never return `Ok` without a complete and correct file. -/
namespace Jpeg
open _root_.Spec

/-- A run that succeeds on some writer does the same on a `Vec<u8>`. -/
theorem Prog.Strict.run_keeping {σ α : Type} (S : Sink σ) {p : Prog (R α)} (hp : p.Strict) (s s' : σ) (o o' : Bytes) (a : α)
    (h : p.run (Spec.keeping S) (s, o) = ((s', o'), .ok a)) : p.run vecSink o = (o', .ok a) := by
  induction p generalizing s o with
  | done r =>
    simp only [Prog.run, Prod.mk.injEq] at h ⊢
    exact ⟨h.1.2, h.2⟩
  | write c k ih =>
    simp only [Prog.run, Spec.keeping] at h ⊢
    cases hr : (S.writeAll s c).2 with
    | none =>
      simp only [hr] at h
      exact ih none hp.2 _ _ h
    | some e =>
      simp only [hr, hp.1 e, Prog.run] at h
      simp at h

section
variable {pf : Platform} (hpf : pf.Valid) (hdbg : pf.checked = true) {q : UInt8} {calls : List Spec.Call} {e : Encoder} (hc : Configured pf q calls e) (simd : Bool)
  (h8 : Spec.EightBit e.getQuantizationTables) {strict : Bool} (hst : ScansFine strict e)
include hpf hdbg hc h8 hst

/-- C69: in a debug build, whatever the settings are (restarts with optimised tables included), whatever the image buffer does and whatever the writer does: if
`encode_image` returns `Ok`, then the bytes the writer accepted are a complete JPEG file of the announced size and color type with all the configured sections. -/
theorem C69_debug_ok_means_file {ct : JpegColorType} {w h : UInt16} {σ τ : Type} (S : Sink σ) (B : LiveFill τ) (s s' : σ) (t t' : τ) (bytes : Bytes)
    (hrun : (e.encodeImageLive pf simd ct w h).run (Spec.keeping S) B (s, []) t = ((s', bytes), t', .ok ())) :
    ∃ d, decode strict bytes = some d ∧
      bytes.take 2 = [0xFF, 0xD8] ∧ bytes.drop (bytes.length - 2) = [0xFF, 0xD9] ∧
      Spec.HasFrame e.getProgressiveScans.isSome e.getSamplingFactor.factors ct w h d ∧
      d.markers = Spec.wantedMarkers calls e ct ∧ d.scans.length = Spec.scanCount e ct ∧
      ∃ jfif adobe, d.apps = (0, jfif) :: adobe ++ (calls.flatMap Spec.Call.segments).map (fun s => (s.1.toNat, s.2)) ∧
        Spec.readDensity jfif = some e.getDensity ∧ adobe.map Spec.adobeTransform = (Spec.wantedTransform ct).toList.map some :=
  live_file hpf hc simd h8 hst (.inl hdbg) B t t' bytes ((encodeImageLive_strict pf simd e ct w h).run_keeping S B s s' [] bytes t t' () hrun)

theorem debug_ok {image : ImageBuffer} {P : Nat → Nat → Nat → UInt8} (hd : Delivers image P) {bytes : Bytes}
    (hrun : (e.encodeImage pf simd image).run vecSink [] = (bytes, .ok ())) :
    ∃ d, decode strict bytes = some d ∧
      Spec.HasFrame e.getProgressiveScans.isSome e.getSamplingFactor.factors image.colorType image.width image.height d ∧
      Spec.HasImage pf simd e.getQuantizationTables q P d := by
  have hrun' := hrun
  change ((e.encodeImageInternal pf (opsFor simd) image).program pf).run vecSink [] = _ at hrun
  rw [Prog.run_vec] at hrun
  unfold WM.program at hrun
  rw [Prog.exec_bind] at hrun
  cases hx : ((e.encodeImageInternal pf (opsFor simd) image) (BitState.init pf)).exec.2 with
  | error f => rw [hx] at hrun; cases congrArg Prod.snd hrun
  | ok r =>
    obtain ⟨a, s1⟩ := r
    have hem : Emits (e.encodeImageInternal pf (opsFor simd) image) (BitState.init pf)
      ((e.encodeImageInternal pf (opsFor simd) image) (BitState.init pf)).exec.1 a s1 := Prod.ext rfl hx
    have hz : ¬ (image.width = 0 ∨ image.height = 0) := by
      intro hz
      unfold Encoder.encodeImageInternal at hx
      rw [if_pos hz] at hx
      cases hx
    rw [not_or] at hz
    obtain ⟨hfit, t, hwk⟩ := works_checked hpf hdbg hd hz.1 hz.2 hc.wf hem
    have hfile : (e.encodeImage pf simd image).run vecSink [] = (e.file (dctFn simd) image P t, .ok ()) :=
      encodeImage_run hpf hd hz.1 hz.2 hc.wf simd hfit (hwk.opt pf hpf) (hwk.cod.writable _)
    obtain rfl : e.file (dctFn simd) image P t = bytes := congrArg Prod.fst (hfile.symm.trans hrun')
    refine ⟨_, decode_file_of hz.1 hz.2 hc.wf strict hst (eightBit_steps h8) hwk.cod, decoded_frame _ _ _ _ _, ?_⟩
    have := decoded_image e image P t hc.wf (simd := simd) pf
    rwa [hc.settings.1.quality] at this

/-- C69: in a debug build, whatever the settings and the image are and whatever the writer does: if a call for an image with samples `P` returns `Ok`, then the bytes
the writer accepted decode to exactly this image (the quantised coefficients of all blocks). No condition on the settings, the image size or the memory is needed:
the cases of C10, C11 and C12 in which the encoder cannot do its work all end with a panic. -/
theorem C69_debug_ok_correct {p : Prog (R Unit)} {ct : JpegColorType} {w h : UInt16} {P : Nat → Nat → Nat → UInt8} (hp : Spec.EncodeCall pf simd e p ct w h P)
    {σ : Type} (S : Sink σ) (s s' : σ) (bytes : Bytes) (hrun : p.run (Spec.keeping S) (s, []) = ((s', bytes), .ok ())) :
    ∃ d, decode strict bytes = some d ∧
      Spec.HasFrame e.getProgressiveScans.isSome e.getSamplingFactor.factors ct w h d ∧ Spec.HasImage pf simd e.getQuantizationTables q P d := by
  obtain ⟨image, hd, rfl, rfl, rfl, rfl⟩ := hp.image_of
  exact debug_ok hpf hdbg hc simd h8 hst hd ((encodeImage_strict pf simd e image).run_keeping S s s' [] bytes () hrun)

/-- C69 for `encode` with any slice, also one that is too short: `Ok` in a debug build means that the slice was long enough and that the file is correct. -/
theorem C69_debug_encode_correct {data : Bytes} (hsl : Spec.SliceOk pf data) (w h : UInt16) (ct : ColorType) {σ : Type} (S : Sink σ) (s s' : σ) (bytes : Bytes)
    (hrun : (e.encode pf simd data w h ct).run (Spec.keeping S) (s, []) = ((s', bytes), .ok ())) :
    w.toNat * h.toNat * ct.bytesPerPixel ≤ data.length ∧
    ∃ d, decode strict bytes = some d ∧
      Spec.HasFrame e.getProgressiveScans.isSome e.getSamplingFactor.factors (Spec.fileColor ct) w h d ∧
      Spec.HasImage pf simd e.getQuantizationTables q (Spec.samplesOf ct data w.toNat) d := by
  have hlen : w.toNat * h.toNat * ct.bytesPerPixel ≤ data.length := by
    unfold Encoder.encode at hrun
    cases hr : requiredLen pf w h ct with
    | error f => rw [hr] at hrun; cases congrArg Prod.snd hrun
    | ok n =>
      rw [hr] at hrun
      dsimp only at hrun
      by_cases hn : data.length < n
      · rw [if_pos hn] at hrun
        cases congrArg Prod.snd hrun
      · unfold requiredLen ckUsize at hr
        obtain ⟨m, h1, h2⟩ := bind_inv hr
        obtain ⟨-, -, h3⟩ := ckU_inv hdbg h1
        obtain ⟨-, -, h4⟩ := ckU_inv hdbg h2
        have h5 : m = w.toNat * h.toNat := by exact_mod_cast h3
        have h6 : n = m * ct.bytesPerPixel := by exact_mod_cast h4
        rw [← h5, ← h6]
        omega
  exact ⟨hlen, C69_debug_ok_correct hpf hdbg hc simd h8 hst (.data data w h ct hlen hsl) S s s' bytes hrun⟩

end

/-- What comes of a 9x8 image with optimised tables and a restart after every block (the dangerous combination of C10): the settings, whether the record of the
bytes accepted is what the writer has, and the result. -/
def risky (data : Bytes) : R (Bool × Option UInt16 × Bool × R Unit) :=
  (Encoder.new ⟨true, 8⟩ 75).bind fun e0 =>
    let e := (e0.setOptimizedHuffmanTables true).setRestartInterval 1
    let r := (e.encode ⟨true, 8⟩ false data 9 8 .luma).run (Spec.keeping vecSink) ([], [])
    .ok (e.getOptimizedHuffmanTables, e.getRestartInterval, decide (r.1.1 = r.1.2), r.2)

-- a gray image: both restart intervals start with the same DC value as the image, so that it can be coded
example : ∃ e bytes, Configured ⟨true, 8⟩ 75 [.setOptimizedHuffmanTables true, .setRestartInterval 1] e ∧ e.getOptimizedHuffmanTables = true ∧ e.getRestartInterval = some 1 ∧
    Spec.SliceOk ⟨true, 8⟩ (List.replicate 72 128) ∧
    (e.encode ⟨true, 8⟩ false (List.replicate 72 128) 9 8 .luma).run (Spec.keeping vecSink) ([], []) = ((bytes, bytes), .ok ()) := by
  have key : risky (List.replicate 72 128) = .ok (true, some 1, true, .ok ()) := by decide +kernel
  obtain ⟨e, h1, h2⟩ := bind_inv key
  have h3 := Except.ok.inj h2
  simp only [Prod.mk.injEq, decide_eq_true_eq] at h3
  exact ⟨(e.setOptimizedHuffmanTables true).setRestartInterval 1, _, ⟨e, h1, rfl⟩, h3.1, h3.2.1, by rw [Spec.SliceOk, List.length_replicate]; decide,
    Prod.ext (Prod.ext rfl h3.2.2.1.symm) h3.2.2.2⟩

-- an image with DC values 31 and 32: the second interval starts with a symbol that has no code, and the debug build panics
example : risky (List.replicate 8 [190, 190, 190, 190, 190, 190, 190, 190, 192]).flatten = .ok (true, some 1, true, .error (.panic .debugAssert)) := by decide +kernel

end Jpeg
