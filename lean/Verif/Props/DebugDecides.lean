import Verif.Props.DebugOk
import Verif.Props.Independence
import Verif.Props.Memory
/-! C13: one debug build that returns `Ok` shows what all other builds do. -/
namespace Jpeg
open _root_.Spec

theorem Fits.mono {pf pf' : Platform} (h : pf.wordBytes ≤ pf'.wordBytes) {mh mv w h' : Nat} (hf : Fits pf mh mv w h') : Fits pf' mh mv w h' := by
  unfold Fits at hf ⊢
  refine lt_of_lt_of_le hf (Nat.pow_le_pow_right (by decide) ?_)
  unfold Platform.wordBits
  omega

/-- Enough memory on `pf'` for what fits into the memory of `pf`. -/
def Spec.MemoryLike (pf pf' : Platform) (e : Encoder) (ct : JpegColorType) (w h : UInt16) : Prop :=
  pf.wordBytes ≤ pf'.wordBytes ∨ Spec.Baseline e ∨ Spec.paddedSamples (Spec.frameOf e ct w h) * 2 < 2 ^ 31

section
variable {pf : Platform} (hpf : pf.Valid) (hdbg : pf.checked = true) {q : UInt8} {calls : List Spec.Call} {e : Encoder} (hc : Configured pf q calls e) (simd : Bool)
include hpf hdbg hc

/-- C13: if `encode_image` returns `Ok` in a debug build, whatever the settings and whatever the writer, then every other build - with or without checks, on 32 or on 64 bit
machines that have enough memory - returns `Ok` as well and writes the same bytes, also if the image buffer is implemented in another way. -/
theorem C13_debug_decides {ct : JpegColorType} {w h : UInt16} {p : Prog (R Unit)} {P : Nat → Nat → Nat → UInt8} (hp : Spec.EncodeCall pf simd e p ct w h P)
    {pf' : Platform} (hpf' : pf'.Valid) {p' : Prog (R Unit)} {P' : Nat → Nat → Nat → UInt8} (hp' : Spec.EncodeCall pf' simd e p' ct w h P')
    (hsame : Spec.SamePlanes ct w h P P') (hm : Spec.MemoryLike pf pf' e ct w h)
    {σ : Type} (S : Sink σ) (s s' : σ) (bytes : Bytes) (hrun : p.run (Spec.keeping S) (s, []) = ((s', bytes), .ok ())) : Spec.Writes p' bytes := by
  obtain ⟨image, hd, rfl, rfl, rfl, rfl⟩ := hp.image_of
  obtain ⟨image', hd', rfl, hct', hw', hh'⟩ := hp'.image_of
  have hrun := (encodeImage_strict pf simd e image).run_keeping S s s' [] bytes () hrun
  have hrun' := hrun
  change ((e.encodeImageInternal pf (opsFor simd) image).program pf).run vecSink [] = _ at hrun
  rw [Prog.run_vec] at hrun
  unfold WM.program at hrun
  rw [Prog.exec_bind] at hrun
  cases hx : ((e.encodeImageInternal pf (opsFor simd) image) (BitState.init pf)).exec.2 with
  | error f => rw [hx] at hrun; cases congrArg Prod.snd hrun
  | ok r =>
    obtain ⟨a, s1⟩ := r
    have hem : Emits (e.encodeImageInternal pf (opsFor simd) image) (BitState.init pf)
      ((e.encodeImageInternal pf (opsFor simd) image) (BitState.init pf)).exec.1 a s1 := Prod.ext rfl hx
    have hz : ¬ (image.width = 0 ∨ image.height = 0) := by
      intro hz
      unfold Encoder.encodeImageInternal at hx
      rw [if_pos hz] at hx
      cases hx
    rw [not_or] at hz
    obtain ⟨hfit, t, hwk⟩ := works_checked hpf hdbg hd hz.1 hz.2 hc.wf hem
    have hfile : (e.encodeImage pf simd image).run vecSink [] = (e.file (dctFn simd) image P t, .ok ()) :=
      encodeImage_run hpf hd hz.1 hz.2 hc.wf simd hfit (hwk.opt pf hpf) (hwk.cod.writable _)
    obtain rfl : e.file (dctFn simd) image P t = bytes := congrArg Prod.fst (hfile.symm.trans hrun')
    have hfit' : Fits pf' (maxSamplingSize (initComponents e.samplingFactor image.colorType)).1 (maxSamplingSize (initComponents e.samplingFactor image.colorType)).2
        image.width.toNat image.height.toNat ∨ e.mode = .interleaved := by
      rcases hm with hm | hm | hm
      · exact hfit.imp (Fits.mono hm) id
      · exact Or.inr ((baseline_mode e).mpr hm)
      · exact Or.inl (fits_of hpf' hz.1 hz.2 (Or.inr hm))
    intro out
    have hb := blocks_congr (SameSettings.refl e) hct' hw' hh' hsame hz.1 hz.2 (dctFn simd)
    have hco := coefs_congr (SameSettings.refl e) hct' hw' hh' hsame hz.1 hz.2 (dctFn simd)
    have hcod : Codable e (dctFn simd) image' P' t := by
      refine ⟨hct' ▸ hwk.cod.tabs, ?_⟩
      rw [← hco, ← hct', ← hw', ← hh']
      exact hwk.cod.units
    have hopt : (e.atWork image'.colorType).optimizeIf pf' (e.blocks (dctFn simd) image' P') = .ok ((e.atWork image'.colorType).withTables t) := by
      rw [← hb, ← hct']
      exact hwk.opt pf' hpf'
    rw [file_congr (SameSettings.refl e) hct' hw' hh' hsame hz.1 hz.2]
    change ((e.encodeImageInternal pf' (opsFor simd) image').program pf').run vecSink out = _
    rw [Prog.run_vec, WM.program_exec (encodeImageInternal_emits hpf' (opOk_for simd) hd' (hw' ▸ hz.1) (hh' ▸ hz.2) hc.wf (by rw [← hct', ← hw', ← hh']; exact hfit') hopt (hcod.writable _))]
end

-- a gray image with optimised tables and a restart after every block, encoded by a debug build; the hypotheses hold for all builds for 64 bit machines
example (checked : Bool) : ∃ e p p' bytes, Configured ⟨true, 8⟩ 75 [.setOptimizedHuffmanTables true, .setRestartInterval 1] e ∧
    Spec.EncodeCall ⟨true, 8⟩ false e p .luma 9 8 (Spec.samplesOf .luma (List.replicate 72 128) 9) ∧
    Spec.EncodeCall ⟨checked, 8⟩ false e p' .luma 9 8 (Spec.samplesOf .luma (List.replicate 72 128) 9) ∧
    Spec.MemoryLike ⟨true, 8⟩ ⟨checked, 8⟩ e .luma 9 8 ∧ p.run (Spec.keeping vecSink) ([], []) = ((bytes, bytes), .ok ()) := by
  have key : risky (List.replicate 72 128) = .ok (true, some 1, true, .ok ()) := by decide +kernel
  obtain ⟨e, h1, h2⟩ := bind_inv key
  have h3 := Except.ok.inj h2
  simp only [Prod.mk.injEq, decide_eq_true_eq] at h3
  have hl : ∀ pf : Platform, pf.wordBytes = 8 → Spec.SliceOk pf (List.replicate 72 128) := by
    intro pf h
    rw [Spec.SliceOk, List.length_replicate, Platform.wordBits, h]; decide
  exact ⟨(e.setOptimizedHuffmanTables true).setRestartInterval 1, _, _, _, ⟨e, h1, rfl⟩, .data (List.replicate 72 128) 9 8 .luma (by rw [List.length_replicate]; decide) (hl _ rfl),
    .data (List.replicate 72 128) 9 8 .luma (by rw [List.length_replicate]; decide) (hl _ rfl), Or.inl (Nat.le_refl _), Prod.ext (Prod.ext rfl h3.2.2.1.symm) h3.2.2.2⟩

end Jpeg
