import Verif.Props.Sections
import Verif.Props.Live
import Verif.Proofs.Checked
/-! C68: image buffers that break the contract of the trait. -/
namespace Jpeg
open _root_.Spec

section
variable {pf : Platform} (hpf : pf.Valid) {q : UInt8} {calls : List Spec.Call} {e : Encoder} (hc : Configured pf q calls e) (simd : Bool)
  {ct : JpegColorType} {w h : UInt16} (h8 : Spec.EightBit e.getQuantizationTables) {strict : Bool} (hst : ScansFine strict e)
include hpf hc h8 hst

theorem live_file (ht : pf.checked = true ∨ Spec.TablesSafe e ct w h) {τ : Type} (B : LiveFill τ) (t t' : τ) (bytes : Bytes)
    (hv : (e.encodeImageLive pf simd ct w h).run vecSink B [] t = (bytes, t', .ok ())) :
    ∃ d, decode strict bytes = some d ∧
      bytes.take 2 = [0xFF, 0xD8] ∧ bytes.drop (bytes.length - 2) = [0xFF, 0xD9] ∧
      Spec.HasFrame e.getProgressiveScans.isSome e.getSamplingFactor.factors ct w h d ∧
      d.markers = Spec.wantedMarkers calls e ct ∧ d.scans.length = Spec.scanCount e ct ∧
      ∃ jfif adobe, d.apps = (0, jfif) :: adobe ++ (calls.flatMap Spec.Call.segments).map (fun s => (s.1.toNat, s.2)) ∧
        Spec.readDensity jfif = some e.getDensity ∧ adobe.map Spec.adobeTransform = (Spec.wantedTransform ct).toList.map some := by
  by_cases hz : w = 0 ∨ h = 0
  · unfold Encoder.encodeImageLive Encoder.encodeImageInternalL at hv
    rw [if_pos hz] at hv
    simp [LM.lift, LM.wm, WM.lift, LProg.ofProg, LProg.bind, LProg.run, Except.map] at hv
  rw [not_or] at hz
  have hopt : OptimizesWell pf e ct w h := by
    rcases ht with hck | ho | ⟨h1, h2⟩
    · cases ho : e.optimizeHuffmanTable with
      | false => exact optimizesWell_off hc.wf ho ct w h
      | true => exact optimizesWell_checked hpf hck hc.wf ho hz.1 hz.2
    · exact optimizesWell_off hc.wf ho ct w h
    · cases ho : e.optimizeHuffmanTable with
      | false => exact optimizesWell_off hc.wf ho ct w h
      | true => exact optimizesWell_on hpf hc.wf ho hz.1 hz.2 h1 h2
  unfold Encoder.encodeImageLive at hv
  rw [LProg.run_bind] at hv
  cases hi : (e.encodeImageInternalL pf (opsFor simd) ct w h (BitState.init pf)).run vecSink B [] t with
  | mk out x =>
    obtain ⟨t1, r⟩ := x
    rw [show (if simd = true then avx2Operations else defaultOperations) = opsFor simd from rfl, hi] at hv
    simp only [LProg.run, Prod.mk.injEq] at hv
    cases r with
    | error x => exact absurd hv.2.2 (by simp [Except.map])
    | ok x =>
      obtain ⟨a, s1⟩ := x
      obtain ⟨o, ho, hw, hh, E, T, hcod, rfl⟩ := encodeImageInternalL_yields hpf (opOk_for simd) hc.wf hopt τ B t t1 [] out a s1 hi
      rw [List.nil_append] at ho
      have hb : bytes = e.fileWith ct w h T E := by rw [← ho]; exact hv.1.symm
      subst hb
      refine ⟨_, decode_fileWith hc.wf hw hh strict hst (eightBit_steps h8) hcod, ?_, ?_, ?_, (decodedWith_sections hc ct w h T E).1,
        (decodedWith_sections hc ct w h T E).2, jfifPayload e.density, adobeApp ct, ?_, readDensity_payload _, ?_⟩
      · simp only [Encoder.fileWith, fileBytes]; rfl
      · simp only [Encoder.fileWith, fileBytes, ← List.append_assoc]
        rw [List.length_append, List.length_cons, List.length_singleton, Nat.add_sub_cancel, List.drop_left]
      · unfold Spec.HasFrame
        rw [← mode_isProg, ← comps_expected]
        rfl
      · rw [← hc.apps]
        rfl
      · cases ct <;> decide

/-- C68: whatever an image buffer does - wrong amounts of data, changes of data delivered before, answers that depend on earlier requests or on anything else,
panics - and whatever the writer does: if `encode_image` returns `Ok`, then the bytes the writer accepted are a complete JPEG file of the announced size and
color type with all the configured sections. -/
theorem C68_ok_means_file (ht : Spec.TablesSafe e ct w h) {σ τ : Type} (S : Sink σ) (B : LiveFill τ) (s s' : σ) (t t' : τ) (bytes : Bytes)
    (hrun : (e.encodeImageLive pf simd ct w h).run (Spec.keeping S) B (s, []) t = ((s', bytes), t', .ok ())) :
    ∃ d, decode strict bytes = some d ∧
      bytes.take 2 = [0xFF, 0xD8] ∧ bytes.drop (bytes.length - 2) = [0xFF, 0xD9] ∧
      Spec.HasFrame e.getProgressiveScans.isSome e.getSamplingFactor.factors ct w h d ∧
      d.markers = Spec.wantedMarkers calls e ct ∧ d.scans.length = Spec.scanCount e ct ∧
      ∃ jfif adobe, d.apps = (0, jfif) :: adobe ++ (calls.flatMap Spec.Call.segments).map (fun s => (s.1.toNat, s.2)) ∧
        Spec.readDensity jfif = some e.getDensity ∧ adobe.map Spec.adobeTransform = (Spec.wantedTransform ct).toList.map some :=
  live_file hpf hc simd h8 hst (.inr ht) B t t' bytes ((encodeImageLive_strict pf simd e ct w h).run_keeping S B s s' [] bytes t t' () hrun)

/-- C68 for a buffer that is a function of the request (as in the other theorems), and a `Vec<u8>`. -/
theorem C68_ok_means_file_pure (ht : Spec.TablesSafe e ct w h) (f : UInt16 → Rows → R Rows) {out out' : Bytes}
    (hrun : (e.encodeImage pf simd ⟨ct, w, h, f⟩).run vecSink out = (out', .ok ())) :
    ∃ bytes, out' = out ++ bytes ∧
    ∃ d, decode strict bytes = some d ∧
      bytes.take 2 = [0xFF, 0xD8] ∧ bytes.drop (bytes.length - 2) = [0xFF, 0xD9] ∧
      Spec.HasFrame e.getProgressiveScans.isSome e.getSamplingFactor.factors ct w h d ∧
      d.markers = Spec.wantedMarkers calls e ct ∧ d.scans.length = Spec.scanCount e ct ∧
      ∃ jfif adobe, d.apps = (0, jfif) :: adobe ++ (calls.flatMap Spec.Call.segments).map (fun s => (s.1.toNat, s.2)) ∧
        Spec.readDensity jfif = some e.getDensity ∧ adobe.map Spec.adobeTransform = (Spec.wantedTransform ct).toList.map some := by
  obtain ⟨h1, -⟩ := C65_same_program pf simd e ct w h f vecSink [] ()
  rw [Prog.run_vec] at hrun h1
  obtain ⟨h2, h3⟩ := Prod.mk.inj hrun
  obtain ⟨h4, h5⟩ := Prod.mk.inj h1
  refine ⟨_, h2.symm, live_file hpf hc simd h8 hst (.inr ht) ⟨fun t y rows => (t, f y rows)⟩ () () _ (Prod.ext ?_ (Prod.ext rfl ?_))⟩
  · rw [h4]; rfl
  · rw [h5]; exact h3

end

/-- A buffer that delivers lines of changing length, with contents that depend on the number of requests so far. -/
def sloppy : LiveFill Nat :=
  ⟨fun n _ rows => (n + 1, .ok { rows with b0 := ⟨rows.b0.data ++ (List.range (9 + n % 3)).map fun i => UInt8.ofNat (i * n), 300⟩ })⟩

/-- A buffer that delivers nothing. -/
def idle : LiveFill Nat := ⟨fun n _ rows => (n + 1, .ok rows)⟩

/-- What comes of a 3x2 image: whether tables are optimised, whether the record of the bytes accepted is what the writer has, and the result. -/
def attempt (B : LiveFill Nat) : R (Bool × Bool × R Unit) :=
  (Encoder.new ⟨true, 8⟩ 75).bind fun e =>
    let r := (e.encodeImageLive ⟨true, 8⟩ false .luma 3 2).run (Spec.keeping vecSink) B ([], []) 0
    .ok (e.getOptimizedHuffmanTables, decide (r.1.1 = r.1.2), r.2.2)

-- the hypotheses of C68 can be met by a buffer that breaks the contract
example : ∃ e bytes t', Configured ⟨true, 8⟩ 75 [] e ∧ Spec.TablesSafe e .luma 3 2 ∧
    (e.encodeImageLive ⟨true, 8⟩ false .luma 3 2).run (Spec.keeping vecSink) sloppy ([], []) 0 = ((bytes, bytes), t', .ok ()) := by
  have key : attempt sloppy = .ok (false, true, .ok ()) := by decide +kernel
  obtain ⟨e, h1, h2⟩ := bind_inv key
  have h3 := Except.ok.inj h2
  simp only [Prod.mk.injEq, decide_eq_true_eq] at h3
  exact ⟨e, _, _, ⟨e, h1, rfl⟩, Or.inl h3.1, Prod.ext (Prod.ext rfl h3.2.1.symm) (Prod.ext rfl h3.2.2)⟩

-- not every buffer leads to `Ok`: here, a panic (index out of range)
example : attempt idle = .ok (false, true, .error (.panic .index)) := by decide +kernel

-- optimised tables: the largest gray images and the largest color images with chroma subsampling are small enough
example : ∃ e, Configured ⟨true, 8⟩ 75 [.setOptimizedHuffmanTables true] e ∧ Spec.TablesSafe e .luma 65535 65535 ∧ Spec.TablesSafe e .ycbcr 65535 65535 := by
  obtain ⟨e, h1, h2⟩ := reachable_exists ⟨true, 8⟩ 75 [.setOptimizedHuffmanTables true] (by decide)
  have hr : e.getRestartInterval = none := by rw [h2.restart]; decide
  have hf : ∀ ct, Spec.frameOf e ct 65535 65535 = ⟨false, 65535, 65535, Spec.expectedComps 2 2 ct⟩ := by
    intro ct
    unfold Spec.frameOf
    rw [h2.scans, h2.sampling]
    rfl
  refine ⟨e, h1, Or.inr ⟨fun n hn => absurd (hr.symm.trans hn) (by simp), fun t => ?_⟩, Or.inr ⟨fun n hn => absurd (hr.symm.trans hn) (by simp), fun t => ?_⟩⟩
  · rw [hf]
    match t with
    | 0 => decide
    | t + 1 => simp [Spec.codedBlocks, Spec.expectedComps]
  · rw [hf]
    match t with
    | 0 => decide
    | 1 => decide
    | t + 2 => simp [Spec.codedBlocks, Spec.expectedComps]

end Jpeg
