import Verif.Props.Metadata
/-! C12, a limit on 32 bit targets: large images in the modes that keep the image in memory. -/
namespace Jpeg
open Jpeg.Spec

/-- The panic that ends a call for an image that does not fit: an arithmetic overflow of the number of samples (debug builds), or `Vec::with_capacity`. -/
def tooLarge (n : Nat) : PanicKind := if n < 2 ^ 32 then .capacity else .overflow

theorem ckUsize_big {pf : Platform} (hpf : pf.wordBytes = 4) (hck : pf.checked = true) {n : Nat} (h : 2 ^ 32 ≤ n) :
    ckUsize pf (n : Int) = .error (.panic .overflow) := by
  have hbits : pf.wordBits = 32 := by simp [Platform.wordBits, hpf]
  unfold ckUsize ckU
  rw [hbits, if_neg (by rw [not_and, not_lt]; intro _; exact_mod_cast h), if_pos hck]

theorem encodeBlocks_capacity {image : ImageBuffer} {P : Nat → Nat → Nat → UInt8} (hd : Delivers image P)
    (hw : image.width.toNat ≠ 0) (hh : image.height.toNat ≠ 0) {pf : Platform} (hpf : pf.wordBytes = 4)
    (op : Operations) (q : QuantizationTable × QuantizationTable)
    {e : Encoder} {mh mv : Nat} (hg : Grid e.components mh mv) (hbig : ¬ Fits pf mh mv image.width.toNat image.height.toNat)
    (hsmall : _root_.Spec.ceilDiv image.width.toNat (8 * mh) * (8 * mh) * (_root_.Spec.ceilDiv image.height.toNat (8 * mv) * (8 * mv)) < 2 ^ 32 ∨ pf.checked = true) (hnc : image.colorType.numComponents = e.components.length) :
    encodeBlocks pf e op image q = .error (.panic (tooLarge
      (_root_.Spec.ceilDiv image.width.toNat (8 * mh) * (8 * mh) * (_root_.Spec.ceilDiv image.height.toNat (8 * mv) * (8 * mv))))) := by
  have hwl : image.width.toNat < 65536 := image.width.toNat_lt
  have hhl : image.height.toNat < 65536 := image.height.toNat_lt
  obtain ⟨wa, wb, wc⟩ := ceil_mul_lt hg.mh.1 hg.mh.2 (show 1 ≤ image.width.toNat by omega)
  obtain ⟨ha, hb, hc⟩ := ceil_mul_lt hg.mv.1 hg.mv.2 (show 1 ≤ image.height.toNat by omega)
  have hmh := hg.mh
  have hmv := hg.mv
  have hbits : pf.wordBits = 32 := by simp [Platform.wordBits, hpf]
  unfold encodeBlocks
  rw [hg.max]
  dsimp only
  rw [ceilDiv_eq (by omega), ok_bind]
  have eW : (image.width.toNat + 8 * mh - 1) / (8 * mh) = _root_.Spec.ceilDiv image.width.toNat (8 * mh) := rfl
  have eH : (image.height.toNat + 8 * mv - 1) / (8 * mv) = _root_.Spec.ceilDiv image.height.toNat (8 * mv) := rfl
  rw [eW]
  generalize hA : _root_.Spec.ceilDiv image.width.toNat (8 * mh) = A at *
  generalize hB : _root_.Spec.ceilDiv image.height.toNat (8 * mv) = B at *
  have eA : A * (8 * mh) = A * mh * 8 := by ring
  have eB : B * (8 * mv) = B * mv * 8 := by ring
  unfold Fits at hbig
  rw [hA, hB, eA, eB, hbits] at hbig
  rw [eA] at wa wb hsmall
  rw [eB] at ha hb hsmall
  have hAm : 1 ≤ A * mh := Nat.mul_pos wc hmh.1
  have hBm : 1 ≤ B * mv := Nat.mul_pos hc hmv.1
  have hAB : A * mh * (B * mv) * 64 = A * mh * 8 * (B * mv * 8) := by ring
  have hlow : 2 ^ 30 ≤ A * mh * (B * mv) * 64 := by omega
  rw [eA, eB]
  by_cases hup : A * mh * (B * mv) * 64 < 2 ^ 32
  case neg =>
    have hn : ¬ A * mh * 8 * (B * mv * 8) < 2 ^ 32 := by rw [← hAB]; exact hup
    have hck := hsmall.resolve_left hn
    rw [tooLarge, if_neg hn]
    rw [ckUsize_of_lt (by rw [hbits]; omega), ok_bind, ceilDiv_eq (by omega), ok_bind, eH, ckUsize_of_lt (by rw [hbits]; omega), ok_bind,
      show decide (A * mh > 0) = true from decide_eq_true hAm, show decide (B * mv > 0) = true from decide_eq_true hBm,
      debugAssert_true, ok_bind, ok_bind, ckUsize_of_lt (by rw [hbits]; omega), ok_bind]
    have hle : A * mh * (B * mv) < 2 ^ 32 := by
      have : A * mh * (B * mv) ≤ 8196 * 8196 := Nat.mul_le_mul (by omega) (by omega)
      omega
    rw [ckUsize_of_lt (by rw [hbits]; exact hle), ok_bind, ckUsize_big hpf hck (by omega)]
    rfl
  have hn : A * mh * 8 * (B * mv * 8) < 2 ^ 32 := by rw [← hAB]; exact hup
  rw [tooLarge, if_pos hn]
  rw [ckUsize_of_lt (by rw [hbits]; omega), ok_bind, ceilDiv_eq (by omega), ok_bind, eH, ckUsize_of_lt (by rw [hbits]; omega), ok_bind,
    show decide (A * mh > 0) = true from decide_eq_true hAm, show decide (B * mv > 0) = true from decide_eq_true hBm,
    debugAssert_true, ok_bind, ok_bind, ckUsize_of_lt (by rw [hbits]; omega), ok_bind, ckUsize_of_lt (by rw [hbits]; omega), ok_bind,
    ckUsize_of_lt (by rw [hbits]; omega), ok_bind]
  by_cases hcap : A * mh * (B * mv) * 64 < 2 ^ 31
  · rw [initRows_ok pf hg.nc (by rw [hbits]; exact hcap), ok_bind, ← hnc,
      fillLines_ok hd hw hh wa (List.range (B * mv * 8)) (fun _ => []) (by
        intro c _; simp only [List.length_nil, List.length_range]; omega), ok_bind,
      ceilDiv_eq (by omega), ok_bind, ceilDiv_eq (by omega), ok_bind]
    have e8w : (image.width.toNat + 8 - 1) / 8 = _root_.Spec.ceilDiv image.width.toNat 8 := rfl
    have e8h : (image.height.toNat + 8 - 1) / 8 = _root_.Spec.ceilDiv image.height.toNat 8 := rfl
    have p8w : 1 ≤ _root_.Spec.ceilDiv image.width.toNat 8 := by unfold _root_.Spec.ceilDiv; omega
    have p8h : 1 ≤ _root_.Spec.ceilDiv image.height.toNat 8 := by unfold _root_.Spec.ceilDiv; omega
    rw [e8w, e8h, show decide (_root_.Spec.ceilDiv image.width.toNat 8 > 0) = true from decide_eq_true p8w,
      show decide (_root_.Spec.ceilDiv image.height.toNat 8 > 0) = true from decide_eq_true p8h,
      debugAssert_true, ok_bind, ok_bind, withCapacity, if_neg (by rw [hbits]; omega)]
    rfl
  · unfold initRows withCapacity
    rw [if_neg (by rw [hbits]; omega)]
    rfl

/-- C12, a limit of the code: on a 32 bit target every image of at least 2^30 samples (with the padding to whole MCUs; and in release builds less than 2^32)
makes `encode_image` panic in the progressive mode, with optimised tables and with sampling factors above 2, after the leading part of the file was written.
(The baseline mode works, and so do smaller images, C12.) -/
theorem C12_memory_false {pf : Platform} (hpf : pf.wordBytes = 4) {q : UInt8} {calls : List Call} {e : Encoder} (hc : Configured pf q calls e) (simd : Bool)
    {image : ImageBuffer} {P : Nat → Nat → Nat → UInt8} (hd : Delivers image P) (hw : image.width ≠ 0) (hh : image.height ≠ 0) (hmode : ¬ Baseline e)
    (hbig : 2 ^ 31 ≤ paddedSamples (frameOf e image.colorType image.width image.height) * 2)
    (hsmall : paddedSamples (frameOf e image.colorType image.width image.height) < 2 ^ 32 ∨ pf.checked = true) (out : Bytes) :
    (e.encodeImage pf simd image).run vecSink out = (out ++ Spec.leader e.density image.colorType (calls.flatMap Call.segments),
      .error (.panic (if paddedSamples (frameOf e image.colorType image.width image.height) < 2 ^ 32 then .capacity else .overflow))) := by
  have hw' : image.width.toNat ≠ 0 := fun h0 => hw (UInt16.toNat_inj.mp h0)
  have hh' : image.height.toNat ≠ 0 := fun h0 => hh (UInt16.toNat_inj.mp h0)
  obtain ⟨hg, hnc⟩ := initComponents_grid e.samplingFactor image.colorType
  have hpad : paddedSamples (frameOf e image.colorType image.width image.height) =
      _root_.Spec.ceilDiv image.width.toNat (8 * (maxSamplingSize (initComponents e.samplingFactor image.colorType)).1) *
        (8 * (maxSamplingSize (initComponents e.samplingFactor image.colorType)).1) *
      (_root_.Spec.ceilDiv image.height.toNat (8 * (maxSamplingSize (initComponents e.samplingFactor image.colorType)).2) *
        (8 * (maxSamplingSize (initComponents e.samplingFactor image.colorType)).2)) := by
    rw [paddedSamples, frameOf_eq, _root_.Spec.Frame.mcusWide, _root_.Spec.Frame.mcusHigh, frame_hmax hg, frame_vmax hg]
    rfl
  have hcap : ∀ e' : Encoder, e'.components = initComponents e.samplingFactor image.colorType →
      encodeBlocks pf e' (opsFor simd) image (mkQ e.steps0, mkQ e.steps1) =
        .error (.panic (tooLarge (paddedSamples (frameOf e image.colorType image.width image.height)))) := by
    intro e' he
    rw [hpad]
    exact encodeBlocks_capacity hd hw' hh' hpf (opsFor simd) (mkQ e.steps0, mkQ e.steps1) (e := e') (by rw [he]; exact hg)
      (by rw [Fits, ← hpad]; simp only [Platform.wordBits, hpf]; omega) (by rw [← hpad]; exact hsmall) (by rw [he]; exact hnc.symm)
  change _ = (_, Except.error (Fail.panic (tooLarge (paddedSamples (frameOf e image.colorType image.width image.height)))))
  generalize hk : tooLarge (paddedSamples (frameOf e image.colorType image.width image.height)) = k at *
  have hbody : ((bodyOf pf simd e image) (BitState.init pf)).exec = ([], .error (.panic k)) := by
    have key : ∀ (f : Blocks → WM Unit) (e' : Encoder), e'.components = initComponents e.samplingFactor image.colorType →
        ((WM.lift (encodeBlocks pf e' (opsFor simd) image (mkQ e.steps0, mkQ e.steps1)) >>= f) >>= fun _ => writeMarker pf .eoi) (BitState.init pf) =
          .done (.error (.panic k)) := by
      intro f e' he
      rw [hcap e' he]
      rfl
    have hm : e.mode ≠ .interleaved := fun h => hmode ((baseline_mode e).mp h)
    unfold bodyOf Encoder.encodeScans
    dsimp only
    unfold Encoder.mode at hm
    cases hp : e.progressiveScans with
    | some n =>
      dsimp only
      unfold Encoder.encodeProgressive
      rw [← hp]
      exact congrArg Prog.exec (key _ { e with components := initComponents e.samplingFactor image.colorType } rfl)
    | none =>
      rw [hp] at hm
      dsimp only at hm ⊢
      split
      · unfold Encoder.encodeSequential
        rw [← hp]
        exact congrArg Prog.exec (key _ { e with components := initComponents e.samplingFactor image.colorType } rfl)
      · rename_i h
        rw [if_neg h] at hm
        exact absurd rfl hm
  rw [Prog.run_vec, encodeImage_leader pf e simd hw hh hc.wf.apps]
  unfold WM.program
  rw [Prog.exec_bind, hbody, hc.apps]
  simp only [List.nil_append, Prog.exec, Except.map, List.append_nil]

/-- C12: on 32 bit targets, exactly which images can be encoded in the modes that keep the image in memory (with the built-in Huffman tables): those of less than
2^30 samples, with the padding to whole MCUs. -/
theorem C12_memory_exact {pf : Platform} (hpf : pf.wordBytes = 4) {q : UInt8} {calls : List Call} {e : Encoder} (hc : Configured pf q calls e) (simd : Bool)
    {image : ImageBuffer} {P : Nat → Nat → Nat → UInt8} (hd : Delivers image P) (hw : image.width ≠ 0) (hh : image.height ≠ 0) (hmode : ¬ Baseline e)
    (ho : e.getOptimizedHuffmanTables = false)
    (hsmall : paddedSamples (frameOf e image.colorType image.width image.height) < 2 ^ 32 ∨ pf.checked = true) :
    (∃ bytes, Writes (e.encodeImage pf simd image) bytes) ↔ paddedSamples (frameOf e image.colorType image.width image.height) < 2 ^ 30 := by
  constructor
  · rintro ⟨bytes, h⟩
    by_contra hn
    have h1 := h []
    rw [C12_memory_false hpf hc simd hd hw hh hmode (by omega) hsmall] at h1
    cases congrArg Prod.snd h1
  · intro hlt
    have hs : Supported pf simd e image.colorType image.width image.height P := ⟨hw, hh, Or.inr (Or.inl (by omega)), Or.inl ho⟩
    obtain ⟨t, ht⟩ := hs.works hc.wf
    exact ⟨_, encode_run (Or.inl hpf) hd hc.wf hs ht⟩

-- a progressive encoder and 40000 x 40000 pixels in a slice of the usual kind meet the conditions
example : ∃ e P, Configured ⟨false, 4⟩ 80 [.setProgressive true] e ∧ ¬ Baseline e ∧
    Delivers (imageFor ⟨false, 4⟩ false (List.replicate (40000 * 40000) 7) 40000 40000 .luma) P ∧
    2 ^ 31 ≤ paddedSamples (frameOf e .luma 40000 40000) * 2 ∧ paddedSamples (frameOf e .luma 40000 40000) < 2 ^ 32 := by
  obtain ⟨e, h1, h2⟩ := reachable_exists ⟨false, 4⟩ 80 [.setProgressive true] (by decide)
  have hf : frameOf e .luma 40000 40000 = ⟨true, 40000, 40000, expectedComps 2 2 .luma⟩ := by
    rw [frameOf, h2.scans, h2.sampling]; rfl
  refine ⟨e, _, h1, ?_, delivers_builtin false ?_ ?_, ?_, ?_⟩
  · rintro ⟨h, -⟩
    rw [h2.scans] at h
    cases h
  · rw [List.length_replicate]; decide
  · unfold SliceOk
    rw [List.length_replicate]; decide
  · rw [hf]; decide
  · rw [hf]; decide

end Jpeg
