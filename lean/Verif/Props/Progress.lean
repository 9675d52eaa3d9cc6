import Verif.Proofs.Progress
import Verif.Props.Live
import Verif.Props.RoundTrip
import Verif.Props.Local
import Verif.Props.Metadata
import Verif.Spec.Progress
/-! C67: in baseline mode the file appears while the rows are read. -/
namespace Jpeg
open _root_.Spec

theorem u8_be16 (v : UInt16) : [u8 (v.toNat / 256), u8 v.toNat] = Spec.be16 v := by
  unfold u8 Spec.be16
  congr 2
  apply UInt8.toNat_inj.mp
  simp

section
variable {pf : Platform} (hpf : pf.Valid) {q : UInt8} {calls : List Spec.Call} {e : Encoder} (hc : Configured pf q calls e) (hb : Spec.Baseline e) (simd : Bool)
  {image : ImageBuffer} {P : Nat → Nat → Nat → UInt8} (hd : Delivers image P) (hw : image.width ≠ 0)
  {r : Nat} (hr : 1 ≤ r) {n : UInt16} (hn : n.toNat = r * (8 * (Spec.frameOf e image.colorType image.width image.height).vmax)) 
  {m : UInt16} (hnm : n ≤ m) (hm : m.toNat < (r + 1) * (8 * (Spec.frameOf e image.colorType image.width image.height).vmax)) (hlt : m < image.height)
include hpf hc hb hd hw hr hn hnm hm hlt

/-- C67: what a baseline encoder has written when it is about to read row `m`, one of the rows of MCU row `r`, which begins with row `n`. These bytes (`front`, height, `back`) are, with `n` in
the height field, the file of the image that consists of the rows above `n`, up to at most two machine words and the EOI marker that are missing at its end. They
are also the beginning of the file of the whole image. -/
theorem C67_streamed : ∃ front back tail : Bytes, Spec.BeforeHeight front ∧ tail.length ≤ 2 * pf.wordBytes + 2 ∧
    (∀ k, Spec.WritesThenFails (e.encodeImage pf simd (Spec.stoppingAt m k image)) (front ++ Spec.be16 image.height ++ back) (.panic k)) ∧
    Spec.Writes (e.encodeImage pf simd (Spec.topRows n image)) (front ++ Spec.be16 n ++ back ++ tail) ∧
    ∀ file, Spec.Writes (e.encodeImage pf simd image) file → front ++ Spec.be16 image.height ++ back <+: file := by
  obtain ⟨hg, -⟩ := initComponents_grid e.samplingFactor image.colorType
  have hF : Spec.frameOf e image.colorType image.width image.height = mkFrame e.mode.isProg image.width image.height (initComponents e.samplingFactor image.colorType) :=
    frameOf_eq e image
  rw [hF, frame_vmax hg _ _ _] at hn hm
  have hnm' : n.toNat ≤ m.toNat := hnm
  have hml : m.toNat < image.height.toNat := hlt
  have hlt' : n.toNat < image.height.toNat := by omega
  have hdt : Delivers (Spec.topRows n image) P := by
    intro y hy rows hrows
    exact hd y (by change y < n.toNat at hy; omega) rows hrows
  have hn0 : n ≠ 0 := by
    intro h0
    rw [h0] at hn
    have h1 := hg.mv.1
    have : 1 * (8 * 1) ≤ r * (8 * (maxSamplingSize (initComponents e.samplingFactor image.colorType)).2) := Nat.mul_le_mul hr (by omega)
    rw [← hn] at this
    exact absurd this (by decide)
  obtain ⟨front, back, fin, h1, h2, h3, h4⟩ := internal_split hpf (opOk_for simd) hdt hw hn0 hc.wf hb hn
  simp only [u8_be16] at h3 h4
  refine ⟨front, back, fin ++ [0xFF, 0xD9], h2, by rw [List.length_append]; exact Nat.add_le_add_right h1 2, fun k out => ?_, fun out => ?_, fun file hf => ?_⟩
  · have hag : ∀ y : UInt16, y.toNat < m.toNat → (Spec.stoppingAt m k image).fillBuffers y = image.fillBuffers y := by
      intro y hy
      funext rows
      change (if y < m then _ else _) = _
      rw [if_pos (show y < m from hy)]
    have hfail : ∀ y : UInt16, y.toNat = m.toNat → ∀ rows, (Spec.stoppingAt m k image).fillBuffers y rows = .error (.panic k) := by
      intro y hy rows
      change (if y < m then _ else _) = _
      rw [if_neg (show ¬ y < m from by rw [UInt16.lt_iff_toNat_lt]; omega)]
    have hw0 : image.width.toNat ≠ 0 := fun h0 => hw (UInt16.toNat_inj.mp h0)
    have hmax := image.height.toNat_lt
    have := (h4 (Spec.stoppingAt m k image) rfl rfl hlt' (fun y hy => hag y (lt_of_lt_of_le hy hnm'))).2 (.panic k) (fun bw cap D hbw hcap =>
      fillMcuRow_stops (b := Spec.stoppingAt m k image) hpf hd hw0 (by omega) rfl hfail hml hml hag (by omega) hm hbw hcap (by
        have := hg.mv
        rw [Nat.add_mul]
        omega) D)
    change ((e.encodeImageInternal pf (opsFor simd) _).program pf).run vecSink out = _
    rw [Prog.run_vec]
    unfold WM.program
    unfold Runs at this
    rw [Prog.exec_bind, this]
    simp only [Prog.exec, Except.map, List.append_nil]
    rfl
  · change ((e.encodeImageInternal pf (opsFor simd) _).program pf).run vecSink out = _
    rw [Prog.run_vec, WM.program_exec h3]
    rfl
  · obtain ⟨rest, res, h5⟩ := (h4 image rfl rfl hlt' (fun y hy => rfl)).1
    have h6 := hf []
    change ((e.encodeImageInternal pf (opsFor simd) _).program pf).run vecSink [] = _ at h6
    rw [Prog.run_vec] at h6
    unfold WM.program at h6
    unfold Runs at h5
    rw [Prog.exec_bind, h5] at h6
    have h7 := (Prod.ext_iff.mp h6).1
    simp only [Prog.exec, List.append_nil, List.nil_append] at h7
    exact ⟨rest, h7⟩

/-- C67: so every MCU row can be decoded before any row of the next one is read. Put `n` into the height field of what has been written, append the missing tail (some
bytes of the last MCUs and the EOI marker), and a decoder accepts it as an image of `n` rows, in which every block has the coefficients it has in the final file. -/
theorem C67_decodable (h8 : Spec.EightBit e.getQuantizationTables) : ∃ front back tail : Bytes, ∃ d, Spec.BeforeHeight front ∧ tail.length ≤ 2 * pf.wordBytes + 2 ∧
    (∀ k, Spec.WritesThenFails (e.encodeImage pf simd (Spec.stoppingAt m k image)) (front ++ Spec.be16 image.height ++ back) (.panic k)) ∧
    decode true (front ++ Spec.be16 n ++ back ++ tail) = some d ∧
    Spec.Encodes (e.encodeImage pf simd image) true fun file final =>
      front ++ Spec.be16 image.height ++ back <+: file ∧
      ∃ f f', d.frame = some f ∧ final.frame = some f' ∧ f' = { f with height := image.height.toNat } ∧ f.height = n.toNat ∧
        ∀ c fc, f.comps[c]? = some fc → f.blocksHigh fc = r * fc.v ∧
          ∀ by_ bx k, by_ < f.blocksHigh fc → bx < f.blocksWide fc → k < 64 → d.coefs c by_ bx k = final.coefs c by_ bx k := by
  obtain ⟨front, back, tail, h1, h2, h3, h4, h5⟩ := C67_streamed hpf hc hb simd hd hw hr hn hnm hm hlt
  have hnm' : n.toNat ≤ m.toNat := hnm
  have hml : m.toNat < image.height.toNat := hlt
  have hlt' : n.toNat < image.height.toNat := by omega
  have hdt : Delivers (Spec.topRows n image) P := by
    intro y hy rows hrows
    exact hd y (by change y < n.toNat at hy; omega) rows hrows
  obtain ⟨hg, -⟩ := initComponents_grid e.samplingFactor image.colorType
  have hF : Spec.frameOf e image.colorType image.width image.height = mkFrame e.mode.isProg image.width image.height (initComponents e.samplingFactor image.colorType) :=
    frameOf_eq e image
  have hvm : 1 ≤ (Spec.frameOf e image.colorType image.width image.height).vmax := by rw [hF, frame_vmax hg _ _ _]; exact hg.mv.1
  have hn0 : n ≠ 0 := by
    intro h0
    rw [h0] at hn
    have : 1 * (8 * 1) ≤ r * (8 * (Spec.frameOf e image.colorType image.width image.height).vmax) := Nat.mul_le_mul hr (by omega)
    rw [← hn] at this
    exact absurd this (by decide)
  have hopt : e.getOptimizedHuffmanTables = false := by
    have := hb.2.1
    simpa using this
  have hst : ScansFine true e := by intro _ m hm; rw [hb.1] at hm; cases hm
  obtain ⟨bytes, d, g1, g2, g3, ⟨f, q0, q1, gf, gq, gall⟩, -⟩ := C01_baseline_image hpf hc simd hdt
    ⟨hw, hn0, Or.inr (Or.inr hb), Or.inl hopt⟩ h8 hb
  obtain ⟨file, final, k1, k2, k3, ⟨f', q0', q1', kf, kq, kall⟩, -⟩ := C01_baseline_image hpf hc simd hd
    ⟨hw, by intro h0; rw [h0] at hlt'; simp at hlt', Or.inr (Or.inr hb), Or.inl hopt⟩ h8 hb
  have hbytes : bytes = front ++ Spec.be16 n ++ back ++ tail := by
    have := (g1 []).symm.trans (h4 [])
    exact (Prod.ext_iff.mp this).1
  rw [hbytes] at g2
  refine ⟨front, back, tail, d, h1, h2, h3, g2, file, final, k1, k2, h5 file k1, f, f', gf, kf, ?_⟩
  unfold Spec.HasFrame at g3 k3
  rw [gf] at g3
  rw [kf] at k3
  obtain rfl := Option.some.inj g3
  obtain rfl := Option.some.inj k3
  obtain rfl : q0 = q0' := by have := gq.1.symm.trans kq.1; cases this; rfl
  obtain rfl : q1 = q1' := by have := gq.2.symm.trans kq.2; cases this; rfl
  refine ⟨rfl, rfl, fun c fc hfc => ?_⟩
  have hbh : (⟨false, n.toNat, image.width.toNat, Spec.expectedComps e.getSamplingFactor.factors.1 e.getSamplingFactor.factors.2 image.colorType⟩ : Frame).blocksHigh fc =
      r * fc.v := by
    change _root_.Spec.ceilDiv (_root_.Spec.ceilDiv (n.toNat * fc.v) (Spec.frameOf e image.colorType image.width image.height).vmax) 8 = _
    generalize (Spec.frameOf e image.colorType image.width image.height).vmax = m at *
    rw [hn, show r * (8 * m) * fc.v = (r * fc.v * 8) * m by ring]
    unfold _root_.Spec.ceilDiv
    have h0 : (m - 1) / m = 0 := Nat.div_eq_of_lt (by omega)
    rw [show r * fc.v * 8 * m + m - 1 = (m - 1) + r * fc.v * 8 * m by omega, Nat.add_mul_div_right _ _ (by omega), h0]
    omega
  refine ⟨hbh, fun by_ bx k hby hbx hk => ?_⟩
  have hco := gall c fc hfc by_ bx k hby hbx hk
  have hco' := kall c fc hfc by_ bx k (by
    refine lt_of_lt_of_le hby ?_
    change _root_.Spec.ceilDiv (_root_.Spec.ceilDiv (n.toNat * fc.v) (Spec.frameOf e image.colorType image.width image.height).vmax) 8 ≤
      _root_.Spec.ceilDiv (_root_.Spec.ceilDiv (image.height.toNat * fc.v) (Spec.frameOf e image.colorType image.width image.height).vmax) 8
    unfold _root_.Spec.ceilDiv
    gcongr) hbx hk
  refine IsCoef_unique hco (Eq.mp ?_ hco')
  congr 1
  unfold Spec.blockSamples
  refine List.map_congr_left fun i hi => ?_
  have hi' := List.mem_range.mp hi
  have hpos : (8 * by_ + i / 8) * ((Spec.frameOf e image.colorType image.width image.height).vmax / fc.v) < n.toNat := by
    replace hby := hby.trans_eq hbh
    have hv : 1 ≤ fc.v := by by_contra h0; rw [show fc.v = 0 by omega] at hby; omega
    have h6 : 8 * by_ + i / 8 + 1 ≤ 8 * (r * fc.v) := by omega
    have h7 := Nat.div_mul_le_self (Spec.frameOf e image.colorType image.width image.height).vmax fc.v
    rcases Nat.eq_zero_or_pos ((Spec.frameOf e image.colorType image.width image.height).vmax / fc.v) with h0 | h0
    · rw [h0, Nat.mul_zero]
      exact Nat.pos_of_ne_zero fun h => hn0 (UInt16.toNat_inj.mp h)
    · calc _ < (8 * (r * fc.v)) * ((Spec.frameOf e image.colorType image.width image.height).vmax / fc.v) := Nat.mul_lt_mul_of_pos_right (by omega) h0
        _ = r * (8 * ((Spec.frameOf e image.colorType image.width image.height).vmax / fc.v * fc.v)) := by ring
        _ ≤ n.toNat := by rw [hn]; gcongr
  change ((P c (min ((8 * by_ + i / 8) * ((Spec.frameOf e image.colorType image.width image.height).vmax / fc.v)) (image.height.toNat - 1)) _).toNat : Int) - 128 =
    ((P c (min ((8 * by_ + i / 8) * ((Spec.frameOf e image.colorType image.width image.height).vmax / fc.v)) (n.toNat - 1)) _).toNat : Int) - 128
  rw [Nat.min_eq_left (show _ ≤ image.height.toNat - 1 by omega), Nat.min_eq_left (show _ ≤ n.toNat - 1 by omega)]
  rfl

/-- C67, for image buffers with side effects: if the buffer answers the requests for rows 0, ..., `m` - 1 and panics at the next one, the writer holds those bytes. -/
theorem C67_live {τ : Type} (B : LiveFill τ) (k : PanicKind) (seen : Nat → τ → Prop) (t : τ) (ht : seen 0 t)
    (hB : Spec.AnswersInOrder B (Spec.stoppingAt m k image).fillBuffers image.height (Spec.rowRequests e image.colorType image.width image.height) seen) :
    ∃ front back tail : Bytes, Spec.BeforeHeight front ∧ tail.length ≤ 2 * pf.wordBytes + 2 ∧
    (∀ out, ((e.encodeImageLive pf simd image.colorType image.width image.height).run vecSink B out t).1 = out ++ (front ++ Spec.be16 image.height ++ back)) ∧
    Spec.Writes (e.encodeImage pf simd (Spec.topRows n image)) (front ++ Spec.be16 n ++ back ++ tail) := by
  obtain ⟨front, back, tail, h1, h2, h3, h4, -⟩ := C67_streamed hpf hc hb simd hd hw hr hn hnm hm hlt
  refine ⟨front, back, tail, h1, h2, fun out => ?_, h4⟩
  have h5 := (C65_stream hpf simd e image.colorType image.width image.height vecSink B _ seen hB out t ht).1
  have h6 := h3 k out
  change (e.encodeImage pf simd ⟨image.colorType, image.width, image.height, (Spec.stoppingAt m k image).fillBuffers⟩).run vecSink out = _ at h6
  rw [h6] at h5
  exact (Prod.ext_iff.mp h5).1

end

/-- C67: in the other modes nothing but the leading segments is written before all rows have been read: at the request for row `m`, whichever it is, the writer
holds SOI, the JFIF and Adobe segments and the application segments. -/
theorem C67_other_modes {pf : Platform} (hpf : pf.Valid) {q : UInt8} {calls : List Spec.Call} {e : Encoder} (hc : Configured pf q calls e) (hb : ¬ Spec.Baseline e)
    (simd : Bool) {image : ImageBuffer} {P : Nat → Nat → Nat → UInt8} (hd : Delivers image P) (hw : image.width ≠ 0)
    (hmem : pf.wordBytes = 8 ∨ Spec.paddedSamples (Spec.frameOf e image.colorType image.width image.height) * 2 < 2 ^ 31) {m : UInt16} (hm : m < image.height) (k : PanicKind) :
    Spec.WritesThenFails (e.encodeImage pf simd (Spec.stoppingAt m k image)) (Spec.leader e.density image.colorType (calls.flatMap Spec.Call.segments)) (.panic k) := by
  intro out
  have hm' : m.toNat < image.height.toNat := hm
  have hw' : image.width.toNat ≠ 0 := fun h0 => hw (UInt16.toNat_inj.mp h0)
  have hh : image.height ≠ 0 := by intro h0; rw [h0] at hm'; simp at hm'
  have hag : ∀ y : UInt16, y.toNat < m.toNat → (Spec.stoppingAt m k image).fillBuffers y = image.fillBuffers y := by
    intro y hy
    funext rows
    change (if y < m then _ else _) = _
    rw [if_pos (show y < m from hy)]
  have hfail : ∀ y : UInt16, y.toNat = m.toNat → ∀ rows, (Spec.stoppingAt m k image).fillBuffers y rows = .error (.panic k) := by
    intro y hy rows
    change (if y < m then _ else _) = _
    rw [if_neg (show ¬ y < m from by rw [UInt16.lt_iff_toNat_lt]; omega)]
  have hstop := fun (e' : Encoder) (he : e'.components = initComponents e.samplingFactor image.colorType) =>
    encodeBlocks_stops hpf (b := Spec.stoppingAt m k image) hd hw' (by omega) rfl rfl hfail hm' hm' hag (opsFor simd) (mkQ e.steps0, mkQ e.steps1) (e := e')
      (he ▸ (initComponents_grid e.samplingFactor image.colorType).1) (by rw [he]; exact (initComponents_grid e.samplingFactor image.colorType).2.symm)
      (fits_of hpf hw hh hmem)
  have hbody : ((bodyOf pf simd e (Spec.stoppingAt m k image)) (BitState.init pf)).exec = ([], .error (.panic k)) := by
    have key : ∀ (f : Blocks → WM Unit) (e' : Encoder), e'.components = initComponents e.samplingFactor image.colorType →
        ((WM.lift (encodeBlocks pf e' (opsFor simd) (Spec.stoppingAt m k image) (mkQ e.steps0, mkQ e.steps1)) >>= f) >>= fun _ => writeMarker pf .eoi) (BitState.init pf) =
          .done (.error (.panic k)) := by
      intro f e' he
      rw [hstop e' he]
      rfl
    have hmo : e.mode ≠ .interleaved := fun h => hb ((baseline_mode e).mp h)
    unfold bodyOf Encoder.encodeScans
    dsimp only
    unfold Encoder.mode at hmo
    cases hp : e.progressiveScans with
    | some n =>
      dsimp only
      unfold Encoder.encodeProgressive
      rw [← hp]
      exact congrArg Prog.exec (key _ { e with components := initComponents e.samplingFactor image.colorType } rfl)
    | none =>
      rw [hp] at hmo
      dsimp only at hmo ⊢
      split
      · unfold Encoder.encodeSequential
        rw [← hp]
        exact congrArg Prog.exec (key _ { e with components := initComponents e.samplingFactor image.colorType } rfl)
      · rename_i h
        rw [if_neg h] at hmo
        exact absurd rfl hmo
  rw [Prog.run_vec, encodeImage_leader pf e simd (image := Spec.stoppingAt m k image) hw hh hc.wf.apps]
  unfold WM.program
  rw [Prog.exec_bind, hbody, hc.apps]
  simp only [Prog.exec, Except.map, List.append_nil]
  rfl

/-! ### Concrete cases -/

-- an encoder with default settings at quality 80 (4:2:0), RGB data of 20 x 40 pixels, row 20: in MCU row 1, which begins with row 16
example : ∃ e P, Configured ⟨true, 8⟩ 80 [] e ∧ Spec.Baseline e ∧ Spec.EightBit e.getQuantizationTables ∧
    Delivers (imageFor ⟨true, 8⟩ false (List.replicate 2400 7) 20 40 .rgb) P ∧
    (16 : UInt16).toNat = 1 * (8 * (Spec.frameOf e .ycbcr 20 40).vmax) ∧ (16 : UInt16) ≤ 20 ∧
    (20 : UInt16).toNat < (1 + 1) * (8 * (Spec.frameOf e .ycbcr 20 40).vmax) ∧ (20 : UInt16) < 40 := by
  obtain ⟨e, h1, h2⟩ := reachable_exists ⟨true, 8⟩ 80 [] (by decide)
  have hsf : e.getSamplingFactor = .F_2_2 := h2.sampling.trans (by decide)
  have hv : (Spec.frameOf e .ycbcr 20 40).vmax = 2 := by
    unfold Spec.frameOf
    rw [hsf]
    rfl
  refine ⟨e, _, h1, ?_, ?_, delivers_builtin false ?_ ?_, by rw [hv]; decide, by decide, by rw [hv]; decide, by decide⟩
  · have h3 : e.getProgressiveScans = none := h2.scans
    have h4 : e.getOptimizedHuffmanTables = false := h2.optimized
    exact ⟨h3, h4, by rw [hsf]; decide, by rw [hsf]; decide⟩
  · rw [h2.quant]
    intro t ht
    rcases ht with ht | ht <;> cases ht
  · rw [List.length_replicate]; decide
  · unfold Spec.SliceOk
    rw [List.length_replicate]; decide

-- a buffer that hands out rows 0, ..., 19 in order and panics at the next request meets the hypothesis of C67_live
example (image : ImageBuffer) (k : PanicKind) (total : Nat) (hh : image.height = 40) (hk : total = 48) :
    Spec.AnswersInOrder (⟨fun t y rows => (t + 1, if t < 20 then image.fillBuffers y rows else .error (.panic k))⟩ : LiveFill Nat)
      (Spec.stoppingAt 20 k image).fillBuffers image.height total (fun n t => t = n) := by
  rintro n t rows hn rfl
  refine ⟨?_, rfl⟩
  rw [hk] at hn
  change (if t < 20 then _ else _) = if Spec.rowAsked image.height t < 20 then _ else _
  have : (Spec.rowAsked image.height t < 20) ↔ t < 20 := by
    rw [UInt16.lt_iff_toNat_lt, hh]
    unfold Spec.rowAsked
    rw [UInt16.toNat_ofNat', show (40 : UInt16).toNat = 40 from rfl, show (20 : UInt16).toNat = 20 from rfl]
    omega
  simp only [this]

-- a progressive encoder meets the hypotheses of C67_other_modes
example : ∃ e P, Configured ⟨true, 8⟩ 80 [.setProgressive true] e ∧ ¬ Spec.Baseline e ∧
    Delivers (imageFor ⟨true, 8⟩ false (List.replicate 2400 7) 20 40 .rgb) P := by
  obtain ⟨e, h1, h2⟩ := reachable_exists ⟨true, 8⟩ 80 [.setProgressive true] (by decide)
  refine ⟨e, _, h1, ?_, delivers_builtin false ?_ ?_⟩
  · rintro ⟨h, -⟩
    rw [h2.scans] at h
    cases h
  · rw [List.length_replicate]; decide
  · unfold Spec.SliceOk
    rw [List.length_replicate]; decide

end Jpeg
