import Verif.Spec.Cmyk
import Verif.Props.RgbAny
/-! C71: CMYK inks survive, up to the error of quantisation. -/
namespace Jpeg
open _root_.Spec

/-- Errors of an inverted plane. -/
theorem ink_block {A : ℝ} (s : Nat → Nat → ℝ) (k : Nat → Nat → UInt8)
    (h : blockSum (fun y x => (s y x - (255 - k y x).toNat) ^ 2) ≤ A ^ 2 * 64) :
    blockMse (fun y x => 255 - s y x) (fun y x => (k y x).toNat) ≤ A ^ 2 := by
  unfold blockMse
  rw [div_le_iff₀ (by norm_num)]
  refine le_trans (le_of_eq ?_) h
  unfold blockSum
  refine Finset.sum_congr rfl fun y _ => Finset.sum_congr rfl fun x _ => ?_
  have : ((255 - k y x : UInt8).toNat : ℝ) = 255 - (k y x).toNat := by
    have h1 : (255 - k y x : UInt8).toNat = 255 - (k y x).toNat := by
      rw [UInt8.toNat_sub_of_le _ _ (by rw [UInt8.le_iff_toNat_le]; have := (k y x).toNat_lt; simp; omega)]
      rfl
    have h2 : (k y x).toNat ≤ 255 := by have := (k y x).toNat_lt; omega
    rw [h1, Nat.cast_sub h2]; norm_num
  beta_reduce
  rw [this]
  ring

section
variable {pf : Platform} (hpf : pf.Valid) {q : UInt8} {calls : List Spec.Call} {e : Encoder} (hc : Configured pf q calls e)
  {simd : Bool} {data : Bytes} {w h : UInt16} (hlen : w.toNat * h.toNat * 4 ≤ data.length) (hsl : Spec.SliceOk pf data)
  {strict : Bool} (hst : ScansFine strict e) (h8 : Spec.EightBit e.getQuantizationTables) (hfac : e.getSamplingFactor.factors = (1, 1))
include hpf hc hlen hsl hst h8 hfac

/-- C71: CMYK pixels encoded as CMYK, without subsampling: a decoder that follows the convention of Adobe files gets inks whose root mean
squared errors in every block are at most what the tables in the file allow (C, M, Y: table 1; K: table 0). -/
theorem C71_cmyk (hs : Spec.Supported pf simd e .cmyk w h (Spec.samplesOf .cmyk data w.toNat)) :
    Spec.Encodes (e.encode pf simd data w h .cmyk) strict fun _ d => ∃ transform luma chroma,
      d.apps.findSome? Spec.adobeTransform = some transform ∧ d.qts 0 = some luma ∧ d.qts 1 = some chroma ∧
      ∀ by_ bx, 8 * by_ < h.toNat → 8 * bx < w.toNat →
        let sample := fun y x c => reconstructed (if c = 3 then luma else chroma) (d.coefs c by_ bx) y x
        let ink := fun c y x => ((Spec.inkAt data w.toNat (min (8 * by_ + y) (h.toNat - 1)) (min (8 * bx + x) (w.toNat - 1)) c).toNat : ℝ)
        (∀ c, c < 3 → blockMse (fun y x => Spec.adobeInk transform (sample y x) c) (ink c) ≤ rmsBound simd chroma ^ 2) ∧
        blockMse (fun y x => Spec.adobeInk transform (sample y x) 3) (ink 3) ≤ rmsBound simd luma ^ 2 := by
  have hp : Spec.EncodeCall pf simd e (e.encode pf simd data w h .cmyk) .cmyk w h (Spec.samplesOf .cmyk data w.toNat) :=
    .data data w h .cmyk hlen hsl
  refine (((C42_reconstruction_error hpf hc hp hs h8 hst).and (C32_frame_header hpf hc hp hs h8 hst)).and
    (C36_adobe hpf hc hp hs h8 hst (fun h => by cases h))).mono ?_
  rintro _ d ⟨⟨⟨f, hf, hall⟩, -, -, -, hframe⟩, hadobe, -⟩
  rw [Spec.HasFrame, hf, hfac] at hframe
  have hframe := Option.some.inj hframe
  subst hframe
  obtain ⟨t1, ht1, -, h0⟩ := hall 0 ⟨0, 1, 1, 1⟩ rfl
  obtain ⟨t1', ht1', -, h1⟩ := hall 1 ⟨1, 1, 1, 1⟩ rfl
  obtain ⟨t1'', ht1'', -, h2⟩ := hall 2 ⟨2, 1, 1, 1⟩ rfl
  obtain ⟨t0, ht0, -, h3⟩ := hall 3 ⟨3, 1, 1, 0⟩ rfl
  rw [ht1] at ht1' ht1''
  cases ht1'; cases ht1''
  refine ⟨0, t0, t1, hadobe, ht0, ht1, fun by_ bx hby hbx => ?_⟩
  have hbh : ∀ c t, by_ < Frame.blocksHigh ⟨e.getProgressiveScans.isSome, h.toNat, w.toNat, Spec.expectedComps 1 1 .cmyk⟩ ⟨c, 1, 1, t⟩ := by
    intro c t
    simp only [Frame.blocksHigh, Frame.vmax, Spec.expectedComps, List.map_cons, List.map_nil, List.foldl_cons, List.foldl_nil, _root_.Spec.ceilDiv]
    norm_num
    omega
  have hbw : ∀ c t, bx < Frame.blocksWide ⟨e.getProgressiveScans.isSome, h.toNat, w.toNat, Spec.expectedComps 1 1 .cmyk⟩ ⟨c, 1, 1, t⟩ := by
    intro c t
    simp only [Frame.blocksWide, Frame.hmax, Spec.expectedComps, List.map_cons, List.map_nil, List.foldl_cons, List.foldl_nil, _root_.Spec.ceilDiv]
    norm_num
    omega
  have h0 := h0 by_ bx (hbh 0 1) (hbw 0 1)
  have h1 := h1 by_ bx (hbh 1 1) (hbw 1 1)
  have h2 := h2 by_ bx (hbh 2 1) (hbw 2 1)
  have h3 := h3 by_ bx (hbh 3 0) (hbw 3 0)
  have hv : Frame.vmax ⟨e.getProgressiveScans.isSome, h.toNat, w.toNat, Spec.expectedComps 1 1 .cmyk⟩ = 1 := rfl
  have hh : Frame.hmax ⟨e.getProgressiveScans.isSome, h.toNat, w.toNat, Spec.expectedComps 1 1 .cmyk⟩ = 1 := rfl
  simp only [hv, hh, Nat.div_self Nat.one_pos, Nat.mul_one, ← rmsBound_sq] at h0 h1 h2 h3
  intro sample ink
  refine ⟨fun c hc3 => ?_, ink_block (fun y x => sample y x 3) (fun y x => Spec.inkAt data w.toNat (min (8 * by_ + y) (h.toNat - 1)) (min (8 * bx + x) (w.toNat - 1)) 3) h3⟩
  refine ink_block (fun y x => sample y x c) (fun y x => Spec.inkAt data w.toNat (min (8 * by_ + y) (h.toNat - 1)) (min (8 * bx + x) (w.toNat - 1)) c) ?_
  have : c = 0 ∨ c = 1 ∨ c = 2 := by omega
  rcases this with rfl | rfl | rfl
  · exact h0
  · exact h1
  · exact h2

/-- C71: CMYK pixels encoded as YCCK, without subsampling: the same decoder gets black with the error allowed by table 0, and the other inks with
errors like those of RGB pixels (C61). -/
theorem C71_cmyk_as_ycck (hs : Spec.Supported pf simd e .ycck w h (Spec.samplesOf .cmykAsYcck data w.toNat)) :
    Spec.Encodes (e.encode pf simd data w h .cmykAsYcck) strict fun _ d => ∃ transform luma chroma,
      d.apps.findSome? Spec.adobeTransform = some transform ∧ d.qts 0 = some luma ∧ d.qts 1 = some chroma ∧
      ∀ by_ bx, 8 * by_ < h.toNat → 8 * bx < w.toNat →
        let sample := fun y x c => reconstructed (if c = 0 ∨ c = 3 then luma else chroma) (d.coefs c by_ bx) y x
        let ink := fun c y x => ((Spec.inkAt data w.toNat (min (8 * by_ + y) (h.toNat - 1)) (min (8 * bx + x) (w.toNat - 1)) c).toNat : ℝ)
        blockMse (fun y x => Spec.adobeInk transform (sample y x) 0) (ink 0) ≤ (rmsBound simd luma + 1.402 * rmsBound simd chroma + 1.22) ^ 2 ∧
        blockMse (fun y x => Spec.adobeInk transform (sample y x) 1) (ink 1) ≤ (rmsBound simd luma + 1.05828 * rmsBound simd chroma + 1.04) ^ 2 ∧
        blockMse (fun y x => Spec.adobeInk transform (sample y x) 2) (ink 2) ≤ (rmsBound simd luma + 1.772 * rmsBound simd chroma + 1.4) ^ 2 ∧
        blockMse (fun y x => Spec.adobeInk transform (sample y x) 3) (ink 3) ≤ rmsBound simd luma ^ 2 := by
  have hp : Spec.EncodeCall pf simd e (e.encode pf simd data w h .cmykAsYcck) .ycck w h (Spec.samplesOf .cmykAsYcck data w.toNat) :=
    .data data w h .cmykAsYcck hlen hsl
  refine (((C42_reconstruction_error hpf hc hp hs h8 hst).and (C32_frame_header hpf hc hp hs h8 hst)).and
    (C36_adobe hpf hc hp hs h8 hst (fun h => by cases h))).mono ?_
  rintro _ d ⟨⟨⟨f, hf, hall⟩, -, -, -, hframe⟩, hadobe, -⟩
  rw [Spec.HasFrame, hf, hfac] at hframe
  have hframe := Option.some.inj hframe
  subst hframe
  obtain ⟨t0, ht0, -, h0⟩ := hall 0 ⟨0, 1, 1, 0⟩ rfl
  obtain ⟨t1, ht1, -, h1⟩ := hall 1 ⟨1, 1, 1, 1⟩ rfl
  obtain ⟨t1', ht1', -, h2⟩ := hall 2 ⟨2, 1, 1, 1⟩ rfl
  obtain ⟨t0', ht0', -, h3⟩ := hall 3 ⟨3, 1, 1, 0⟩ rfl
  rw [ht1] at ht1'
  rw [ht0] at ht0'
  cases ht1'; cases ht0'
  refine ⟨2, t0, t1, hadobe, ht0, ht1, fun by_ bx hby hbx => ?_⟩
  have hbh : ∀ c t, by_ < Frame.blocksHigh ⟨e.getProgressiveScans.isSome, h.toNat, w.toNat, Spec.expectedComps 1 1 .ycck⟩ ⟨c, 1, 1, t⟩ := by
    intro c t
    simp only [Frame.blocksHigh, Frame.vmax, Spec.expectedComps, List.map_cons, List.map_nil, List.foldl_cons, List.foldl_nil, _root_.Spec.ceilDiv]
    norm_num
    omega
  have hbw : ∀ c t, bx < Frame.blocksWide ⟨e.getProgressiveScans.isSome, h.toNat, w.toNat, Spec.expectedComps 1 1 .ycck⟩ ⟨c, 1, 1, t⟩ := by
    intro c t
    simp only [Frame.blocksWide, Frame.hmax, Spec.expectedComps, List.map_cons, List.map_nil, List.foldl_cons, List.foldl_nil, _root_.Spec.ceilDiv]
    norm_num
    omega
  have h0 := h0 by_ bx (hbh 0 0) (hbw 0 0)
  have h1 := h1 by_ bx (hbh 1 1) (hbw 1 1)
  have h2 := h2 by_ bx (hbh 2 1) (hbw 2 1)
  have h3 := h3 by_ bx (hbh 3 0) (hbw 3 0)
  have hv : Frame.vmax ⟨e.getProgressiveScans.isSome, h.toNat, w.toNat, Spec.expectedComps 1 1 .ycck⟩ = 1 := rfl
  have hh : Frame.hmax ⟨e.getProgressiveScans.isSome, h.toNat, w.toNat, Spec.expectedComps 1 1 .ycck⟩ = 1 := rfl
  simp only [hv, hh, Nat.div_self Nat.one_pos, Nat.mul_one, ← rmsBound_sq] at h0 h1 h2 h3
  intro sample ink
  have key := rgb_block (rmsBound_pos simd t0) (rmsBound_pos simd t1)
    (fun y x => Spec.inkAt data w.toNat (min (8 * by_ + y) (h.toNat - 1)) (min (8 * bx + x) (w.toNat - 1)) 0)
    (fun y x => Spec.inkAt data w.toNat (min (8 * by_ + y) (h.toNat - 1)) (min (8 * bx + x) (w.toNat - 1)) 1)
    (fun y x => Spec.inkAt data w.toNat (min (8 * by_ + y) (h.toNat - 1)) (min (8 * bx + x) (w.toNat - 1)) 2)
    (fun y x => sample y x 0) (fun y x => sample y x 1) (fun y x => sample y x 2) h0 h1 h2
  refine ⟨?_, ?_, ?_, ink_block (fun y x => sample y x 3) (fun y x => Spec.inkAt data w.toNat (min (8 * by_ + y) (h.toNat - 1)) (min (8 * bx + x) (w.toNat - 1)) 3) h3⟩
  · simpa only [Spec.adobeInk, if_true, sub_sub_cancel] using key.1
  · simpa only [Spec.adobeInk, if_true, sub_sub_cancel] using key.2.1
  · simpa only [Spec.adobeInk, if_true, sub_sub_cancel] using key.2.2

end

-- a configuration that satisfies the hypotheses of C71, for both formats
example : ∃ e, Configured ⟨true, 8⟩ 70 [.setProgressive true, .setSamplingFactor .R_4_4_4] e ∧ Platform.Valid ⟨true, 8⟩ ∧
    (2 : UInt16).toNat * (1 : UInt16).toNat * 4 ≤ [0, 50, 100, 255, 1, 2, 3, 4].length ∧ Spec.SliceOk ⟨true, 8⟩ [0, 50, 100, 255, 1, 2, 3, 4] ∧
    ScansFine true e ∧ Spec.EightBit e.getQuantizationTables ∧ e.getSamplingFactor.factors = (1, 1) ∧
    Spec.Supported ⟨true, 8⟩ true e .cmyk 2 1 (Spec.samplesOf .cmyk [0, 50, 100, 255, 1, 2, 3, 4] 2) ∧
    Spec.Supported ⟨true, 8⟩ true e .ycck 2 1 (Spec.samplesOf .cmykAsYcck [0, 50, 100, 255, 1, 2, 3, 4] 2) := by
  obtain ⟨e, h1, h2⟩ := reachable_exists ⟨true, 8⟩ 70 [.setProgressive true, .setSamplingFactor .R_4_4_4] (by decide)
  have hq : e.getQuantizationTables = (.default, .default) := by
    rw [h2.quant]; rfl
  have ho : e.getOptimizedHuffmanTables = false := by rw [h2.optimized]; rfl
  refine ⟨e, h1, by decide, by decide, by unfold Spec.SliceOk; decide, ?_, ?_, ?_, ⟨by decide, by decide, Or.inl rfl, Or.inl ho⟩,
    ⟨by decide, by decide, Or.inl rfl, Or.inl ho⟩⟩
  · intro _ n hn
    rw [h2.scans] at hn; cases hn; decide
  · intro t ht
    rw [hq] at ht
    rcases ht with h | h <;> cases h
  · rw [h2.sampling]; decide

/-- C19: the rows of a CMYK image are stored inverted: line `y` appends `255 - ink` for each of its pixels, to the buffer of each of the four
components. -/
theorem C19_cmyk_inverted {pf : Platform} (simd : Bool) {data : Bytes} {w h : UInt16} (hlen : w.toNat * h.toNat * 4 ≤ data.length) (hsl : Spec.SliceOk pf data)
    {y : Nat} (hy : y < h.toNat) (rows : Rows) (hcap : ∀ c, c < 4 → (rows.buf c).data.length + w.toNat ≤ (rows.buf c).cap) :
    ∃ rows', (imageFor pf simd data w h .cmyk).fillBuffers (UInt16.ofNat y) rows = .ok rows' ∧ ∀ c, c < 4 →
      (rows'.buf c).data = (rows.buf c).data ++ (List.range w.toNat).map fun x => 255 - data.getD ((y * w.toNat + x) * 4 + c) 0 := by
  refine ⟨_, delivers_builtin (ct := .cmyk) simd hlen hsl y hy rows hcap, ?_⟩
  intro c hc
  have h4 : (imageFor pf simd data w h .cmyk).colorType.numComponents = 4 := rfl
  have hw : (imageFor pf simd data w h .cmyk).width = w := (imageFor_width pf simd data w h .cmyk).1
  interval_cases c <;> simp only [h4, hw] <;> rfl

end Jpeg
