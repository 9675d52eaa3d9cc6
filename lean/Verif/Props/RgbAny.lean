import Verif.Props.Rgb
import Mathlib.Analysis.Real.Sqrt
/-! C61: error of RGB pixels at any quality and with any tables. -/
namespace Spec

/-- Root of the mean squared error that quantisation by a table may cause in a block (C42). -/
noncomputable def rmsBound (simd : Bool) (table : List Nat) : ℝ :=
  Real.sqrt ((∑ k ∈ Finset.range 64, (quantError (table.getD k 0) + (if simd then 3.75 else 2.75) / 8) ^ 2) / 64)

end Spec

namespace Jpeg
open _root_.Spec

theorem rmsBound_pos (simd : Bool) (table : List Nat) : 0 < rmsBound simd table := by
  unfold rmsBound
  apply Real.sqrt_pos.mpr
  apply div_pos _ (by norm_num)
  refine Finset.sum_pos (fun k _ => ?_) ⟨0, by simp⟩
  have : 0 ≤ quantError (table.getD k 0) := by
    unfold quantError
    split <;> positivity
  have : (0 : ℝ) < (if simd then 3.75 else 2.75) / 8 := by cases simd <;> norm_num
  positivity

theorem rmsBound_sq (simd : Bool) (table : List Nat) : rmsBound simd table ^ 2 * 64 = ∑ k ∈ Finset.range 64, (quantError (table.getD k 0) + (if simd then 3.75 else 2.75) / 8) ^ 2 := by
  unfold rmsBound
  rw [Real.sq_sqrt (div_nonneg (Finset.sum_nonneg fun _ _ => sq_nonneg _) (by norm_num))]
  ring

/-- The error of a colour channel from those of Y, Cb, Cr (`a`, `b`, `c`) and of the conversion (`d`). -/
theorem channel_error' {a b c d : Nat → Nat → ℝ} {m n k A C : ℝ} (hk : 0 < k) (hA : 0 < A) (hC : 0 < C)
    (ha : blockSum (fun y x => a y x ^ 2) ≤ A ^ 2 * 64) (hb : blockSum (fun y x => b y x ^ 2) ≤ C ^ 2 * 64)
    (hc : blockSum (fun y x => c y x ^ 2) ≤ C ^ 2 * 64) (hd : ∀ y x, |d y x| ≤ k) :
    blockSum (fun y x => (a y x + m * b y x + n * c y x + d y x) ^ 2) / 64 ≤ (A + (|m| + |n|) * C + k) ^ 2 := by
  have hm := abs_nonneg m
  have hn := abs_nonneg n
  rw [div_le_iff₀ (by norm_num)]
  have hS : 0 ≤ A + (|m| + |n|) * C + k := by positivity
  have hpt : ∀ y x, (a y x + m * b y x + n * c y x + d y x) ^ 2 ≤
      (A + (|m| + |n|) * C + k) / A * a y x ^ 2 + (A + (|m| + |n|) * C + k) * |m| / C * b y x ^ 2 +
        (A + (|m| + |n|) * C + k) * |n| / C * c y x ^ 2 + (A + (|m| + |n|) * C + k) * k := by
    intro y x
    have h1 := jensen4 (|a y x| / A) (|b y x| / C) (|c y x| / C) (|d y x| / k) A (C * |m|) (C * |n|) k hA.le (by positivity) (by positivity) hk.le
    have h2 : (a y x + m * b y x + n * c y x + d y x) ^ 2 ≤ (A * (|a y x| / A) + C * |m| * (|b y x| / C) + C * |n| * (|c y x| / C) + k * (|d y x| / k)) ^ 2 := by
      have e : A * (|a y x| / A) + C * |m| * (|b y x| / C) + C * |n| * (|c y x| / C) + k * (|d y x| / k) =
          |a y x| + |m| * |b y x| + |n| * |c y x| + |d y x| := by
        field_simp
      rw [e, ← sq_abs (a y x + m * b y x + n * c y x + d y x)]
      apply pow_le_pow_left₀ (abs_nonneg _)
      have := abs_add_le (a y x + m * b y x + n * c y x) (d y x)
      have := abs_add_le (a y x + m * b y x) (n * c y x)
      have := abs_add_le (a y x) (m * b y x)
      rw [abs_mul] at *
      linarith
    have h3 : k * (|d y x| / k) ^ 2 ≤ k := by
      have h4 : |d y x| / k ≤ 1 := by rw [div_le_one hk]; exact hd y x
      have h5 : 0 ≤ |d y x| / k := by positivity
      have h6 : (|d y x| / k) ^ 2 ≤ 1 := by nlinarith
      nlinarith
    refine h2.trans (h1.trans ?_)
    have e2 : (A + C * |m| + C * |n| + k) = A + (|m| + |n|) * C + k := by ring
    rw [e2]
    have h7 := mul_le_mul_of_nonneg_left h3 hS
    simp only [div_pow, sq_abs] at h7 ⊢
    refine le_trans (le_of_eq ?_) (add_le_add_right h7 ((A + (|m| + |n|) * C + k) / A * a y x ^ 2 + (A + (|m| + |n|) * C + k) * |m| / C * b y x ^ 2 +
        (A + (|m| + |n|) * C + k) * |n| / C * c y x ^ 2))
    field_simp
  refine (blockSum_le hpt).trans ?_
  rw [blockSum_lin (fun y x => a y x ^ 2) (fun y x => b y x ^ 2) (fun y x => c y x ^ 2)]
  generalize blockSum (fun y x => a y x ^ 2) = SA at *
  generalize blockSum (fun y x => b y x ^ 2) = SB at *
  generalize blockSum (fun y x => c y x ^ 2) = SC at *
  generalize hT : A + (|m| + |n|) * C + k = T at *
  have h1 : T / A * SA ≤ T / A * (A ^ 2 * 64) := mul_le_mul_of_nonneg_left ha (by positivity)
  have h2 : T * |m| / C * SB ≤ T * |m| / C * (C ^ 2 * 64) := mul_le_mul_of_nonneg_left hb (by positivity)
  have h3 : T * |n| / C * SC ≤ T * |n| / C * (C ^ 2 * 64) := mul_le_mul_of_nonneg_left hc (by positivity)
  have h4 : T / A * (A ^ 2 * 64) + T * |m| / C * (C ^ 2 * 64) + T * |n| / C * (C ^ 2 * 64) + 64 * (T * k) = T ^ 2 * 64 := by
    rw [← hT]
    field_simp
    ring
  linarith

/-- The errors of red, green and blue from those of Y, Cb and Cr. -/
theorem rgb_block {A C : ℝ} (hA : 0 < A) (hC : 0 < C) (r g b : Nat → Nat → UInt8) (Y Cb Cr : Nat → Nat → ℝ)
    (h0 : blockSum (fun y x => (Y y x - (Spec.ycc (r y x) (g y x) (b y x) 0).toNat) ^ 2) ≤ A ^ 2 * 64)
    (h1 : blockSum (fun y x => (Cb y x - (Spec.ycc (r y x) (g y x) (b y x) 1).toNat) ^ 2) ≤ C ^ 2 * 64)
    (h2 : blockSum (fun y x => (Cr y x - (Spec.ycc (r y x) (g y x) (b y x) 2).toNat) ^ 2) ≤ C ^ 2 * 64) :
    blockMse (fun y x => jfifRed (Y y x) (Cr y x)) (fun y x => (r y x).toNat) ≤ (A + 1.402 * C + 1.22) ^ 2 ∧
    blockMse (fun y x => jfifGreen (Y y x) (Cb y x) (Cr y x)) (fun y x => (g y x).toNat) ≤ (A + 1.05828 * C + 1.04) ^ 2 ∧
    blockMse (fun y x => jfifBlue (Y y x) (Cb y x)) (fun y x => (b y x).toNat) ≤ (A + 1.772 * C + 1.4) ^ 2 := by
  have hinv := fun y x => ycc_inverse (r y x) (g y x) (b y x)
  refine ⟨?_, ?_, ?_⟩
  · refine le_trans (le_of_eq ?_) ((channel_error' (m := 0) (n := 1.402) (k := 1.22) (by norm_num) hA hC h0 h1 h2 (fun y x => (hinv y x).1)).trans ?_)
    · unfold blockMse blockSum
      congr 1
      refine Finset.sum_congr rfl fun y _ => Finset.sum_congr rfl fun x _ => ?_
      congr 1
      simp only [jfifRed]
      ring
    · rw [abs_of_nonneg (show (0 : ℝ) ≤ 1.402 by norm_num), abs_zero]; apply le_of_eq; ring
  · refine le_trans (le_of_eq ?_) ((channel_error' (m := -0.34414) (n := -0.71414) (k := 1.04) (by norm_num) hA hC h0 h1 h2 (fun y x => (hinv y x).2.1)).trans ?_)
    · unfold blockMse blockSum
      congr 1
      refine Finset.sum_congr rfl fun y _ => Finset.sum_congr rfl fun x _ => ?_
      congr 1
      simp only [jfifGreen]
      ring
    · rw [abs_neg, abs_neg, abs_of_nonneg (show (0 : ℝ) ≤ 0.34414 by norm_num), abs_of_nonneg (show (0 : ℝ) ≤ 0.71414 by norm_num)]; apply le_of_eq; ring
  · refine le_trans (le_of_eq ?_) ((channel_error' (m := 1.772) (n := 0) (k := 1.4) (by norm_num) hA hC h0 h1 h2 (fun y x => (hinv y x).2.2)).trans ?_)
    · unfold blockMse blockSum
      congr 1
      refine Finset.sum_congr rfl fun y _ => Finset.sum_congr rfl fun x _ => ?_
      congr 1
      simp only [jfifBlue]
      ring
    · rw [abs_of_nonneg (show (0 : ℝ) ≤ 1.772 by norm_num), abs_zero]; apply le_of_eq; ring

/-- C61: without chroma subsampling, at every quality and with all tables of 8 bit: decoding the file by the book (exact inverse DCT, the conversion
of JFIF) gives red, green and blue whose root mean squared errors in every block of the image are bounded by a combination of what the
luma table and the chroma table in the file allow, plus the rounding of the colour conversion. -/
theorem C61_rgb_error {pf : Platform} (hpf : pf.Valid) {q : UInt8} {calls : List Spec.Call} {e : Encoder} (hc : Configured pf q calls e)
    {simd : Bool} {data : Bytes} {w h : UInt16} {ct : ColorType} (hrgb : Spec.HasRgb ct)
    (hlen : w.toNat * h.toNat * ct.bytesPerPixel ≤ data.length) (hsl : Spec.SliceOk pf data)
    (hs : Spec.Supported pf simd e .ycbcr w h (Spec.samplesOf ct data w.toNat)) {strict : Bool} (hst : ScansFine strict e)
    (h8 : Spec.EightBit e.getQuantizationTables)
    (hfac : e.getSamplingFactor.factors = (1, 1)) :
    Spec.Encodes (e.encode pf simd data w h ct) strict fun _ d => ∃ luma chroma, d.qts 0 = some luma ∧ d.qts 1 = some chroma ∧
      ∀ by_ bx, 8 * by_ < h.toNat → 8 * bx < w.toNat →
        let Y := reconstructed luma (d.coefs 0 by_ bx)
        let Cb := reconstructed chroma (d.coefs 1 by_ bx)
        let Cr := reconstructed chroma (d.coefs 2 by_ bx)
        let pixel := fun y x => Spec.rgbAt ct data w.toNat (min (8 * by_ + y) (h.toNat - 1)) (min (8 * bx + x) (w.toNat - 1))
        blockMse (fun y x => jfifRed (Y y x) (Cr y x)) (fun y x => (pixel y x).1.toNat) ≤ (rmsBound simd luma + 1.402 * rmsBound simd chroma + 1.22) ^ 2 ∧
        blockMse (fun y x => jfifGreen (Y y x) (Cb y x) (Cr y x)) (fun y x => (pixel y x).2.1.toNat) ≤ (rmsBound simd luma + 1.05828 * rmsBound simd chroma + 1.04) ^ 2 ∧
        blockMse (fun y x => jfifBlue (Y y x) (Cb y x)) (fun y x => (pixel y x).2.2.toNat) ≤ (rmsBound simd luma + 1.772 * rmsBound simd chroma + 1.4) ^ 2 := by
  have hfc : Spec.fileColor ct = .ycbcr := by rcases hrgb with rfl | rfl | rfl | rfl <;> rfl
  have hp : Spec.EncodeCall pf simd e (e.encode pf simd data w h ct) .ycbcr w h (Spec.samplesOf ct data w.toNat) := by
    rw [← hfc]; exact .data data w h ct hlen hsl
  refine ((C42_reconstruction_error hpf hc hp hs h8 hst).and (C32_frame_header hpf hc hp hs h8 hst)).mono ?_
  rintro _ d ⟨⟨f, hf, hall⟩, -, -, -, hframe⟩
  rw [Spec.HasFrame, hf, hfac] at hframe
  have hframe := Option.some.inj hframe
  subst hframe
  obtain ⟨t0, ht0, -, h0⟩ := hall 0 ⟨0, 1, 1, 0⟩ rfl
  obtain ⟨t1, ht1, -, h1⟩ := hall 1 ⟨1, 1, 1, 1⟩ rfl
  obtain ⟨t2, ht2, -, h2⟩ := hall 2 ⟨2, 1, 1, 1⟩ rfl
  rw [ht1] at ht2
  cases ht2
  refine ⟨t0, t1, ht0, ht1, fun by_ bx hby hbx => ?_⟩
  have hbh : ∀ c, by_ < Frame.blocksHigh ⟨e.getProgressiveScans.isSome, h.toNat, w.toNat, Spec.expectedComps 1 1 .ycbcr⟩ ⟨c, 1, 1, if c = 0 then 0 else 1⟩ := by
    intro c
    simp only [Frame.blocksHigh, Frame.vmax, Spec.expectedComps, List.map_cons, List.map_nil, List.foldl_cons, List.foldl_nil, _root_.Spec.ceilDiv]
    norm_num
    omega
  have hbw : ∀ c, bx < Frame.blocksWide ⟨e.getProgressiveScans.isSome, h.toNat, w.toNat, Spec.expectedComps 1 1 .ycbcr⟩ ⟨c, 1, 1, if c = 0 then 0 else 1⟩ := by
    intro c
    simp only [Frame.blocksWide, Frame.hmax, Spec.expectedComps, List.map_cons, List.map_nil, List.foldl_cons, List.foldl_nil, _root_.Spec.ceilDiv]
    norm_num
    omega
  have h0 := h0 by_ bx (hbh 0) (hbw 0)
  have h1 := h1 by_ bx (hbh 1) (hbw 1)
  have h2 := h2 by_ bx (hbh 2) (hbw 2)
  have hv : Frame.vmax ⟨e.getProgressiveScans.isSome, h.toNat, w.toNat, Spec.expectedComps 1 1 .ycbcr⟩ = 1 := rfl
  have hh : Frame.hmax ⟨e.getProgressiveScans.isSome, h.toNat, w.toNat, Spec.expectedComps 1 1 .ycbcr⟩ = 1 := rfl
  simp only [hv, hh, Nat.div_self Nat.one_pos, Nat.mul_one, samplesOf_rgb hrgb, ← rmsBound_sq] at h0 h1 h2
  intro Y Cb Cr pixel
  exact rgb_block (rmsBound_pos simd t0) (rmsBound_pos simd t1) (fun y x => (pixel y x).1) (fun y x => (pixel y x).2.1) (fun y x => (pixel y x).2.2) Y Cb Cr h0 h1 h2

-- a configuration that satisfies the hypotheses of C61: quality 50 and a custom table
example : ∃ e, Configured ⟨true, 8⟩ 50 [.setSamplingFactor .R_4_4_4, .setProgressive true, .setQuantizationTables (.custom (Vector.replicate 64 10)) .flat] e
    ∧ Platform.Valid ⟨true, 8⟩ ∧ Spec.HasRgb .bgra ∧
    Spec.Supported ⟨true, 8⟩ true e .ycbcr 1 1 (Spec.samplesOf .bgra [1, 2, 3, 4] 1) ∧ ScansFine true e ∧
    Spec.SliceOk ⟨true, 8⟩ [1, 2, 3, 4] ∧ (1 : UInt16).toNat * (1 : UInt16).toNat * ColorType.bgra.bytesPerPixel ≤ [1, 2, 3, 4].length ∧
    Spec.EightBit e.getQuantizationTables ∧ e.getSamplingFactor.factors = (1, 1) := by
  obtain ⟨e, h1, h2⟩ := reachable_exists ⟨true, 8⟩ 50 [.setSamplingFactor .R_4_4_4, .setProgressive true, .setQuantizationTables (.custom (Vector.replicate 64 10)) .flat] (by decide)
  have hq : e.getQuantizationTables = (.custom (Vector.replicate 64 10), .flat) := by
    rw [h2.quant]; rfl
  refine ⟨e, h1, by decide, by unfold Spec.HasRgb; decide, ⟨by decide, by decide, Or.inl rfl, Or.inl ?_⟩, ?_, by unfold Spec.SliceOk; decide, by decide, ?_, ?_⟩
  · rw [h2.optimized]; rfl
  · intro _ n hn
    rw [h2.scans] at hn; cases hn; decide
  · intro t ht
    rw [hq] at ht
    rcases ht with h | h
    · cases h
      decide
    · cases h
  · rw [h2.sampling]; decide

-- for a table of steps 10 the bound of the luma error is below 7.2
example : rmsBound false (List.replicate 64 10) < 7.2 := by
  unfold rmsBound
  rw [Real.sqrt_lt' (by norm_num)]
  have : quantError 10 = 20 / 3 := by
    unfold quantError
    rw [if_neg]
    · norm_num
    · rintro ⟨j, hj⟩
      rcases Nat.lt_or_ge j 4 with h | h
      · interval_cases j <;> omega
      · have := Nat.pow_le_pow_right (n := 2) (by norm_num) h
        omega
  have h2 : ∀ k ∈ Finset.range 64, (quantError ((List.replicate 64 10).getD k 0) + (if false = true then 3.75 else 2.75) / 8) ^ 2 = (20 / 3 + 2.75 / 8) ^ 2 := by
    intro k hk
    rw [Finset.mem_range] at hk
    rw [show (List.replicate 64 10).getD k 0 = 10 by rw [List.getD, List.getElem?_replicate, if_pos hk]; rfl, this]
    simp
  rw [Finset.sum_congr rfl h2, Finset.sum_const, Finset.card_range]
  norm_num

end Jpeg
