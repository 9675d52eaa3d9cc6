import Verif.Spec.Rgb
import Verif.Props.Accuracy
import Verif.Props.Color
/-! C49: RGB pixels survive quality 100. -/
namespace Jpeg
open _root_.Spec

/-- Converting to YCbCr and back: the rounding of the three samples. -/
theorem ycc_inverse (r g b : UInt8) :
    |jfifRed (Spec.ycc r g b 0).toNat (Spec.ycc r g b 2).toNat - r.toNat| ≤ 1.22 ∧
    |jfifGreen (Spec.ycc r g b 0).toNat (Spec.ycc r g b 1).toNat (Spec.ycc r g b 2).toNat - g.toNat| ≤ 1.04 ∧
    |jfifBlue (Spec.ycc r g b 0).toNat (Spec.ycc r g b 1).toNat - b.toNat| ≤ 1.4 := by
  obtain ⟨⟨a1, a2⟩, ⟨b1, b2⟩, ⟨c1, c2⟩⟩ := ycbcrOf_range r g b
  have e1 := ofInt_toNat a1 a2
  have e2 := ofInt_toNat b1 b2
  have e3 := ofInt_toNat c1 c2
  change ((Spec.ycc r g b 0).toNat : Int) = _ at e1
  change ((Spec.ycc r g b 1).toNat : Int) = _ at e2
  change ((Spec.ycc r g b 2).toNat : Int) = _ at e3
  obtain ⟨hr0, hr1⟩ := u8_nonneg_lt r
  obtain ⟨hg0, hg1⟩ := u8_nonneg_lt g
  obtain ⟨hb0, hb1⟩ := u8_nonneg_lt b
  simp only [ycbcrOf] at e1 e2 e3
  generalize (Spec.ycc r g b 0).toNat = Y at *
  generalize (Spec.ycc r g b 1).toNat = Cb at *
  generalize (Spec.ycc r g b 2).toNat = Cr at *
  generalize r.toNat = R at *
  generalize g.toNat = G at *
  generalize b.toNat = B at *
  clear a1 a2 b1 b2 c1 c2
  have t1 : 65536 * (Y : Int) ≤ 19595 * R + 38470 * G + 7471 * B + 32767 ∧
      19595 * (R : Int) + 38470 * G + 7471 * B + 32767 < 65536 * Y + 65536 := by omega
  have t2 : 65536 * (Cb : Int) ≤ -11059 * R - 21709 * G + 32768 * B + 8388608 + 32767 ∧
      -11059 * (R : Int) - 21709 * G + 32768 * B + 8388608 + 32767 < 65536 * Cb + 65536 := by omega
  have t3 : 65536 * (Cr : Int) ≤ 32768 * R - 27439 * G - 5329 * B + 8388608 + 32767 ∧
      32768 * (R : Int) - 27439 * G - 5329 * B + 8388608 + 32767 < 65536 * Cr + 65536 := by omega
  have c1 : (0 : ℝ) ≤ R := by exact_mod_cast hr0
  have c2 : (R : ℝ) ≤ 255 := by exact_mod_cast hr1
  have c3 : (0 : ℝ) ≤ G := by exact_mod_cast hg0
  have c4 : (G : ℝ) ≤ 255 := by exact_mod_cast hg1
  have c5 : (0 : ℝ) ≤ B := by exact_mod_cast hb0
  have c6 : (B : ℝ) ≤ 255 := by exact_mod_cast hb1
  have u1 : (65536 : ℝ) * Y ≤ 19595 * R + 38470 * G + 7471 * B + 32767 := by exact_mod_cast t1.1
  have u2 : (19595 : ℝ) * R + 38470 * G + 7471 * B + 32767 < 65536 * Y + 65536 := by exact_mod_cast t1.2
  have u3 : (65536 : ℝ) * Cb ≤ -11059 * R - 21709 * G + 32768 * B + 8388608 + 32767 := by exact_mod_cast t2.1
  have u4 : (-11059 : ℝ) * R - 21709 * G + 32768 * B + 8388608 + 32767 < 65536 * Cb + 65536 := by exact_mod_cast t2.2
  have u5 : (65536 : ℝ) * Cr ≤ 32768 * R - 27439 * G - 5329 * B + 8388608 + 32767 := by exact_mod_cast t3.1
  have u6 : (32768 : ℝ) * R - 27439 * G - 5329 * B + 8388608 + 32767 < 65536 * Cr + 65536 := by exact_mod_cast t3.2
  unfold jfifRed jfifGreen jfifBlue
  refine ⟨abs_le.mpr ⟨?_, ?_⟩, abs_le.mpr ⟨?_, ?_⟩, abs_le.mpr ⟨?_, ?_⟩⟩ <;> norm_num <;> linarith

theorem jensen4 (a b c d α β γ δ : ℝ) (hα : 0 ≤ α) (hβ : 0 ≤ β) (hγ : 0 ≤ γ) (hδ : 0 ≤ δ) :
    (α * a + β * b + γ * c + δ * d) ^ 2 ≤ (α + β + γ + δ) * (α * a ^ 2 + β * b ^ 2 + γ * c ^ 2 + δ * d ^ 2) := by
  have : (α + β + γ + δ) * (α * a ^ 2 + β * b ^ 2 + γ * c ^ 2 + δ * d ^ 2) - (α * a + β * b + γ * c + δ * d) ^ 2 =
      α * β * (a - b) ^ 2 + α * γ * (a - c) ^ 2 + α * δ * (a - d) ^ 2 + β * γ * (b - c) ^ 2 + β * δ * (b - d) ^ 2 + γ * δ * (c - d) ^ 2 := by
    ring
  have h2 : 0 ≤ α * β * (a - b) ^ 2 + α * γ * (a - c) ^ 2 + α * δ * (a - d) ^ 2 + β * γ * (b - c) ^ 2 + β * δ * (b - d) ^ 2 + γ * δ * (c - d) ^ 2 := by
    positivity
  linarith

/-- Sum over a block. -/
noncomputable def blockSum (f : Nat → Nat → ℝ) : ℝ := ∑ y ∈ Finset.range 8, ∑ x ∈ Finset.range 8, f y x

theorem blockSum_le {f g : Nat → Nat → ℝ} (h : ∀ y x, f y x ≤ g y x) : blockSum f ≤ blockSum g :=
  Finset.sum_le_sum fun y _ => Finset.sum_le_sum fun x _ => h y x

theorem blockSum_lin (f g h : Nat → Nat → ℝ) (a b c k : ℝ) :
    blockSum (fun y x => a * f y x + b * g y x + c * h y x + k) = a * blockSum f + b * blockSum g + c * blockSum h + 64 * k := by
  unfold blockSum
  simp only [Finset.sum_add_distrib, Finset.mul_sum, Finset.sum_const, Finset.card_range, nsmul_eq_mul]
  push_cast
  ring

/-- The error of a colour channel from those of Y, Cb, Cr (`a`, `b`, `c`) and of the conversion (`d`). -/
theorem channel_error {a b c d : Nat → Nat → ℝ} {m n k : ℝ} (hk : 0 < k)
    (ha : blockSum (fun y x => a y x ^ 2) / 64 < 0.94) (hb : blockSum (fun y x => b y x ^ 2) / 64 < 0.94)
    (hc : blockSum (fun y x => c y x ^ 2) / 64 < 0.94) (hd : ∀ y x, |d y x| ≤ k) :
    blockSum (fun y x => (a y x + m * b y x + n * c y x + d y x) ^ 2) / 64 ≤ (0.97 * (1 + |m| + |n|) + k) ^ 2 := by
  have hm := abs_nonneg m
  have hn := abs_nonneg n
  rw [div_lt_iff₀ (by norm_num)] at ha hb hc
  rw [div_le_iff₀ (by norm_num)]
  have hS : 0 ≤ 0.97 * (1 + |m| + |n|) + k := by positivity
  have hpt : ∀ y x, (a y x + m * b y x + n * c y x + d y x) ^ 2 ≤
      (0.97 * (1 + |m| + |n|) + k) / 0.97 * a y x ^ 2 + (0.97 * (1 + |m| + |n|) + k) * |m| / 0.97 * b y x ^ 2 +
        (0.97 * (1 + |m| + |n|) + k) * |n| / 0.97 * c y x ^ 2 + (0.97 * (1 + |m| + |n|) + k) * k := by
    intro y x
    have h1 := jensen4 (|a y x| / 0.97) (|b y x| / 0.97) (|c y x| / 0.97) (|d y x| / k) 0.97 (0.97 * |m|) (0.97 * |n|) k (by norm_num) (by positivity) (by positivity) hk.le
    have h2 : (a y x + m * b y x + n * c y x + d y x) ^ 2 ≤ (0.97 * (|a y x| / 0.97) + 0.97 * |m| * (|b y x| / 0.97) + 0.97 * |n| * (|c y x| / 0.97) + k * (|d y x| / k)) ^ 2 := by
      have e : 0.97 * (|a y x| / 0.97) + 0.97 * |m| * (|b y x| / 0.97) + 0.97 * |n| * (|c y x| / 0.97) + k * (|d y x| / k) =
          |a y x| + |m| * |b y x| + |n| * |c y x| + |d y x| := by
        field_simp
      rw [e, ← sq_abs (a y x + m * b y x + n * c y x + d y x)]
      apply pow_le_pow_left₀ (abs_nonneg _)
      have := abs_add_le (a y x + m * b y x + n * c y x) (d y x)
      have := abs_add_le (a y x + m * b y x) (n * c y x)
      have := abs_add_le (a y x) (m * b y x)
      rw [abs_mul] at *
      linarith
    have h3 : k * (|d y x| / k) ^ 2 ≤ k := by
      have h4 : |d y x| / k ≤ 1 := by rw [div_le_one hk]; exact hd y x
      have h5 : 0 ≤ |d y x| / k := by positivity
      have h6 : (|d y x| / k) ^ 2 ≤ 1 := by nlinarith
      nlinarith
    refine h2.trans (h1.trans ?_)
    have e2 : (0.97 + 0.97 * |m| + 0.97 * |n| + k) = 0.97 * (1 + |m| + |n|) + k := by ring
    rw [e2]
    have h7 := mul_le_mul_of_nonneg_left h3 hS
    simp only [div_pow, sq_abs] at h7 ⊢
    refine le_trans (le_of_eq ?_) (add_le_add_right h7 ((0.97 * (1 + |m| + |n|) + k) / 0.97 * a y x ^ 2 + (0.97 * (1 + |m| + |n|) + k) * |m| / 0.97 * b y x ^ 2 +
        (0.97 * (1 + |m| + |n|) + k) * |n| / 0.97 * c y x ^ 2))
    field_simp
  refine (blockSum_le hpt).trans ?_
  rw [blockSum_lin (fun y x => a y x ^ 2) (fun y x => b y x ^ 2) (fun y x => c y x ^ 2)]
  generalize blockSum (fun y x => a y x ^ 2) = A at *
  generalize blockSum (fun y x => b y x ^ 2) = B at *
  generalize blockSum (fun y x => c y x ^ 2) = C at *
  generalize hT : 0.97 * (1 + |m| + |n|) + k = T at *
  have h1 : T / 0.97 * A ≤ T / 0.97 * (0.94 * 64) := mul_le_mul_of_nonneg_left ha.le (by positivity)
  have h2 : T * |m| / 0.97 * B ≤ T * |m| / 0.97 * (0.94 * 64) := mul_le_mul_of_nonneg_left hb.le (by positivity)
  have h3 : T * |n| / 0.97 * C ≤ T * |n| / 0.97 * (0.94 * 64) := mul_le_mul_of_nonneg_left hc.le (by positivity)
  have h4 : T / 0.97 * (0.94 * 64) + T * |m| / 0.97 * (0.94 * 64) + T * |n| / 0.97 * (0.94 * 64) + 64 * (T * k) ≤ T * T * 64 := by
    have : T * T * 64 - (T / 0.97 * (0.94 * 64) + T * |m| / 0.97 * (0.94 * 64) + T * |n| / 0.97 * (0.94 * 64) + 64 * (T * k)) =
        64 * T * ((1 + |m| + |n|) * (0.97 - 0.94 / 0.97)) := by rw [← hT]; ring
    have h5 : 0 ≤ 64 * T * ((1 + |m| + |n|) * (0.97 - 0.94 / 0.97)) := by
      have : (0 : ℝ) ≤ 0.97 - 0.94 / 0.97 := by norm_num
      positivity
    linarith
  nlinarith


/-- A pixel of such a format and the samples made of it. -/
theorem samplesOf_rgb {ct : ColorType} (hrgb : Spec.HasRgb ct) (data : Bytes) (w c y x : Nat) :
    Spec.samplesOf ct data w c y x = Spec.ycc (Spec.rgbAt ct data w y x).1 (Spec.rgbAt ct data w y x).2.1 (Spec.rgbAt ct data w y x).2.2 c := by
  rcases hrgb with rfl | rfl | rfl | rfl <;> rfl

/-- C49: at quality 100 with built-in tables and without chroma subsampling, the RGB pixels come back, up to a small error: decoding the file by the book
(exact inverse DCT, the conversion of JFIF) gives red, green and blue with mean squared errors of at most 12.7, 9.3 and 16.8 in every
block of the image (blocks at the right and bottom edge continue the last column and line). -/
theorem C49_rgb_quality_100 {pf : Platform} (hpf : pf.Valid) {q : UInt8} {calls : List Spec.Call} {e : Encoder} (hc : Configured pf q calls e)
    {simd : Bool} {data : Bytes} {w h : UInt16} {ct : ColorType} (hrgb : Spec.HasRgb ct)
    (hlen : w.toNat * h.toNat * ct.bytesPerPixel ≤ data.length) (hsl : Spec.SliceOk pf data)
    (hs : Spec.Supported pf simd e .ycbcr w h (Spec.samplesOf ct data w.toNat)) {strict : Bool} (hst : ScansFine strict e)
    (hq : 100 ≤ q) (hb : ∀ t, e.getQuantizationTables.1 ≠ .custom t ∧ e.getQuantizationTables.2 ≠ .custom t)
    (hfac : e.getSamplingFactor.factors = (1, 1)) :
    Spec.Encodes (e.encode pf simd data w h ct) strict fun _ d => ∃ luma chroma, d.qts 0 = some luma ∧ d.qts 1 = some chroma ∧
      ∀ by_ bx, 8 * by_ < h.toNat → 8 * bx < w.toNat →
        let Y := reconstructed luma (d.coefs 0 by_ bx)
        let Cb := reconstructed chroma (d.coefs 1 by_ bx)
        let Cr := reconstructed chroma (d.coefs 2 by_ bx)
        let pixel := fun y x => Spec.rgbAt ct data w.toNat (min (8 * by_ + y) (h.toNat - 1)) (min (8 * bx + x) (w.toNat - 1))
        blockMse (fun y x => jfifRed (Y y x) (Cr y x)) (fun y x => (pixel y x).1.toNat) ≤ 12.7 ∧
        blockMse (fun y x => jfifGreen (Y y x) (Cb y x) (Cr y x)) (fun y x => (pixel y x).2.1.toNat) ≤ 9.3 ∧
        blockMse (fun y x => jfifBlue (Y y x) (Cb y x)) (fun y x => (pixel y x).2.2.toNat) ≤ 16.8 := by
  have hfc : Spec.fileColor ct = .ycbcr := by rcases hrgb with rfl | rfl | rfl | rfl <;> rfl
  have hp : Spec.EncodeCall pf simd e (e.encode pf simd data w h ct) .ycbcr w h (Spec.samplesOf ct data w.toNat) := by
    rw [← hfc]; exact .data data w h ct hlen hsl
  have h8 : Spec.EightBit e.getQuantizationTables := by
    intro t ht
    rcases ht with ht | ht
    · exact absurd ht (hb t).1
    · exact absurd ht (hb t).2
  refine ((C43_quality_100 hpf hc hp hs h8 hst hq hb).and (C32_frame_header hpf hc hp hs h8 hst)).mono ?_
  rintro _ d ⟨⟨f, hf, hall⟩, -, -, -, hframe⟩
  rw [Spec.HasFrame, hf, hfac] at hframe
  have hframe := Option.some.inj hframe
  subst hframe
  obtain ⟨t0, ht0, h0⟩ := hall 0 ⟨0, 1, 1, 0⟩ rfl
  obtain ⟨t1, ht1, h1⟩ := hall 1 ⟨1, 1, 1, 1⟩ rfl
  obtain ⟨t2, ht2, h2⟩ := hall 2 ⟨2, 1, 1, 1⟩ rfl
  rw [ht1] at ht2
  cases ht2
  refine ⟨t0, t1, ht0, ht1, fun by_ bx hby hbx => ?_⟩
  have hbh : ∀ c, by_ < Frame.blocksHigh ⟨e.getProgressiveScans.isSome, h.toNat, w.toNat, Spec.expectedComps 1 1 .ycbcr⟩ ⟨c, 1, 1, if c = 0 then 0 else 1⟩ := by
    intro c
    simp only [Frame.blocksHigh, Frame.vmax, Spec.expectedComps, List.map_cons, List.map_nil, List.foldl_cons, List.foldl_nil, _root_.Spec.ceilDiv]
    norm_num
    omega
  have hbw : ∀ c, bx < Frame.blocksWide ⟨e.getProgressiveScans.isSome, h.toNat, w.toNat, Spec.expectedComps 1 1 .ycbcr⟩ ⟨c, 1, 1, if c = 0 then 0 else 1⟩ := by
    intro c
    simp only [Frame.blocksWide, Frame.hmax, Spec.expectedComps, List.map_cons, List.map_nil, List.foldl_cons, List.foldl_nil, _root_.Spec.ceilDiv]
    norm_num
    omega
  have h0 := h0 by_ bx (hbh 0) (hbw 0)
  have h1 := h1 by_ bx (hbh 1) (hbw 1)
  have h2 := h2 by_ bx (hbh 2) (hbw 2)
  have hv : Frame.vmax ⟨e.getProgressiveScans.isSome, h.toNat, w.toNat, Spec.expectedComps 1 1 .ycbcr⟩ = 1 := rfl
  have hh : Frame.hmax ⟨e.getProgressiveScans.isSome, h.toNat, w.toNat, Spec.expectedComps 1 1 .ycbcr⟩ = 1 := rfl
  simp only [hv, hh, Nat.div_self Nat.one_pos, Nat.mul_one, samplesOf_rgb hrgb] at h0 h1 h2
  intro Y Cb Cr pixel
  have hinv := fun y x => ycc_inverse (pixel y x).1 (pixel y x).2.1 (pixel y x).2.2
  refine ⟨?_, ?_, ?_⟩
  · refine le_trans (le_of_eq ?_) ((channel_error (m := 0) (n := 1.402) (k := 1.22) (by norm_num) h0 h1 h2 (fun y x => (hinv y x).1)).trans ?_)
    · unfold blockMse blockSum
      congr 1
      refine Finset.sum_congr rfl fun y _ => Finset.sum_congr rfl fun x _ => ?_
      congr 1
      simp only [jfifRed, pixel, Y, Cr]
      ring
    · rw [abs_of_nonneg (show (0 : ℝ) ≤ 1.402 by norm_num), abs_zero]; norm_num
  · refine le_trans (le_of_eq ?_) ((channel_error (m := -0.34414) (n := -0.71414) (k := 1.04) (by norm_num) h0 h1 h2 (fun y x => (hinv y x).2.1)).trans ?_)
    · unfold blockMse blockSum
      congr 1
      refine Finset.sum_congr rfl fun y _ => Finset.sum_congr rfl fun x _ => ?_
      congr 1
      simp only [jfifGreen, pixel, Y, Cb, Cr]
      ring
    · rw [abs_neg, abs_neg, abs_of_nonneg (show (0 : ℝ) ≤ 0.34414 by norm_num), abs_of_nonneg (show (0 : ℝ) ≤ 0.71414 by norm_num)]; norm_num
  · refine le_trans (le_of_eq ?_) ((channel_error (m := 1.772) (n := 0) (k := 1.4) (by norm_num) h0 h1 h2 (fun y x => (hinv y x).2.2)).trans ?_)
    · unfold blockMse blockSum
      congr 1
      refine Finset.sum_congr rfl fun y _ => Finset.sum_congr rfl fun x _ => ?_
      congr 1
      simp only [jfifBlue, pixel, Y, Cb]
      ring
    · rw [abs_of_nonneg (show (0 : ℝ) ≤ 1.772 by norm_num), abs_zero]; norm_num

-- a configuration that satisfies the hypotheses of C49
example : ∃ e, Configured ⟨true, 8⟩ 100 [.setSamplingFactor .R_4_4_4, .setProgressive true] e ∧ Platform.Valid ⟨true, 8⟩ ∧ Spec.HasRgb .bgra ∧
    Spec.Supported ⟨true, 8⟩ true e .ycbcr 1 1 (Spec.samplesOf .bgra [1, 2, 3, 4] 1) ∧ ScansFine true e ∧
    Spec.SliceOk ⟨true, 8⟩ [1, 2, 3, 4] ∧ (1 : UInt16).toNat * (1 : UInt16).toNat * ColorType.bgra.bytesPerPixel ≤ [1, 2, 3, 4].length ∧
    (∀ t, e.getQuantizationTables.1 ≠ .custom t ∧ e.getQuantizationTables.2 ≠ .custom t) ∧ e.getSamplingFactor.factors = (1, 1) := by
  obtain ⟨e, h1, h2⟩ := reachable_exists ⟨true, 8⟩ 100 [.setSamplingFactor .R_4_4_4, .setProgressive true] (by decide)
  have hq : e.getQuantizationTables = (.default, .default) := by
    rw [h2.quant]; rfl
  refine ⟨e, h1, by decide, by unfold Spec.HasRgb; decide, ⟨by decide, by decide, Or.inl rfl, Or.inl ?_⟩, ?_, by unfold Spec.SliceOk; decide, by decide, ?_, ?_⟩
  · rw [h2.optimized]; rfl
  · intro _ n hn
    rw [h2.scans] at hn; cases hn; decide
  · intro t; rw [hq]; exact ⟨fun h => (by cases h), fun h => (by cases h)⟩
  · rw [h2.sampling]; decide

end Jpeg
