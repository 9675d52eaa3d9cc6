import Verif.Props.Pixel
/-! C99: decoders that do not compute exactly. -/
namespace Jpeg
open _root_.Spec Real

theorem within_near {ε r n p : ℝ} (hn : Spec.DecodesWithin ε r n) (h0 : 0 ≤ p) (h1 : p ≤ 255) : |n - p| ≤ |r - p| + ε := by
  have h2 := clamp_near (r := r) h0 h1
  have h3 := abs_add_le (n - max 0 (min 255 r)) (max 0 (min 255 r) - p)
  rw [sub_add_sub_cancel] at h3
  unfold Spec.DecodesWithin at hn
  linarith

/-- A decoder that rounds is a decoder with an error of 1/2. -/
theorem rounds_within {r : ℝ} {n : Int} : Spec.RoundsTo r n ↔ Spec.DecodesWithin (1 / 2) r n := Iff.rfl

theorem peak_within {r : ℝ} {n : Int} (h : Spec.PeakErrorOne r n) : Spec.DecodesWithin (3 / 2) r n := by
  obtain ⟨m, hm, hn⟩ := h
  have h1 : |(n : ℝ) - m| ≤ 1 := by exact_mod_cast hn
  have h2 := abs_add_le ((n : ℝ) - m) (m - max 0 (min 255 r))
  rw [sub_add_sub_cancel] at h2
  unfold Spec.RoundsTo at hm
  unfold Spec.DecodesWithin
  linarith

section
variable {pf : Platform} (hpf : pf.Valid) {q : UInt8} {calls : List Spec.Call} {e : Encoder} (hc : Configured pf q calls e)
  {simd : Bool} {p : Prog (R Unit)} {ct : JpegColorType} {w h : UInt16} {P : Nat → Nat → Nat → UInt8} (hp : Spec.EncodeCall pf simd e p ct w h P)
  (hs : Spec.Supported pf simd e ct w h P) (h8 : Spec.EightBit e.getQuantizationTables) {strict : Bool} (hst : ScansFine strict e)
include hpf hc hp hs h8 hst

/-- C99: whatever the error `ε` of a decoder, the samples it makes of the file differ from the samples of the image by at most `pixelLoss + ε`. -/
theorem C99_any_decoder : Spec.Encodes p strict fun _ d => ∃ f, d.frame = some f ∧
    ∀ c fc, f.comps[c]? = some fc → ∃ table, d.qts fc.tq = some table ∧ table.length = 64 ∧
      ∀ by_ bx, by_ < f.blocksHigh fc → bx < f.blocksWide fc → ∀ y x, y < 8 → x < 8 → ∀ ε n : ℝ,
        Spec.DecodesWithin ε (reconstructed table (d.coefs c by_ bx) y x) n →
          |n - (P c (min ((8 * by_ + y) * (f.vmax / fc.v)) (h.toNat - 1)) (min ((8 * bx + x) * (f.hmax / fc.h)) (w.toNat - 1))).toNat| ≤
            Spec.pixelLoss simd table y x + ε := by
  refine (C98_pixel_error hpf hc hp hs h8 hst).mono ?_
  rintro _ d ⟨f, hf, hall⟩
  refine ⟨f, hf, fun c fc hfc => ?_⟩
  obtain ⟨table, ht, hlen, herr⟩ := hall c fc hfc
  refine ⟨table, ht, hlen, fun by_ bx hby hbx y x hy hx ε n hn => ?_⟩
  have h1 := (herr by_ bx hby hbx y x hy hx).1
  have := UInt8.toNat_lt (P c (min ((8 * by_ + y) * (f.vmax / fc.v)) (h.toNat - 1)) (min ((8 * bx + x) * (f.hmax / fc.h)) (w.toNat - 1)))
  generalize (P c (min ((8 * by_ + y) * (f.vmax / fc.v)) (h.toNat - 1)) (min ((8 * bx + x) * (f.hmax / fc.h)) (w.toNat - 1))).toNat = o at *
  have hp1 : (o : ℝ) ≤ 255 := by
    refine le_trans (b := ((255 : Nat) : ℝ)) (Nat.cast_le.mpr ?_) (by norm_num)
    omega
  exact (within_near hn (Nat.cast_nonneg _) hp1).trans (by linarith)

/-- C99 at quality 100 with built-in tables: every decoder with the peak error that IEEE 1180 allows makes samples that differ by at most 8 from those of the
image, without SIMD by at most 7. -/
theorem C99_quality_100 (hq : 100 ≤ q) (hb : ∀ t, e.getQuantizationTables.1 ≠ .custom t ∧ e.getQuantizationTables.2 ≠ .custom t) :
    Spec.Encodes p strict fun _ d => ∃ f, d.frame = some f ∧
    ∀ c fc, f.comps[c]? = some fc → ∃ table, d.qts fc.tq = some table ∧
      ∀ by_ bx, by_ < f.blocksHigh fc → bx < f.blocksWide fc → ∀ y x, y < 8 → x < 8 →
        ∀ n, Spec.PeakErrorOne (reconstructed table (d.coefs c by_ bx) y x) n →
          |n - (P c (min ((8 * by_ + y) * (f.vmax / fc.v)) (h.toNat - 1)) (min ((8 * bx + x) * (f.hmax / fc.h)) (w.toNat - 1))).toNat| ≤
            if simd then 8 else 7 := by
  refine ((C99_any_decoder hpf hc hp hs h8 hst).and (C21_tables_in_file hpf hc hp hs h8 hst)).mono ?_
  rintro _ d ⟨⟨f, hf, hall⟩, f', q0, q1, hf', hqt, htab⟩
  rw [hf] at hf'
  cases hf'
  refine ⟨f, hf, fun c fc hfc => ?_⟩
  obtain ⟨table, ht, hlen, herr⟩ := hall c fc hfc
  refine ⟨table, ht, fun by_ bx hby hbx y x hy hx n hn => ?_⟩
  have herr := herr by_ bx hby hbx y x hy hx _ _ (peak_within hn)
  obtain ⟨ht01, l, hl, -, hent⟩ := htab fc (List.mem_of_getElem? hfc)
  rw [ht] at hl
  cases hl
  have hloss := loss_one simd (ones_of_100 hq hb hqt hent) hy hx
  generalize (P c (min ((8 * by_ + y) * (f.vmax / fc.v)) (h.toNat - 1)) (min ((8 * bx + x) * (f.hmax / fc.h)) (w.toNat - 1))).toNat = o at *
  cases simd
  · simp only [Bool.false_eq_true, if_false] at hloss ⊢
    exact int_close (m := 7) (herr.trans (add_le_add_left hloss _)) (by norm_num)
  · simp only [if_true] at hloss ⊢
    exact int_close (m := 8) (herr.trans (add_le_add_left hloss _)) (by norm_num)
end

/-- A colour channel, from samples that a decoder gives with an error of `ε` and converts with an error of `δ`. -/
theorem channel_real {Y Cb Cr Y' Cb' Cr' m m' δ : ℝ} {a b k : ℝ} {r : Nat} {n : ℝ} (hr : r ≤ 255) (h0 : |Y - Y'| ≤ m) (h1 : |Cb - Cb'| ≤ m') (h2 : |Cr - Cr'| ≤ m')
    (hk : |Y' + a * (Cb' - 128) + b * (Cr' - 128) - r| ≤ k) (hn : Spec.DecodesWithin δ (Y + a * (Cb - 128) + b * (Cr - 128)) n) :
    |n - r| ≤ m + m' * (|a| + |b|) + k + δ := by
  have h := within_near hn (Nat.cast_nonneg r) (show (r : ℝ) ≤ 255 by exact_mod_cast hr)
  have e : Y + a * (Cb - 128) + b * (Cr - 128) - r = (Y - Y') + a * (Cb - Cb') + b * (Cr - Cr') + (Y' + a * (Cb' - 128) + b * (Cr' - 128) - r) := by ring
  have h3 := abs_add_le ((Y - Y') + a * (Cb - Cb') + b * (Cr - Cr')) (Y' + a * (Cb' - 128) + b * (Cr' - 128) - r)
  have h4 := abs_add_le ((Y - Y') + a * (Cb - Cb')) (b * (Cr - Cr'))
  have h5 := abs_add_le (Y - Y') (a * (Cb - Cb'))
  rw [abs_mul] at h4 h5
  have h6 := mul_le_mul_of_nonneg_left h1 (abs_nonneg a)
  have h7 := mul_le_mul_of_nonneg_left h2 (abs_nonneg b)
  rw [e] at h
  linarith

/-- C99 for RGB pixels without chroma subsampling: a decoder that makes samples with an error of at most `ε` and colours with an error of at most `δ` comes as close to
the colours of the image as `ε`, `δ` and the tables in the file say. -/
theorem C99_rgb {pf : Platform} (hpf : pf.Valid) {q : UInt8} {calls : List Spec.Call} {e : Encoder} (hc : Configured pf q calls e)
    {simd : Bool} {data : Bytes} {w h : UInt16} {ct : ColorType} (hrgb : Spec.HasRgb ct)
    (hlen : w.toNat * h.toNat * ct.bytesPerPixel ≤ data.length) (hsl : Spec.SliceOk pf data)
    (hs : Spec.Supported pf simd e .ycbcr w h (Spec.samplesOf ct data w.toNat)) {strict : Bool} (hst : ScansFine strict e)
    (h8 : Spec.EightBit e.getQuantizationTables) (hfac : e.getSamplingFactor.factors = (1, 1)) :
    Spec.Encodes (e.encode pf simd data w h ct) strict fun _ d => ∃ luma chroma, d.qts 0 = some luma ∧ d.qts 1 = some chroma ∧
      ∀ y x, y < h.toNat → x < w.toNat → ∀ ε δ Y Cb Cr R G B : ℝ,
        Spec.DecodesWithin ε (reconstructed luma (d.coefs 0 (y / 8) (x / 8)) (y % 8) (x % 8)) Y →
        Spec.DecodesWithin ε (reconstructed chroma (d.coefs 1 (y / 8) (x / 8)) (y % 8) (x % 8)) Cb →
        Spec.DecodesWithin ε (reconstructed chroma (d.coefs 2 (y / 8) (x / 8)) (y % 8) (x % 8)) Cr →
        Spec.DecodesWithin δ (jfifRed Y Cr) R → Spec.DecodesWithin δ (jfifGreen Y Cb Cr) G → Spec.DecodesWithin δ (jfifBlue Y Cb) B →
        let pixel := Spec.rgbAt ct data w.toNat y x
        let l := Spec.pixelLoss simd luma (y % 8) (x % 8) + ε
        let c := Spec.pixelLoss simd chroma (y % 8) (x % 8) + ε
        |R - pixel.1.toNat| ≤ l + 1.402 * c + 1.22 + δ ∧ |G - pixel.2.1.toNat| ≤ l + 1.05828 * c + 1.04 + δ ∧
          |B - pixel.2.2.toNat| ≤ l + 1.772 * c + 1.4 + δ := by
  have hfc : Spec.fileColor ct = .ycbcr := by rcases hrgb with rfl | rfl | rfl | rfl <;> rfl
  have hp : Spec.EncodeCall pf simd e (e.encode pf simd data w h ct) .ycbcr w h (Spec.samplesOf ct data w.toNat) := by
    rw [← hfc]; exact .data data w h ct hlen hsl
  refine ((C99_any_decoder hpf hc hp hs h8 hst).and (C32_frame_header hpf hc hp hs h8 hst)).mono ?_
  rintro _ d ⟨⟨f, hf, hall⟩, -, -, -, hframe⟩
  rw [Spec.HasFrame, hf, hfac] at hframe
  have hframe := Option.some.inj hframe
  subst hframe
  obtain ⟨t0, ht0, -, h0⟩ := hall 0 ⟨0, 1, 1, 0⟩ rfl
  obtain ⟨t1, ht1, -, h1⟩ := hall 1 ⟨1, 1, 1, 1⟩ rfl
  obtain ⟨t2, ht2, -, h2⟩ := hall 2 ⟨2, 1, 1, 1⟩ rfl
  rw [ht1] at ht2
  cases ht2
  refine ⟨t0, t1, ht0, ht1, fun y x hy hx ε δ Y Cb Cr R G B hY hCb hCr hR hG hB => ?_⟩
  have hbh : ∀ c, y / 8 < Frame.blocksHigh ⟨e.getProgressiveScans.isSome, h.toNat, w.toNat, Spec.expectedComps 1 1 .ycbcr⟩ ⟨c, 1, 1, if c = 0 then 0 else 1⟩ := by
    intro c
    simp only [Frame.blocksHigh, Frame.vmax, Spec.expectedComps, List.map_cons, List.map_nil, List.foldl_cons, List.foldl_nil, _root_.Spec.ceilDiv]
    norm_num
    omega
  have hbw : ∀ c, x / 8 < Frame.blocksWide ⟨e.getProgressiveScans.isSome, h.toNat, w.toNat, Spec.expectedComps 1 1 .ycbcr⟩ ⟨c, 1, 1, if c = 0 then 0 else 1⟩ := by
    intro c
    simp only [Frame.blocksWide, Frame.hmax, Spec.expectedComps, List.map_cons, List.map_nil, List.foldl_cons, List.foldl_nil, _root_.Spec.ceilDiv]
    norm_num
    omega
  have hv : Frame.vmax ⟨e.getProgressiveScans.isSome, h.toNat, w.toNat, Spec.expectedComps 1 1 .ycbcr⟩ = 1 := rfl
  have hh : Frame.hmax ⟨e.getProgressiveScans.isSome, h.toNat, w.toNat, Spec.expectedComps 1 1 .ycbcr⟩ = 1 := rfl
  have h0 := h0 _ _ (hbh 0) (hbw 0) (y % 8) (x % 8) (by omega) (by omega) ε Y hY
  have h1 := h1 _ _ (hbh 1) (hbw 1) (y % 8) (x % 8) (by omega) (by omega) ε Cb hCb
  have h2 := h2 _ _ (hbh 2) (hbw 2) (y % 8) (x % 8) (by omega) (by omega) ε Cr hCr
  simp only [hv, hh, Nat.div_self Nat.one_pos, Nat.mul_one, samplesOf_rgb hrgb, show min (8 * (y / 8) + y % 8) (h.toNat - 1) = y by omega,
    show min (8 * (x / 8) + x % 8) (w.toNat - 1) = x by omega] at h0 h1 h2
  intro pixel
  obtain ⟨i0, i1, i2⟩ := ycc_inverse pixel.1 pixel.2.1 pixel.2.2
  have b8 : ∀ o : UInt8, o.toNat ≤ 255 := fun o => by have := o.toNat_lt; omega
  have k0 := channel_real (a := 0) (b := 1.402) (k := 1.22) (n := R) (b8 pixel.1) h0 h1 h2 (by rw [jfifRed] at i0; convert i0 using 2; ring) (by rw [jfifRed] at hR; convert hR using 1; ring)
  have k1 := channel_real (a := -0.34414) (b := -0.71414) (k := 1.04) (n := G) (b8 pixel.2.1) h0 h1 h2 (by rw [jfifGreen] at i1; convert i1 using 2; ring) (by rw [jfifGreen] at hG; convert hG using 1; ring)
  have k2 := channel_real (a := 1.772) (b := 0) (k := 1.4) (n := B) (b8 pixel.2.2) h0 h1 h2 (by rw [jfifBlue] at i2; convert i2 using 2; ring) (by rw [jfifBlue] at hB; convert hB using 1; ring)
  rw [abs_zero, abs_of_nonneg (show (0 : ℝ) ≤ 1.402 by norm_num)] at k0
  rw [abs_neg, abs_neg, abs_of_nonneg (show (0 : ℝ) ≤ 0.34414 by norm_num), abs_of_nonneg (show (0 : ℝ) ≤ 0.71414 by norm_num)] at k1
  rw [abs_zero, abs_of_nonneg (show (0 : ℝ) ≤ 1.772 by norm_num)] at k2
  intro l c
  refine ⟨?_, ?_, ?_⟩
  · have : l + 1.402 * c + 1.22 + δ = l + c * (0 + 1.402) + 1.22 + δ := by ring
    rw [this]; exact k0
  · have : l + 1.05828 * c + 1.04 + δ = l + c * (0.34414 + 0.71414) + 1.04 + δ := by ring
    rw [this]; exact k1
  · have : l + 1.772 * c + 1.4 + δ = l + c * (1.772 + 0) + 1.4 + δ := by ring
    rw [this]; exact k2

-- decoders that are not exact exist: one that cuts off instead of rounding has an error below 1, one that always adds 1 has a peak error of 1
example (r : ℝ) : Spec.DecodesWithin 1 r ⌊max 0 (min 255 r)⌋ := by
  unfold Spec.DecodesWithin
  rw [abs_sub_comm, abs_of_nonneg (by linarith [Int.floor_le (max 0 (min 255 r))])]
  linarith [Int.lt_floor_add_one (max 0 (min 255 r))]
example : Spec.PeakErrorOne 100.3 101 ∧ ¬ Spec.PeakErrorOne 100.3 102 := by
  refine ⟨⟨100, ?_, by norm_num⟩, ?_⟩
  · unfold Spec.RoundsTo
    norm_num
  · rintro ⟨m, h, h2⟩
    unfold Spec.RoundsTo at h
    norm_num at h
    have h1 := (abs_le.mp h).2
    have h3 := (abs_le.mp h2).2
    have : ((101 : Int) : ℝ) ≤ m := by exact_mod_cast (by omega : (101 : Int) ≤ m)
    norm_num at this
    linarith
-- a configuration that satisfies the hypotheses of C99
example : ∃ e p P, Configured ⟨true, 8⟩ 100 [.setSamplingFactor .R_4_4_4] e ∧ Platform.Valid ⟨true, 8⟩ ∧ Spec.EncodeCall ⟨true, 8⟩ true e p .ycbcr 2 1 P ∧
    Spec.Supported ⟨true, 8⟩ true e .ycbcr 2 1 P ∧ Spec.EightBit e.getQuantizationTables ∧ ScansFine true e ∧
    (∀ t, e.getQuantizationTables.1 ≠ .custom t ∧ e.getQuantizationTables.2 ≠ .custom t) ∧ e.getSamplingFactor.factors = (1, 1) := by
  obtain ⟨e, h1, h2⟩ := reachable_exists ⟨true, 8⟩ 100 [.setSamplingFactor .R_4_4_4] (by decide)
  have hq : e.getQuantizationTables = (.default, .default) := by
    rw [h2.quant]; rfl
  refine ⟨e, _, _, h1, by decide, .data [1, 2, 3, 4, 5, 6] 2 1 .rgb (by decide) (by unfold Spec.SliceOk; decide), ⟨by decide, by decide, Or.inl rfl, Or.inl ?_⟩, ?_, ?_, ?_, ?_⟩
  · rw [h2.optimized]; rfl
  · intro t ht; rw [hq] at ht; rcases ht with h | h <;> cases h
  · intro _ n hn
    rw [h2.scans] at hn; cases hn
  · intro t; rw [hq]; exact ⟨fun h => (by cases h), fun h => (by cases h)⟩
  · rw [h2.sampling]; decide

end Jpeg
