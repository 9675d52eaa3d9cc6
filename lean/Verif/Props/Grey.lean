import Verif.Props.Rgb
import Verif.Props.Local
/-! C50: grey pixels stay grey. -/
namespace Jpeg
open _root_.Spec

/-- Quantised coefficients of a block of zeros are zero. -/
theorem IsCoef_zero {pf : Platform} {simd : Bool} {ty : QuantizationTableType} {n : Nat} {b : Bool} {k : Nat} (hk : k < 64) {v : Int}
    (h : Spec.IsCoef pf simd (mkQ (steps ty n b)) (List.replicate 64 0) k v) : v = 0 := by
  obtain ⟨freq, h1, h2⟩ := h
  rw [dct_constant simd pf 0 (by omega)] at h1
  cases h1
  have hz : zigzag.getD k 0 < 64 := by rw [zigzag_eq]; exact ZIGZAG_getD_lt hk
  have h0 : ((64 * 0 : Int) :: List.replicate 63 0).getD (zigzag.getD k 0) 0 = 0 := by
    generalize zigzag.getD k 0 = z at hz
    cases z with
    | zero => rfl
    | succ z =>
      rw [List.getD_cons_succ, List.getD_eq_getElem?_getD, List.getElem?_replicate, if_pos (by omega)]
      rfl
  have hzl : zigzag.getD k 0 < (steps ty n b).length := by rw [steps_length]; exact hz
  rw [h0, quantize_eq pf _ (steps_range _ _ _) _ hzl 0 (by omega)] at h2
  rw [← Except.ok.inj h2]
  exact quantOf_zero (steps_range _ _ _ _ (getD_mem hzl))

theorem ycc_grey (v : UInt8) : Spec.ycc v v v 0 = v ∧ Spec.ycc v v v 1 = 128 ∧ Spec.ycc v v v 2 = 128 := by
  obtain ⟨h0, h1⟩ := u8_nonneg_lt v
  have e1 : (19595 * (v.toNat : Int) + 38470 * v.toNat + 7471 * v.toNat + 32767) / 65536 = v.toNat := by omega
  have e2 : (-11059 * (v.toNat : Int) - 21709 * v.toNat + 32768 * v.toNat + 8388608 + 32767) / 65536 = 128 := by omega
  have e3 : (32768 * (v.toNat : Int) - 27439 * v.toNat - 5329 * v.toNat + 8388608 + 32767) / 65536 = 128 := by omega
  refine ⟨?_, ?_, ?_⟩
  · unfold Spec.ycc; dsimp only; rw [e1]
    apply UInt8.toNat_inj.mp
    have := ofInt_toNat h0 h1
    change (UInt8.ofInt v.toNat).toNat = v.toNat
    omega
  · unfold Spec.ycc; dsimp only; rw [e2]; rfl
  · unfold Spec.ycc; dsimp only; rw [e3]; rfl

/-- C50: an RGB image with grey pixels only is stored as grey: all coefficients of both chroma components are zero, and the luma component
has the coefficients (and the quantisation table) that encoding the grey values as `Luma` gives. -/
theorem C50_grey_stays_grey {pf : Platform} (hpf : pf.Valid) {q : UInt8} {calls : List Spec.Call} {e : Encoder} (hc : Configured pf q calls e)
    {simd : Bool} {data greys : Bytes} {w h : UInt16} {ct : ColorType} (hrgb : Spec.HasRgb ct)
    (hlen : w.toNat * h.toNat * ct.bytesPerPixel ≤ data.length) (hsl : Spec.SliceOk pf data)
    (hlen' : w.toNat * h.toNat ≤ greys.length) (hsl' : Spec.SliceOk pf greys)
    (hgrey : ∀ y x, y < h.toNat → x < w.toNat → Spec.rgbAt ct data w.toNat y x =
      (greys.getD (y * w.toNat + x) 0, greys.getD (y * w.toNat + x) 0, greys.getD (y * w.toNat + x) 0))
    (hs : Spec.Supported pf simd e .ycbcr w h (Spec.samplesOf ct data w.toNat))
    (hs' : Spec.Supported pf simd e .luma w h (Spec.samplesOf .luma greys w.toNat))
    (h8 : Spec.EightBit e.getQuantizationTables) {strict : Bool} (hst : ScansFine strict e) :
    Spec.Encodes (e.encode pf simd data w h ct) strict fun _ d => Spec.Encodes (e.encode pf simd greys w h .luma) strict fun _ d' =>
      d.qts 0 = d'.qts 0 ∧
      (∀ by_ bx, 8 * by_ < h.toNat → 8 * bx < w.toNat → ∀ k, k < 64 → d.coefs 0 by_ bx k = d'.coefs 0 by_ bx k) ∧
      ∃ f, d.frame = some f ∧ ∀ c fc, (c = 1 ∨ c = 2) → f.comps[c]? = some fc → ∀ by_ bx, by_ < f.blocksHigh fc → bx < f.blocksWide fc →
        ∀ k, k < 64 → d.coefs c by_ bx k = 0 := by
  have hfc : Spec.fileColor ct = .ycbcr := by rcases hrgb with rfl | rfl | rfl | rfl <;> rfl
  have hp : Spec.EncodeCall pf simd e (e.encode pf simd data w h ct) .ycbcr w h (Spec.samplesOf ct data w.toNat) := by
    rw [← hfc]; exact .data data w h ct hlen hsl
  have hp' : Spec.EncodeCall pf simd e (e.encode pf simd greys w h .luma) .luma w h (Spec.samplesOf .luma greys w.toNat) :=
    .data greys w h .luma (by simpa [ColorType.bytesPerPixel] using hlen') hsl'
  have hw0 : 0 < w.toNat := Nat.pos_of_ne_zero fun h0 => hs.width (UInt16.toNat_inj.mp h0)
  have hh0 : 0 < h.toNat := Nat.pos_of_ne_zero fun h0 => hs.height (UInt16.toNat_inj.mp h0)
  have hP0 : ∀ y x, y < h.toNat → x < w.toNat → Spec.samplesOf ct data w.toNat 0 y x = Spec.samplesOf .luma greys w.toNat 0 y x := by
    intro y x hy hx
    rw [samplesOf_rgb hrgb, hgrey y x hy hx, (ycc_grey _).1]
    simp [Spec.samplesOf, ColorType.bytesPerPixel]
  have hP12 : ∀ c, (c = 1 ∨ c = 2) → ∀ y x, y < h.toNat → x < w.toNat → Spec.samplesOf ct data w.toNat c y x = 128 := by
    intro c hc y x hy hx
    rw [samplesOf_rgb hrgb, hgrey y x hy hx]
    rcases hc with rfl | rfl
    · exact (ycc_grey _).2.1
    · exact (ycc_grey _).2.2
  refine (((C29_sampling_positions hpf hc hp hs h8 hst).and (C32_frame_header hpf hc hp hs h8 hst)).and (C21_tables_in_file hpf hc hp hs h8 hst)).mono ?_
  rintro _ d ⟨⟨⟨f, q0, q1, hf, hq, hall⟩, -, -, -, hfr⟩, _, q0t, q1t, hft, hqt, htab⟩
  refine (((C29_sampling_positions hpf hc hp' hs' h8 hst).and (C32_frame_header hpf hc hp' hs' h8 hst)).and (C21_tables_in_file hpf hc hp' hs' h8 hst)).mono ?_
  rintro _ d' ⟨⟨⟨f', q0', q1', hf', hq', hall'⟩, -, -, -, hfr'⟩, _, q0t', q1t', hft', hqt', htab'⟩
  obtain rfl : q0 = q0' := by have := hq.1.symm.trans hq'.1; cases this; rfl
  obtain rfl : q0 = q0t := by have := hq.1.symm.trans hqt.1; cases this; rfl
  obtain rfl : q0 = q0t' := by have := hq.1.symm.trans hqt'.1; cases this; rfl
  have hq1 : q1 = mkQ (steps e.getQuantizationTables.2 q.toNat false) := by
    have := hq.2.symm.trans (newWithQuality_eq _ _ _); cases this; rfl
  rw [hf] at hft
  cases hft
  rw [hf'] at hft'
  cases hft'
  rw [Spec.HasFrame, hf] at hfr
  have hfr := Option.some.inj hfr
  rw [Spec.HasFrame, hf'] at hfr'
  have hfr' := Option.some.inj hfr'
  have hfac : 1 ≤ e.getSamplingFactor.factors.1 ∧ 1 ≤ e.getSamplingFactor.factors.2 := by cases e.getSamplingFactor <;> decide
  generalize e.getSamplingFactor.factors = fa at hfr hfr' hfac
  obtain ⟨fh, fv⟩ := fa
  simp only at hfac
  subst hfr hfr'
  have hvm : Frame.vmax ⟨e.getProgressiveScans.isSome, h.toNat, w.toNat, Spec.expectedComps fh fv .ycbcr⟩ = fv := by
    simp only [Frame.vmax, Spec.expectedComps, List.map_cons, List.map_nil, List.foldl_cons, List.foldl_nil]; omega
  have hhm : Frame.hmax ⟨e.getProgressiveScans.isSome, h.toNat, w.toNat, Spec.expectedComps fh fv .ycbcr⟩ = fh := by
    simp only [Frame.hmax, Spec.expectedComps, List.map_cons, List.map_nil, List.foldl_cons, List.foldl_nil]; omega
  refine ⟨?_, ?_, _, hf, ?_⟩
  · obtain ⟨-, l, hl, hln, hent⟩ := htab ⟨0, fh, fv, 0⟩ (by simp [Spec.expectedComps])
    obtain ⟨-, l', hl', hln', hent'⟩ := htab' ⟨0, 1, 1, 0⟩ (by simp [Spec.expectedComps])
    rw [hl, hl']
    congr 1
    refine List.ext_getElem? fun i => ?_
    by_cases hi : i < 64
    · have h1 := hent i hi
      have h2 := hent' i hi
      simp only [if_true] at h1 h2
      rw [h1] at h2
      have h3 := Except.ok.inj h2
      rw [List.getD_eq_getElem?_getD, List.getD_eq_getElem?_getD, List.getElem?_eq_getElem (by omega), List.getElem?_eq_getElem (by omega)] at h3
      rw [List.getElem?_eq_getElem (by omega), List.getElem?_eq_getElem (by omega)]
      simpa using h3
    · rw [List.getElem?_eq_none (by omega), List.getElem?_eq_none (by omega)]
  · intro by_ bx hby hbx k hk
    obtain ⟨samples, hl, hsv, hco⟩ := hall 0 ⟨0, fh, fv, 0⟩ rfl by_ bx
      (by rw [Frame.blocksHigh, hvm]; dsimp only; unfold _root_.Spec.ceilDiv
          rw [show (h.toNat * fv + fv - 1) / fv = h.toNat by
            rw [show h.toNat * fv + fv - 1 = fv - 1 + fv * h.toNat by rw [Nat.mul_comm]; omega, Nat.add_mul_div_left _ _ (by omega), Nat.div_eq_of_lt (by omega), Nat.zero_add]]
          omega)
      (by rw [Frame.blocksWide, hhm]; dsimp only; unfold _root_.Spec.ceilDiv
          rw [show (w.toNat * fh + fh - 1) / fh = w.toNat by
            rw [show w.toNat * fh + fh - 1 = fh - 1 + fh * w.toNat by rw [Nat.mul_comm]; omega, Nat.add_mul_div_left _ _ (by omega), Nat.div_eq_of_lt (by omega), Nat.zero_add]]
          omega)
    obtain ⟨samples', hl', hsv', hco'⟩ := hall' 0 ⟨0, 1, 1, 0⟩ rfl by_ bx
      (by simp only [Frame.blocksHigh, Frame.vmax, Spec.expectedComps, List.map_cons, List.map_nil, List.foldl_cons, List.foldl_nil, _root_.Spec.ceilDiv]
          norm_num; omega)
      (by simp only [Frame.blocksWide, Frame.hmax, Spec.expectedComps, List.map_cons, List.map_nil, List.foldl_cons, List.foldl_nil, _root_.Spec.ceilDiv]
          norm_num; omega)
    have hv1 : Frame.vmax ⟨e.getProgressiveScans.isSome, h.toNat, w.toNat, Spec.expectedComps fh fv .luma⟩ = 1 := rfl
    have hh1 : Frame.hmax ⟨e.getProgressiveScans.isSome, h.toNat, w.toNat, Spec.expectedComps fh fv .luma⟩ = 1 := rfl
    simp only [hvm, hhm, Nat.div_self (show 0 < fv by omega), Nat.div_self (show 0 < fh by omega), Nat.mul_one] at hsv
    simp only [hv1, hh1, Nat.div_self Nat.one_pos, Nat.mul_one] at hsv'
    have hss : samples = samples' := by
      refine List.ext_getElem? fun i => ?_
      by_cases hi : i < 64
      · have h1 := hsv (i / 8) (i % 8) (by omega) (by omega)
        have h2 := hsv' (i / 8) (i % 8) (by omega) (by omega)
        rw [← hP0 _ _ (by omega) (by omega), ← h1] at h2
        rw [show 8 * (i / 8) + i % 8 = i by omega] at h2
        exact h2.symm
      · rw [List.getElem?_eq_none (by omega), List.getElem?_eq_none (by omega)]
    subst hss
    exact IsCoef_unique (hco k hk) (hco' k hk)
  · intro c fc hc12 hfc by_ bx hby hbx k hk
    obtain ⟨samples, hl, hsv, hco⟩ := hall c fc hfc by_ bx hby hbx
    have hflat : samples = List.replicate 64 0 := by
      refine List.ext_getElem? fun i => ?_
      by_cases hi : i < 64
      · have := hsv (i / 8) (i % 8) (by omega) (by omega)
        rw [show 8 * (i / 8) + i % 8 = i by omega, hP12 c hc12 _ _ (by omega) (by omega)] at this
        rw [this, List.getElem?_replicate, if_pos hi]
        rfl
      · rw [List.getElem?_eq_none (by omega), List.getElem?_eq_none (by simp; omega)]
    have htq : fc.tq = 1 := by
      rcases hc12 with rfl | rfl
      all_goals
        simp only [Spec.expectedComps, List.getElem?_cons_succ, List.getElem?_cons_zero, Option.some.injEq] at hfc
        rw [← hfc]
    have := hco k hk
    rw [htq, if_neg (by decide), hq1, hflat] at this
    exact IsCoef_zero hk this

-- an image and settings that satisfy the hypotheses
example : ∃ e, Configured ⟨true, 8⟩ 80 [.setSamplingFactor .R_4_2_0] e ∧ Platform.Valid ⟨true, 8⟩ ∧
    (∀ y x, y < 1 → x < 2 → Spec.rgbAt .rgb [7, 7, 7, 250, 250, 250] 2 y x =
      (([7, 250] : Bytes).getD (y * 2 + x) 0, ([7, 250] : Bytes).getD (y * 2 + x) 0, ([7, 250] : Bytes).getD (y * 2 + x) 0)) ∧
    Spec.Supported ⟨true, 8⟩ true e .ycbcr 2 1 (Spec.samplesOf .rgb [7, 7, 7, 250, 250, 250] 2) ∧
    Spec.Supported ⟨true, 8⟩ true e .luma 2 1 (Spec.samplesOf .luma [7, 250] 2) ∧
    Spec.EightBit e.getQuantizationTables ∧ ScansFine true e := by
  obtain ⟨e, h1, h2⟩ := reachable_exists ⟨true, 8⟩ 80 [.setSamplingFactor .R_4_2_0] (by decide)
  have hq : e.getQuantizationTables = (.default, .default) := by rw [h2.quant]; rfl
  have ho : e.getOptimizedHuffmanTables = false := by rw [h2.optimized]; rfl
  refine ⟨e, h1, by decide, ?_, ⟨by decide, by decide, Or.inl rfl, Or.inl ho⟩, ⟨by decide, by decide, Or.inl rfl, Or.inl ho⟩, ?_, ?_⟩
  · intro y x hy hx
    obtain rfl : y = 0 := by omega
    obtain rfl | rfl : x = 0 ∨ x = 1 := by omega
    · rfl
    · rfl
  · intro t ht; rw [hq] at ht; rcases ht with h | h <;> cases h
  · intro _ n hn
    rw [h2.scans] at hn; cases hn

end Jpeg
