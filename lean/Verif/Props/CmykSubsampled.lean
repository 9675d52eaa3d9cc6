import Verif.Props.Subsampled
import Verif.Props.Cmyk
/-! C71, C81: errors of the samples of any image, and of the inks of CMYK images, with any sampling factor. -/
namespace Jpeg
open _root_.Spec

/-- Sampling factors of the components of a file. -/
theorem comps_cases {sx sy : Nat} (hx : 1 ≤ sx) (hy : 1 ≤ sy) (ct : JpegColorType) (prog : Bool) (w h : Nat) {c : Nat} {fc : FrameComp}
    (hfc : (Spec.expectedComps sx sy ct)[c]? = some fc) :
    1 ≤ Frame.vmax ⟨prog, h, w, Spec.expectedComps sx sy ct⟩ ∧ 1 ≤ Frame.hmax ⟨prog, h, w, Spec.expectedComps sx sy ct⟩ ∧
    ((fc.v = Frame.vmax ⟨prog, h, w, Spec.expectedComps sx sy ct⟩ ∧ fc.h = Frame.hmax ⟨prog, h, w, Spec.expectedComps sx sy ct⟩) ∨ (fc.v = 1 ∧ fc.h = 1)) := by
  have e1 : ∀ n : Nat, 1 ≤ n → max (max (max 0 n) 1) 1 = n := by intro n hn; simp; omega
  have e2 : ∀ n : Nat, 1 ≤ n → max (max (max (max 0 1) 1) 1) n = n := by intro n hn; simp; omega
  cases ct
  all_goals
    simp only [Spec.expectedComps, Frame.vmax, Frame.hmax, List.map_cons, List.map_nil, List.foldl_cons, List.foldl_nil, e1 sx hx, e1 sy hy, e2 sx hx, e2 sy hy, Nat.max_self] at hfc ⊢
    match c, hfc with
    | 0, hfc => cases hfc; exact ⟨by first | exact hy | decide, by first | exact hx | decide, by first | exact Or.inr ⟨rfl, rfl⟩ | exact Or.inl ⟨rfl, rfl⟩⟩
    | 1, hfc => cases hfc <;>
      exact ⟨by first | exact hy | decide, by first | exact hx | decide, by first | exact Or.inr ⟨rfl, rfl⟩ | exact Or.inl ⟨rfl, rfl⟩⟩
    | 2, hfc => cases hfc <;>
      exact ⟨by first | exact hy | decide, by first | exact hx | decide, by first | exact Or.inr ⟨rfl, rfl⟩ | exact Or.inl ⟨rfl, rfl⟩⟩
    | 3, hfc => cases hfc <;>
      exact ⟨by first | exact hy | decide, by first | exact hx | decide, by first | exact Or.inr ⟨rfl, rfl⟩ | exact Or.inl ⟨rfl, rfl⟩⟩
    | n + 4, hfc => cases hfc

/-- C81: for every kind of image and every sampling factor: in every MCU, the squared distance between the samples a decoder shows for a component (each repeated
for the pixels it stands for) and the samples of the image at the top left pixels of these groups is at most what the table of the component allows. -/
theorem C81_planes {pf : Platform} (hpf : pf.Valid) {q : UInt8} {calls : List Spec.Call} {e : Encoder} (hc : Configured pf q calls e)
    {simd : Bool} {p : Prog (R Unit)} {ct : JpegColorType} {w h : UInt16} {P : Nat → Nat → Nat → UInt8} (hp : Spec.EncodeCall pf simd e p ct w h P)
    (hs : Spec.Supported pf simd e ct w h P) (h8 : Spec.EightBit e.getQuantizationTables) {strict : Bool} (hst : ScansFine strict e) :
    Spec.Encodes p strict fun _ d => ∃ f, d.frame = some f ∧ ∀ c fc, f.comps[c]? = some fc → ∃ table, d.qts fc.tq = some table ∧
      ∀ my mx, ∑ p ∈ mcuPixels w.toNat h.toNat f.vmax f.hmax my mx,
          (shownSample table (d.coefs c) (f.vmax / fc.v) (f.hmax / fc.h) p.1 p.2 -
            (P c (p.1 / (f.vmax / fc.v) * (f.vmax / fc.v)) (p.2 / (f.hmax / fc.h) * (f.hmax / fc.h))).toNat) ^ 2 ≤
        rmsBound simd table ^ 2 * (64 * (f.vmax * f.hmax)) := by
  have hrange := factors_range e.getSamplingFactor
  obtain ⟨⟨hx, -⟩, hy, -⟩ := hrange
  refine ((C42_reconstruction_error hpf hc hp hs h8 hst).and (C32_frame_header hpf hc hp hs h8 hst)).mono ?_
  rintro _ d ⟨⟨f, hf, hall⟩, -, -, -, hframe⟩
  rw [Spec.HasFrame, hf] at hframe
  have hframe := Option.some.inj hframe
  subst hframe
  refine ⟨_, hf, fun c fc hfc => ?_⟩
  obtain ⟨t, ht, -, h0⟩ := hall c fc hfc
  refine ⟨t, ht, fun my mx => ?_⟩
  have hcases := comps_cases hx hy ct e.getProgressiveScans.isSome w.toNat h.toNat hfc
  simp only [Frame.blocksHigh, Frame.blocksWide, _root_.Spec.ceilDiv, ← rmsBound_sq] at h0
  generalize Frame.vmax ⟨e.getProgressiveScans.isSome, h.toNat, w.toNat, Spec.expectedComps e.getSamplingFactor.factors.1 e.getSamplingFactor.factors.2 ct⟩ = sy at *
  generalize Frame.hmax ⟨e.getProgressiveScans.isSome, h.toNat, w.toNat, Spec.expectedComps e.getSamplingFactor.factors.1 e.getSamplingFactor.factors.2 ct⟩ = sx at *
  obtain ⟨hy, hx, hcases⟩ := hcases
  have hw0 : w.toNat ≠ 0 := fun h => hs.width (by rw [← UInt16.toNat_inj]; simpa using h)
  have hh0 : h.toNat ≠ 0 := fun h' => hs.height (by rw [← UInt16.toNat_inj]; simpa using h')
  by_cases hne : (mcuPixels w.toNat h.toNat sy sx my mx).Nonempty
  swap
  · rw [Finset.not_nonempty_iff_eq_empty] at hne
    rw [hne]
    simp only [Finset.sum_empty]
    positivity
  have hmy : 8 * sy * my < h.toNat ∧ 8 * sx * mx < w.toNat := by
    obtain ⟨⟨y, x⟩, hp⟩ := hne
    simp only [mcuPixels, Finset.mem_filter, Finset.mem_product, Finset.mem_range] at hp
    obtain ⟨⟨p1, p2⟩, rfl, rfl⟩ := hp
    have e1 := Nat.mul_div_le y (8 * sy)
    have e2 := Nat.mul_div_le x (8 * sx)
    omega
  rcases hcases with ⟨h1, h2⟩ | ⟨h1, h2⟩
  · simp only [h1, h2, Nat.div_self hy, Nat.div_self hx, Nat.div_one, Nat.mul_one] at h0 ⊢
    refine sum_mcu_full w.toNat h.toNat sy sx my mx hy hx (sq_nonneg _)
      (fun y x => (shownSample t (d.coefs c) 1 1 y x - (P c y x).toNat) ^ 2) fun by_ bx hby hbx => ?_
    refine le_trans (blockSum_le' fun y x hy8 hx8 => ?_) (h0 by_ bx ?_ ?_)
    · split
      · apply le_of_eq
        simp only [shownSample, Nat.div_one]
        rw [Nat.mul_add_div (by norm_num), Nat.div_eq_of_lt hy8, Nat.mul_add_div (by norm_num), Nat.div_eq_of_lt hx8, Nat.mul_add_mod, Nat.mod_eq_of_lt hy8,
          Nat.mul_add_mod, Nat.mod_eq_of_lt hx8, Nat.min_eq_left (by omega), Nat.min_eq_left (by omega)]
        rfl
      · exact sq_nonneg _
    · rw [full_div hh0 hy]
      omega
    · rw [full_div hw0 hx]
      omega
  · simp only [h1, h2, Nat.div_one, Nat.mul_one] at h0 ⊢
    refine sum_mcu_sub w.toNat h.toNat sy sx my mx hy hx (fun y x => (shownSample t (d.coefs c) sy sx y x - (P c (y / sy * sy) (x / sx * sx)).toNat) ^ 2)
      _ (fun _ _ => sq_nonneg _) (fun p hpm => ?_) (h0 my mx (sub_div hy hmy.1) (sub_div hx hmy.2))
    simp only [mcuPixels, Finset.mem_filter, Finset.mem_product, Finset.mem_range] at hpm
    obtain ⟨⟨p1, p2⟩, p3, p4⟩ := hpm
    simp only [shownSample, p3, p4]
    rw [anchor_pos hy p1 p3, anchor_pos hx p2 p4]

/-- An error and a deviation of at most `δ`. -/
theorem add_error {ι : Type} (S : Finset ι) {a d : ι → ℝ} {A δ N : ℝ} (hA : 0 < A) (hδ : 0 ≤ δ) (hN : (S.card : ℝ) ≤ N)
    (ha : ∑ p ∈ S, a p ^ 2 ≤ A ^ 2 * N) (hd : ∀ p ∈ S, |d p| ≤ δ) : ∑ p ∈ S, (a p + d p) ^ 2 ≤ (A + δ) ^ 2 * N := by
  have hpt : ∀ p ∈ S, (a p + d p) ^ 2 ≤ (A + δ) / A * a p ^ 2 + (A + δ) * δ := by
    intro p hp
    have h1 := hd p hp
    have h2 : (a p + d p) ^ 2 ≤ (|a p| + δ) ^ 2 := by
      rw [← sq_abs (a p + d p)]
      exact pow_le_pow_left₀ (abs_nonneg _) ((abs_add_le _ _).trans (by linarith)) 2
    refine h2.trans ?_
    have h3 : (A + δ) / A * a p ^ 2 + (A + δ) * δ - (|a p| + δ) ^ 2 = δ / A * (|a p| - A) ^ 2 := by
      rw [← sq_abs (a p)]
      field_simp
      ring
    have h4 : 0 ≤ δ / A * (|a p| - A) ^ 2 := by positivity
    linarith
  refine (Finset.sum_le_sum hpt).trans ?_
  simp only [Finset.sum_add_distrib, ← Finset.mul_sum, Finset.sum_const, nsmul_eq_mul]
  have h1 : (A + δ) / A * ∑ p ∈ S, a p ^ 2 ≤ (A + δ) / A * (A ^ 2 * N) := mul_le_mul_of_nonneg_left ha (by positivity)
  have h2 : (S.card : ℝ) * ((A + δ) * δ) ≤ N * ((A + δ) * δ) := mul_le_mul_of_nonneg_right hN (by positivity)
  have h3 : (A + δ) / A * (A ^ 2 * N) + N * ((A + δ) * δ) = (A + δ) ^ 2 * N := by
    field_simp
  linarith

theorem inverted_toNat (k : UInt8) : ((255 - k : UInt8).toNat : ℝ) = 255 - k.toNat := by
  have h1 : (255 - k : UInt8).toNat = 255 - k.toNat := by
    rw [UInt8.toNat_sub_of_le _ _ (by rw [UInt8.le_iff_toNat_le]; have := k.toNat_lt; simp; omega)]
    rfl
  have h2 : k.toNat ≤ 255 := by have := k.toNat_lt; omega
  rw [h1, Nat.cast_sub h2]; norm_num

section
variable {pf : Platform} (hpf : pf.Valid) {q : UInt8} {calls : List Spec.Call} {e : Encoder} (hc : Configured pf q calls e)
  {simd : Bool} {data : Bytes} {w h : UInt16} (hlen : w.toNat * h.toNat * 4 ≤ data.length) (hsl : Spec.SliceOk pf data)
  {strict : Bool} (hst : ScansFine strict e) (h8 : Spec.EightBit e.getQuantizationTables) {sx sy : Nat} (hfac : e.getSamplingFactor.factors = (sx, sy))
include hpf hc hlen hsl hst h8 hfac

/-- C71: CMYK pixels encoded as CMYK, with any sampling factor: the black ink keeps its full resolution and the error the table 0 allows; the other inks have the
error table 1 allows, plus how much (at most `δ`) the ink differs from that of the top left pixel of the group of pixels with a common sample. -/
theorem C71_cmyk_subsampled (hs : Spec.Supported pf simd e .cmyk w h (Spec.samplesOf .cmyk data w.toNat)) :
    Spec.Encodes (e.encode pf simd data w h .cmyk) strict fun _ d => ∃ transform luma chroma,
      d.apps.findSome? Spec.adobeTransform = some transform ∧ d.qts 0 = some luma ∧ d.qts 1 = some chroma ∧
      let sample := fun (p : Nat × Nat) c => if c = 3 then shownSample luma (d.coefs c) 1 1 p.1 p.2 else shownSample chroma (d.coefs c) sy sx p.1 p.2
      let ink := fun c (p : Nat × Nat) => ((Spec.inkAt data w.toNat p.1 p.2 c).toNat : ℝ)
      ∀ my mx,
        (∀ c, c < 3 → ∀ δ : ℝ, 0 ≤ δ → (∀ p ∈ mcuPixels w.toNat h.toNat sy sx my mx, |ink c (p.1 / sy * sy, p.2 / sx * sx) - ink c p| ≤ δ) →
          ∑ p ∈ mcuPixels w.toNat h.toNat sy sx my mx, (Spec.adobeInk transform (sample p) c - ink c p) ^ 2 ≤ (rmsBound simd chroma + δ) ^ 2 * (64 * (sy * sx))) ∧
        ∑ p ∈ mcuPixels w.toNat h.toNat sy sx my mx, (Spec.adobeInk transform (sample p) 3 - ink 3 p) ^ 2 ≤ rmsBound simd luma ^ 2 * (64 * (sy * sx)) := by
  have hp : Spec.EncodeCall pf simd e (e.encode pf simd data w h .cmyk) .cmyk w h (Spec.samplesOf .cmyk data w.toNat) :=
    .data data w h .cmyk hlen hsl
  have hrange := factors_range e.getSamplingFactor
  rw [hfac] at hrange
  obtain ⟨⟨hx, -⟩, hy, -⟩ := hrange
  simp only at hx hy
  refine (((C81_planes hpf hc hp hs h8 hst).and (C32_frame_header hpf hc hp hs h8 hst)).and
    (C36_adobe hpf hc hp hs h8 hst (fun h => by cases h))).mono ?_
  rintro _ d ⟨⟨⟨f, hf, hall⟩, -, -, -, hframe⟩, hadobe, -⟩
  rw [Spec.HasFrame, hf, hfac] at hframe
  have hframe := Option.some.inj hframe
  subst hframe
  obtain ⟨t1, ht1, h0⟩ := hall 0 ⟨0, 1, 1, 1⟩ rfl
  obtain ⟨t1', ht1', h1⟩ := hall 1 ⟨1, 1, 1, 1⟩ rfl
  obtain ⟨t1'', ht1'', h2⟩ := hall 2 ⟨2, 1, 1, 1⟩ rfl
  obtain ⟨t0, ht0, h3⟩ := hall 3 ⟨3, sx, sy, 0⟩ rfl
  rw [ht1] at ht1' ht1''
  cases ht1'; cases ht1''
  refine ⟨0, t0, t1, hadobe, ht0, ht1, ?_⟩
  intro sample ink my mx
  have hvm : Frame.vmax ⟨e.getProgressiveScans.isSome, h.toNat, w.toNat, Spec.expectedComps sx sy .cmyk⟩ = sy := by
    simp [Frame.vmax, Spec.expectedComps]
    omega
  have hhm : Frame.hmax ⟨e.getProgressiveScans.isSome, h.toNat, w.toNat, Spec.expectedComps sx sy .cmyk⟩ = sx := by
    simp [Frame.hmax, Spec.expectedComps]
    omega
  simp only [hvm, hhm, Nat.div_self hy, Nat.div_self hx, Nat.div_one, Nat.mul_one] at h0 h1 h2 h3
  constructor
  · intro c hc3 δ hδ hvar
    have key : ∑ p ∈ mcuPixels w.toNat h.toNat sy sx my mx, (shownSample t1 (d.coefs c) sy sx p.1 p.2 -
        (255 - Spec.inkAt data w.toNat (p.1 / sy * sy) (p.2 / sx * sx) c : UInt8).toNat) ^ 2 ≤ rmsBound simd t1 ^ 2 * (64 * (sy * sx)) := by
      have : c = 0 ∨ c = 1 ∨ c = 2 := by omega
      rcases this with rfl | rfl | rfl
      · exact h0 my mx
      · exact h1 my mx
      · exact h2 my mx
    refine le_trans (le_of_eq (Finset.sum_congr rfl fun p _ => ?_)) (add_error _ (rmsBound_pos simd t1) hδ (card_mcu _ _ _ _ _ _ hy hx) key
      (d := fun p => ink c p - ink c (p.1 / sy * sy, p.2 / sx * sx)) fun p hp => ?_)
    · rw [inverted_toNat]
      simp only [Spec.adobeInk, sample, if_neg (show ¬ c = 3 by omega), if_neg (show ¬ (0 : UInt8) = 2 by decide), ink]
      ring
    · rw [abs_sub_comm]; exact hvar p hp
  · refine le_trans (le_of_eq (Finset.sum_congr rfl fun p _ => ?_)) (h3 my mx)
    have : Spec.samplesOf .cmyk data w.toNat 3 p.1 p.2 = 255 - Spec.inkAt data w.toNat p.1 p.2 3 := rfl
    rw [this, inverted_toNat]
    simp only [Spec.adobeInk, sample, if_true, if_neg (show ¬ (0 : UInt8) = 2 by decide), ink]
    ring

/-- C71: CMYK pixels encoded as YCCK, with any sampling factor: black keeps its full resolution; the errors of the other inks are like those of RGB pixels (C81). -/
theorem C71_ycck_subsampled (hs : Spec.Supported pf simd e .ycck w h (Spec.samplesOf .cmykAsYcck data w.toNat)) :
    Spec.Encodes (e.encode pf simd data w h .cmykAsYcck) strict fun _ d => ∃ transform luma chroma,
      d.apps.findSome? Spec.adobeTransform = some transform ∧ d.qts 0 = some luma ∧ d.qts 1 = some chroma ∧
      let sample := fun (p : Nat × Nat) c =>
        if c = 0 ∨ c = 3 then shownSample luma (d.coefs c) 1 1 p.1 p.2 else shownSample chroma (d.coefs c) sy sx p.1 p.2
      let ink := fun c (p : Nat × Nat) => Spec.inkAt data w.toNat p.1 p.2 c
      let color := fun (c : Nat) (p : Nat × Nat) => ((Spec.ycc (ink 0 p) (ink 1 p) (ink 2 p) c).toNat : ℝ)
      ∀ my mx, ∑ p ∈ mcuPixels w.toNat h.toNat sy sx my mx, (Spec.adobeInk transform (sample p) 3 - (ink 3 p).toNat) ^ 2 ≤
          rmsBound simd luma ^ 2 * (64 * (sy * sx)) ∧
        ∀ δ : ℝ, 0 ≤ δ → (∀ p ∈ mcuPixels w.toNat h.toNat sy sx my mx, ∀ c, c = 1 ∨ c = 2 → |color c (p.1 / sy * sy, p.2 / sx * sx) - color c p| ≤ δ) →
          ∑ p ∈ mcuPixels w.toNat h.toNat sy sx my mx, (Spec.adobeInk transform (sample p) 0 - (ink 0 p).toNat) ^ 2 ≤
            (rmsBound simd luma + 1.402 * (rmsBound simd chroma + δ) + 1.22) ^ 2 * (64 * (sy * sx)) ∧
          ∑ p ∈ mcuPixels w.toNat h.toNat sy sx my mx, (Spec.adobeInk transform (sample p) 1 - (ink 1 p).toNat) ^ 2 ≤
            (rmsBound simd luma + 1.05828 * (rmsBound simd chroma + δ) + 1.04) ^ 2 * (64 * (sy * sx)) ∧
          ∑ p ∈ mcuPixels w.toNat h.toNat sy sx my mx, (Spec.adobeInk transform (sample p) 2 - (ink 2 p).toNat) ^ 2 ≤
            (rmsBound simd luma + 1.772 * (rmsBound simd chroma + δ) + 1.4) ^ 2 * (64 * (sy * sx)) := by
  have hp : Spec.EncodeCall pf simd e (e.encode pf simd data w h .cmykAsYcck) .ycck w h (Spec.samplesOf .cmykAsYcck data w.toNat) :=
    .data data w h .cmykAsYcck hlen hsl
  have hrange := factors_range e.getSamplingFactor
  rw [hfac] at hrange
  obtain ⟨⟨hx, -⟩, hy, -⟩ := hrange
  simp only at hx hy
  refine (((C81_planes hpf hc hp hs h8 hst).and (C32_frame_header hpf hc hp hs h8 hst)).and
    (C36_adobe hpf hc hp hs h8 hst (fun h => by cases h))).mono ?_
  rintro _ d ⟨⟨⟨f, hf, hall⟩, -, -, -, hframe⟩, hadobe, -⟩
  rw [Spec.HasFrame, hf, hfac] at hframe
  have hframe := Option.some.inj hframe
  subst hframe
  obtain ⟨t0, ht0, h0⟩ := hall 0 ⟨0, sx, sy, 0⟩ rfl
  obtain ⟨t1, ht1, h1⟩ := hall 1 ⟨1, 1, 1, 1⟩ rfl
  obtain ⟨t1', ht1', h2⟩ := hall 2 ⟨2, 1, 1, 1⟩ rfl
  obtain ⟨t0', ht0', h3⟩ := hall 3 ⟨3, sx, sy, 0⟩ rfl
  rw [ht1] at ht1'
  rw [ht0] at ht0'
  cases ht1'; cases ht0'
  refine ⟨2, t0, t1, hadobe, ht0, ht1, ?_⟩
  intro sample ink color my mx
  have hvm : Frame.vmax ⟨e.getProgressiveScans.isSome, h.toNat, w.toNat, Spec.expectedComps sx sy .ycck⟩ = sy := by
    simp [Frame.vmax, Spec.expectedComps]
    omega
  have hhm : Frame.hmax ⟨e.getProgressiveScans.isSome, h.toNat, w.toNat, Spec.expectedComps sx sy .ycck⟩ = sx := by
    simp [Frame.hmax, Spec.expectedComps]
    omega
  simp only [hvm, hhm, Nat.div_self hy, Nat.div_self hx, Nat.div_one, Nat.mul_one] at h0 h1 h2 h3
  constructor
  · refine le_trans (le_of_eq (Finset.sum_congr rfl fun p _ => ?_)) (h3 my mx)
    have : Spec.samplesOf .cmykAsYcck data w.toNat 3 p.1 p.2 = 255 - Spec.inkAt data w.toNat p.1 p.2 3 := rfl
    rw [this, inverted_toNat]
    simp only [Spec.adobeInk, sample, if_true, ink, or_true]
    ring
  · intro δ hδ hvar
    have key := rgb_mcu (rmsBound_pos simd t0) (rmsBound_pos simd t1) hδ (mcuPixels w.toNat h.toNat sy sx my mx) (card_mcu _ _ _ _ _ _ hy hx)
      (ink 0) (ink 1) (ink 2) (fun p => (p.1 / sy * sy, p.2 / sx * sx)) (fun p => sample p 0) (fun p => sample p 1) (fun p => sample p 2)
      (h0 my mx) (h1 my mx) (h2 my mx) hvar
    refine ⟨?_, ?_, ?_⟩
    · simpa only [Spec.adobeInk, if_true, sub_sub_cancel] using key.1
    · simpa only [Spec.adobeInk, if_true, sub_sub_cancel] using key.2.1
    · simpa only [Spec.adobeInk, if_true, sub_sub_cancel] using key.2.2

end

/-- A 2x2 CMYK image whose colour inks do not change, but the black ink does. -/
def oneInk : Bytes := [10, 200, 30, 0, 10, 200, 30, 255, 10, 200, 30, 70, 10, 200, 30, 90]

-- the hypotheses of C71 with subsampling: quality 75 chooses 2x2 by default; the colours do not change inside the group (`δ = 0`)
example : ∃ e, Configured ⟨true, 8⟩ 75 [] e ∧ Platform.Valid ⟨true, 8⟩ ∧
    (2 : UInt16).toNat * (2 : UInt16).toNat * 4 ≤ oneInk.length ∧ Spec.SliceOk ⟨true, 8⟩ oneInk ∧
    ScansFine true e ∧ Spec.EightBit e.getQuantizationTables ∧ e.getSamplingFactor.factors = (2, 2) ∧ (mcuPixels 2 2 2 2 0 0).card = 4 ∧
    Spec.Supported ⟨true, 8⟩ true e .cmyk 2 2 (Spec.samplesOf .cmyk oneInk 2) ∧
    Spec.Supported ⟨true, 8⟩ true e .ycck 2 2 (Spec.samplesOf .cmykAsYcck oneInk 2) ∧
    ∀ p ∈ mcuPixels 2 2 2 2 0 0, ∀ c, c < 3 → Spec.inkAt oneInk 2 (p.1 / 2 * 2) (p.2 / 2 * 2) c = Spec.inkAt oneInk 2 p.1 p.2 c := by
  obtain ⟨e, h1, h2⟩ := reachable_exists ⟨true, 8⟩ 75 [] (by decide)
  have ho : e.getOptimizedHuffmanTables = false := by rw [h2.optimized]; rfl
  refine ⟨e, h1, by decide, by decide, by unfold Spec.SliceOk; decide, ?_, ?_, ?_, by decide, ⟨by decide, by decide, Or.inl rfl, Or.inl ho⟩,
    ⟨by decide, by decide, Or.inl rfl, Or.inl ho⟩, by decide⟩
  · intro _ n hn
    rw [h2.scans] at hn; cases hn
  · intro t ht
    rw [h2.quant] at ht
    rcases ht with h | h <;> cases h
  · rw [h2.sampling]; decide

end Jpeg
