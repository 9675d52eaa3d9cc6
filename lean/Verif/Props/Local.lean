import Verif.Props.Accuracy
import Verif.Proofs.Flat
/-! C47, C48: flat areas stay flat, and changes stay where they are. -/
namespace Jpeg
open _root_.Spec
theorem idct_dc (S : Nat → Nat → ℝ) (h : ∀ u v, u < 8 → v < 8 → ¬ (u = 0 ∧ v = 0) → S u v = 0) (y x : Nat) : realIdct S y x = S 0 0 / 8 := by
  unfold realIdct
  rw [Finset.sum_eq_single 0, Finset.sum_eq_single 0]
  · simp only [dctC, if_true, Nat.cast_zero, mul_zero, zero_mul, zero_div, Real.cos_zero, mul_one]
    have h2 : (√2 : ℝ) * √2 = 2 := Real.mul_self_sqrt (by norm_num)
    have h3 : (√2 : ℝ) ≠ 0 := by positivity
    have h4 : (√2 : ℝ) ^ 2 = 2 := by rw [pow_two]; exact h2
    field_simp
    rw [h4]
    ring
  · intro v hv hv0
    rw [h 0 v (by omega) (Finset.mem_range.mp hv) (by omega)]
    ring
  · intro h0; simp at h0
  · intro u hu hu0
    refine Finset.sum_eq_zero fun v hv => ?_
    rw [h u v (Finset.mem_range.mp hu) (Finset.mem_range.mp hv) (by omega)]
    ring
  · intro h0; simp at h0

section
variable {pf : Platform} (hpf : pf.Valid) {q : UInt8} {calls : List Spec.Call} {e : Encoder} (hc : Configured pf q calls e)
  {simd : Bool} {p : Prog (R Unit)} {ct : JpegColorType} {w h : UInt16} {P : Nat → Nat → Nat → UInt8} (hp : Spec.EncodeCall pf simd e p ct w h P)
  (hs : Spec.Supported pf simd e ct w h P) (h8 : Spec.EightBit e.getQuantizationTables) {strict : Bool} (hst : ScansFine strict e)
include hpf hc hp hs h8 hst

/-- C47: a block that stands for 64 samples with the same value `v` has no AC coefficients in the file, and each of the 64 samples a decoder
reconstructs from it differs from `v` by the same amount, at most 1/8 of what quantising the DC coefficient may change. -/
theorem C47_flat_blocks : Spec.Encodes p strict fun _ d => ∃ f, d.frame = some f ∧
    ∀ c fc, f.comps[c]? = some fc → ∃ table, d.qts fc.tq = some table ∧
      ∀ by_ bx, by_ < f.blocksHigh fc → bx < f.blocksWide fc → ∀ v : UInt8,
        (∀ y x, y < 8 → x < 8 → P c (min ((8 * by_ + y) * (f.vmax / fc.v)) (h.toNat - 1)) (min ((8 * bx + x) * (f.hmax / fc.h)) (w.toNat - 1)) = v) →
        (∀ k, 1 ≤ k → k < 64 → d.coefs c by_ bx k = 0) ∧
        ∃ r : ℝ, (∀ y x, y < 8 → x < 8 → reconstructed table (d.coefs c by_ bx) y x = r) ∧ |r - v.toNat| ≤ quantError (table.getD 0 0) / 8 := by
  refine ((C29_sampling_positions hpf hc hp hs h8 hst).and (C21_tables_in_file hpf hc hp hs h8 hst)).mono ?_
  rintro _ d ⟨⟨f, q0, q1, hf, hq, hall⟩, f', q0', q1', hf', hq', htab⟩
  rw [hf] at hf'
  cases hf'
  obtain rfl : q0 = q0' := by have := hq.1.symm.trans hq'.1; cases this; rfl
  obtain rfl : q1 = q1' := by have := hq.2.symm.trans hq'.2; cases this; rfl
  refine ⟨f, hf, fun c fc hfc => ?_⟩
  obtain ⟨ht01, l, hl, hlen, hent⟩ := htab fc (List.mem_of_getElem? hfc)
  refine ⟨l, hl, fun by_ bx hby hbx v hv => ?_⟩
  obtain ⟨samples, hsl, hsv, hco⟩ := hall c fc hfc by_ bx hby hbx
  have hflat : samples = List.replicate 64 ((v.toNat : Int) - 128) := by
    refine List.ext_getElem? fun i => ?_
    by_cases hi : i < 64
    · have := hsv (i / 8) (i % 8) (by omega) (by omega)
      rw [show 8 * (i / 8) + i % 8 = i by omega, hv _ _ (by omega) (by omega)] at this
      rw [this, List.getElem?_replicate, if_pos hi]
    · rw [List.getElem?_eq_none (by omega), List.getElem?_eq_none (by simp; omega)]
  have hvr : -128 ≤ (v.toNat : Int) - 128 ∧ (v.toNat : Int) - 128 ≤ 127 := by have := v.toNat_lt; omega
  have hdct := dct_constant simd pf _ hvr
  have hq0 : q0 = mkQ (steps e.getQuantizationTables.1 q.toNat true) := by
    have := hq.1.symm.trans (newWithQuality_eq _ _ _); cases this; rfl
  have hq1 : q1 = mkQ (steps e.getQuantizationTables.2 q.toNat false) := by
    have := hq.2.symm.trans (newWithQuality_eq _ _ _); cases this; rfl
  obtain ⟨ty, b, hty, htq⟩ : ∃ (ty : QuantizationTableType) (b : Bool), (∀ t, ty = .custom t → ∀ v ∈ t.toList, v.toNat ≤ 255) ∧
      (if fc.tq = 0 then q0 else q1) = mkQ (steps ty q.toNat b) := by
    by_cases h0 : fc.tq = 0
    · exact ⟨_, _, fun t ht => h8 t (Or.inl ht), by rw [if_pos h0, hq0]⟩
    · exact ⟨_, _, fun t ht => h8 t (Or.inr ht), by rw [if_neg h0, hq1]⟩
  rw [htq] at hco hent
  rw [hflat] at hco
  have hcoef : ∀ k, k < 64 → (mkQ (steps ty q.toNat b)).quantize pf ((64 * ((v.toNat : Int) - 128) :: List.replicate 63 0).getD (zigzag.getD k 0) 0)
      (zigzag.getD k 0) = .ok (d.coefs c by_ bx k) := by
    intro k hk
    obtain ⟨freq, h1, h2⟩ := hco k hk
    rw [hdct] at h1
    cases h1
    exact h2
  have hac : ∀ k, 1 ≤ k → k < 64 → d.coefs c by_ bx k = 0 := by
    intro k h1 hk
    have hz : zigzag.getD k 0 < 64 := by rw [zigzag_eq]; exact ZIGZAG_getD_lt hk
    have h2 := hcoef k hk
    have hz0 : (64 * ((v.toNat : Int) - 128) :: List.replicate 63 0).getD (zigzag.getD k 0) 0 = 0 := by
      have hne := zigzag_pos k hk h1
      generalize zigzag.getD k 0 = z at hz hne
      obtain ⟨z, rfl⟩ := Nat.exists_eq_succ_of_ne_zero hne
      rw [List.getD_cons_succ, List.getD_eq_getElem?_getD, List.getElem?_replicate, if_pos (by omega)]
      rfl
    have hzl : zigzag.getD k 0 < (steps ty q.toNat b).length := by rw [steps_length]; exact hz
    rw [hz0, quantize_eq pf _ (steps_range _ _ _) _ hzl 0 (by omega)] at h2
    rw [← Except.ok.inj h2]
    exact quantOf_zero (steps_range _ _ _ _ (getD_mem hzl))
  refine ⟨hac, (l.getD 0 0 : ℝ) * d.coefs c by_ bx 0 / 8 + 128, ?_, ?_⟩
  · intro y x _ _
    rw [reconstructed, idct_dc]
    · simp only [dequantized, show zigzag.idxOf (8 * 0 + 0) = 0 by decide]
    · intro u v hu hv' h0
      obtain ⟨h1, h2⟩ := zigzag_idxOf (8 * u + v) (by omega)
      have hne : zigzag.idxOf (8 * u + v) ≠ 0 := by
        intro h
        rw [h] at h2
        have : zigzag.getD 0 0 = 0 := by decide
        omega
      rw [dequantized, hac _ (by omega) h1]
      push_cast
      ring
  · have hstep := hent 0 (by omega)
    have h2 := hcoef 0 (by omega)
    rw [show zigzag.getD 0 0 = 0 by decide] at h2 hstep
    rw [List.getD_cons_zero] at h2
    have := quant_error (steps_le255 hty) (by omega) (x := 64 * ((v.toNat : Int) - 128)) (by rw [abs_le]; omega) h2 hstep
    push_cast at this
    rw [abs_le] at this ⊢
    constructor <;> linarith [this.1, this.2]

/-- C47, quality 100 with built-in tables: rounding the reconstructed samples of a flat block gives `v` exactly. -/
theorem C47_quality_100 (hq : 100 ≤ q) (hb : ∀ t, e.getQuantizationTables.1 ≠ .custom t ∧ e.getQuantizationTables.2 ≠ .custom t) :
    Spec.Encodes p strict fun _ d => ∃ f, d.frame = some f ∧
    ∀ c fc, f.comps[c]? = some fc → ∃ table, d.qts fc.tq = some table ∧
      ∀ by_ bx, by_ < f.blocksHigh fc → bx < f.blocksWide fc → ∀ v : UInt8,
        (∀ y x, y < 8 → x < 8 → P c (min ((8 * by_ + y) * (f.vmax / fc.v)) (h.toNat - 1)) (min ((8 * bx + x) * (f.hmax / fc.h)) (w.toNat - 1)) = v) →
        ∀ y x, y < 8 → x < 8 → round (reconstructed table (d.coefs c by_ bx) y x) = v.toNat := by
  refine ((C47_flat_blocks hpf hc hp hs h8 hst).and (C21_tables_in_file hpf hc hp hs h8 hst)).mono ?_
  rintro _ d ⟨⟨f, hf, hall⟩, f', q0, q1, hf', hqt, htab⟩
  rw [hf] at hf'
  cases hf'
  refine ⟨f, hf, fun c fc hfc => ?_⟩
  obtain ⟨table, ht, hflat⟩ := hall c fc hfc
  refine ⟨table, ht, fun by_ bx hby hbx v hv y x hy hx => ?_⟩
  obtain ⟨-, r, h1, h2⟩ := hflat by_ bx hby hbx v hv
  obtain ⟨ht01, l, hl, -, hent⟩ := htab fc (List.mem_of_getElem? hfc)
  rw [ht] at hl
  cases hl
  have hone : table.getD 0 0 = 1 := by
    have h0 : ∀ z, z < 64 → q0.get z = .ok 1 := by
      obtain ⟨t, h1, h2⟩ := C20_quality_100 _ (fun t => (hb t).1) q hq true
      have := hqt.1.symm.trans h1
      cases this
      exact h2
    have h1 : ∀ z, z < 64 → q1.get z = .ok 1 := by
      obtain ⟨t, h1, h2⟩ := C20_quality_100 _ (fun t => (hb t).2) q hq false
      have := hqt.2.symm.trans h1
      cases this
      exact h2
    have := hent 0 (by omega)
    rw [show zigzag.getD 0 0 = 0 by decide] at this
    split at this
    · rw [h0 _ (by omega)] at this; simp only [Except.ok.injEq] at this; exact this.symm
    · rw [h1 _ (by omega)] at this; simp only [Except.ok.injEq] at this; exact this.symm
  have hqe : quantError 1 = 1 / 2 := by
    unfold quantError
    rw [if_pos ⟨0, by norm_num⟩]; norm_num
  rw [hone, hqe, abs_le] at h2
  rw [h1 y x hy hx, round_eq, Int.floor_eq_iff]
  push_cast
  constructor <;> linarith [h2.1, h2.2]

/-- C48: two images of the same size and color type. A block whose 64 samples are the same in both images has the same coefficients in both
files, however different the images are elsewhere. -/
theorem C48_changes_are_local {p' : Prog (R Unit)} {P' : Nat → Nat → Nat → UInt8} (hp' : Spec.EncodeCall pf simd e p' ct w h P')
    (hs' : Spec.Supported pf simd e ct w h P') :
    Spec.Encodes p strict fun _ d => Spec.Encodes p' strict fun _ d' => ∃ f, d.frame = some f ∧ d'.frame = some f ∧
      ∀ c fc, f.comps[c]? = some fc → ∀ by_ bx, by_ < f.blocksHigh fc → bx < f.blocksWide fc →
        (∀ y x, y < 8 → x < 8 → P c (min ((8 * by_ + y) * (f.vmax / fc.v)) (h.toNat - 1)) (min ((8 * bx + x) * (f.hmax / fc.h)) (w.toNat - 1)) =
          P' c (min ((8 * by_ + y) * (f.vmax / fc.v)) (h.toNat - 1)) (min ((8 * bx + x) * (f.hmax / fc.h)) (w.toNat - 1))) →
        ∀ k, k < 64 → d.coefs c by_ bx k = d'.coefs c by_ bx k := by
  refine ((C29_sampling_positions hpf hc hp hs h8 hst).and (C32_frame_header hpf hc hp hs h8 hst)).mono ?_
  rintro _ d ⟨⟨f, q0, q1, hf, hq, hall⟩, -, -, -, hfr⟩
  refine ((C29_sampling_positions hpf hc hp' hs' h8 hst).and (C32_frame_header hpf hc hp' hs' h8 hst)).mono ?_
  rintro _ d' ⟨⟨f', q0', q1', hf', hq', hall'⟩, -, -, -, hfr'⟩
  obtain rfl : q0 = q0' := by have := hq.1.symm.trans hq'.1; cases this; rfl
  obtain rfl : q1 = q1' := by have := hq.2.symm.trans hq'.2; cases this; rfl
  have hff : f = f' := by
    unfold Spec.HasFrame at hfr hfr'
    have := hfr.trans hfr'.symm
    rw [hf, hf'] at this
    exact Option.some.inj this
  subst hff
  refine ⟨f, hf, hf', fun c fc hfc by_ bx hby hbx hsame k hk => ?_⟩
  obtain ⟨samples, hsl, hsv, hco⟩ := hall c fc hfc by_ bx hby hbx
  obtain ⟨samples', hsl', hsv', hco'⟩ := hall' c fc hfc by_ bx hby hbx
  have hss : samples = samples' := by
    refine List.ext_getElem? fun i => ?_
    by_cases hi : i < 64
    · have h1 := hsv (i / 8) (i % 8) (by omega) (by omega)
      have h2 := hsv' (i / 8) (i % 8) (by omega) (by omega)
      rw [← hsame _ _ (by omega) (by omega), ← h1] at h2
      rw [show 8 * (i / 8) + i % 8 = i by omega] at h2
      exact h2.symm
    · rw [List.getElem?_eq_none (by omega), List.getElem?_eq_none (by omega)]
  subst hss
  exact IsCoef_unique (hco k hk) (hco' k hk)

end

/-! ### Concrete cases -/

-- a 16x8 image: the left block is flat and has the same samples as in another image, the right block is not and has not
example : let P : Nat → Nat → Nat → UInt8 := fun _ y x => if x < 8 then 5 else UInt8.ofNat (x * y)
    let P' : Nat → Nat → Nat → UInt8 := fun _ y x => if x < 8 then 5 else UInt8.ofNat (x + y)
    (∀ y x, y < 8 → x < 8 → P 0 (min ((8 * 0 + y) * 1) 7) (min ((8 * 0 + x) * 1) 15) = 5) ∧
    (∀ y x, y < 8 → x < 8 → P 0 (min ((8 * 0 + y) * 1) 7) (min ((8 * 0 + x) * 1) 15) = P' 0 (min ((8 * 0 + y) * 1) 7) (min ((8 * 0 + x) * 1) 15)) ∧
    P 0 3 10 ≠ P 0 4 10 ∧ P 0 3 10 ≠ P' 0 3 10 := by
  refine ⟨?_, ?_, by decide, by decide⟩
  · intro y x hy hx
    beta_reduce
    rw [if_pos (by omega)]
  · intro y x hy hx
    beta_reduce
    rw [if_pos (by omega), if_pos (by omega)]

-- an image and settings that satisfy the hypotheses
example : ∃ e p P, Configured ⟨true, 8⟩ 100 [.setProgressive true] e ∧ Platform.Valid ⟨true, 8⟩ ∧ Spec.EncodeCall ⟨true, 8⟩ true e p .luma 2 1 P ∧
    Spec.Supported ⟨true, 8⟩ true e .luma 2 1 P ∧ Spec.EightBit e.getQuantizationTables ∧ ScansFine true e := by
  obtain ⟨e, h1, h2⟩ := reachable_exists ⟨true, 8⟩ 100 [.setProgressive true] (by decide)
  have hq : e.getQuantizationTables = (.default, .default) := by rw [h2.quant]; rfl
  refine ⟨e, _, _, h1, by decide, .data [9, 9] 2 1 .luma (by decide) (by unfold Spec.SliceOk; decide), ⟨by decide, by decide, Or.inl rfl, Or.inl ?_⟩, ?_, ?_⟩
  · rw [h2.optimized]; rfl
  · intro t ht; rw [hq] at ht; rcases ht with h | h <;> cases h
  · intro _ n hn
    rw [h2.scans] at hn; cases hn; decide

end Jpeg
