import Verif.Props.Local
import Verif.Props.Bits
/-! C55: the files written with and without SIMD contain nearly the same image. -/
namespace Jpeg
open _root_.Spec

theorem quantOf_pred {v : Nat} (h1 : 1 ≤ v) (h2 : v ≤ 2048) {x : Int} (hx : -8191 ≤ x ∧ x ≤ 8192) :
    quantOf v (x - 1) ≤ quantOf v x ∧ quantOf v x ≤ quantOf v (x - 1) + 1 := by
  constructor
  · simp only [quantOf]
    split
    · split
      · have := quantAbs_mono v (show x.natAbs ≤ (x - 1).natAbs by omega)
        omega
      · omega
    · rw [if_neg (by omega)]
      have := quantAbs_mono v (show (x - 1).natAbs ≤ x.natAbs by omega)
      omega
  · have a := abs_le.mp (quantOf_error h1 h2 (x := x) (by rw [abs_le]; omega))
    have b := abs_le.mp (quantOf_error h1 h2 (x := x - 1) (by rw [abs_le]; omega))
    by_contra hc
    have h : (v : Int) * (quantOf v (x - 1) + 2) ≤ v * quantOf v x := mul_le_mul_of_nonneg_left (by omega) (by omega)
    rw [mul_add] at h
    nlinarith [a.1, a.2, b.1, b.2]

theorem zigzag_lt : ∀ k, k < 64 → zigzag.getD k 0 < 64 := by decide +kernel

theorem isCoef_simd {pf : Platform} {type : QuantizationTableType} {quality : UInt8} {luma : Bool} {table : QuantizationTable}
    (ht : QuantizationTable.newWithQuality type quality.toNat luma = .ok table) {samples : List Int} (hl : samples.length = 64) (hs : Shifted samples)
    {k : Nat} (hk : k < 64) {a b : Int} (ha : Spec.IsCoef pf false table samples k a) (hb : Spec.IsCoef pf true table samples k b) :
    b = a ∨ (zigzag.getD k 0 % 2 = 1 ∧ (zigzag.getD k 0 / 8 = 0 ∨ zigzag.getD k 0 / 8 = 4) ∧ b = a - 1) := by
  obtain ⟨F, hF, hqa⟩ := ha
  obtain ⟨G, hG, hqb⟩ := hb
  have h1 : Spec.buildDct false pf samples = .ok (fdctP samples) := opOk_default.run pf samples hl hs
  have h2 : Spec.buildDct true pf samples = .ok (Avx2.fdctA samples) := opOk_avx2.run pf samples hl hs
  rw [h1] at hF
  rw [h2] at hG
  cases hF
  cases hG
  rw [newWithQuality_eq] at ht
  cases ht
  have hz := zigzag_lt k hk
  generalize zigzag.getD k 0 = z at *
  have b1 : -8192 ≤ (fdctP samples).getD z 0 ∧ (fdctP samples).getD z 0 ≤ 8161 := by
    by_cases h0 : z = 0
    · subst h0; have := opOk_default.dc samples hl hs; omega
    · have := opOk_default.ac samples z hl hs (by omega) hz; omega
  have b2 : -8192 ≤ (Avx2.fdctA samples).getD z 0 ∧ (Avx2.fdctA samples).getD z 0 ≤ 8161 := by
    by_cases h0 : z = 0
    · subst h0; have := opOk_avx2.dc samples hl hs; omega
    · have := opOk_avx2.ac samples z hl hs (by omega) hz; omega
  have hlen : z < (steps type quality.toNat luma).length := by rw [steps_length]; exact hz
  rw [quantize_eq pf _ (steps_range _ _ _) z hlen _ (by omega)] at hqa hqb
  have hv : 1 ≤ (steps type quality.toNat luma).getD z 1 ∧ (steps type quality.toNat luma).getD z 1 ≤ 2048 := by
    have e : (steps type quality.toNat luma).getD z 1 = (steps type quality.toNat luma)[z] := by
      rw [List.getD_eq_getElem?_getD, List.getElem?_eq_getElem hlen, Option.getD_some]
    rw [e]
    exact steps_range _ _ _ _ (List.getElem_mem _)
  generalize (steps type quality.toNat luma).getD z 1 = v at *
  have ha := Except.ok.inj hqa
  have hb := Except.ok.inj hqb
  obtain ⟨sc, av, e1, e2, -, -, hd⟩ := C26_fdct pf samples hl hs
  have e1' : defaultOperations.fdct pf samples = .ok (fdctP samples) := h1
  have e2' : avx2Operations.fdct pf samples = .ok (Avx2.fdctA samples) := h2
  rw [e1'] at e1
  rw [e2'] at e2
  cases e1
  cases e2
  have hd := hd (z / 8) (z % 8) (by omega) (by omega)
  rw [show 8 * (z / 8) + z % 8 = z by omega] at hd
  rcases hd with hd | ⟨hr, ho, hd⟩
  · left
    rw [← ha, ← hb, hd]
  · rw [hd] at hb b2
    have := quantOf_pred hv.1 hv.2 (x := (fdctP samples).getD z 0) (by omega)
    by_cases he : b = a
    · exact Or.inl he
    · exact Or.inr ⟨by omega, hr, by omega⟩

/-- C55: the same call with and without SIMD. Both files are accepted by a decoder, with the same frame and the same quantisation tables. Every
coefficient has the same value in both files, except possibly those in rows 0 and 4 and odd columns of a block, where the value with SIMD
may be one less. -/
theorem C55_simd_file {pf : Platform} (hpf : pf.Valid) {q : UInt8} {calls : List Spec.Call} {e : Encoder} (hc : Configured pf q calls e)
    {p p' : Prog (R Unit)} {ct : JpegColorType} {w h : UInt16} {P : Nat → Nat → Nat → UInt8} (hp : Spec.EncodeCall pf false e p ct w h P)
    (hp' : Spec.EncodeCall pf true e p' ct w h P)
    (hs : Spec.Supported pf false e ct w h P) (hs' : Spec.Supported pf true e ct w h P) (h8 : Spec.EightBit e.getQuantizationTables) {strict : Bool} (hst : ScansFine strict e) :
    Spec.Encodes p strict fun _ d => Spec.Encodes p' strict fun _ d' => ∃ f, d.frame = some f ∧ d'.frame = some f ∧
      (∀ fc ∈ f.comps, d'.qts fc.tq = d.qts fc.tq) ∧
      ∀ c (fc : FrameComp), f.comps[c]? = some fc → ∀ by_ bx, by_ < f.blocksHigh fc → bx < f.blocksWide fc → ∀ k, k < 64 →
        (d'.coefs c by_ bx k = d.coefs c by_ bx k ∨
          (zigzag.getD k 0 % 2 = 1 ∧ (zigzag.getD k 0 / 8 = 0 ∨ zigzag.getD k 0 / 8 = 4) ∧ d'.coefs c by_ bx k = d.coefs c by_ bx k - 1)) := by
  refine (((C29_sampling_positions hpf hc hp hs h8 hst).and (C32_frame_header hpf hc hp hs h8 hst)).and (C21_tables_in_file hpf hc hp hs h8 hst)).mono ?_
  rintro _ d ⟨⟨⟨f, q0, q1, hf, hq, hall⟩, -, -, -, hfr⟩, f1, p0, p1, hf1, hp1, htab⟩
  refine (((C29_sampling_positions hpf hc hp' hs' h8 hst).and (C32_frame_header hpf hc hp' hs' h8 hst)).and (C21_tables_in_file hpf hc hp' hs' h8 hst)).mono ?_
  rintro _ d' ⟨⟨⟨f', q0', q1', hf', hq', hall'⟩, -, -, -, hfr'⟩, f2, p0', p1', hf2, hp2, htab'⟩
  have hff : f = f' := by
    unfold Spec.HasFrame at hfr hfr'
    have := hfr.trans hfr'.symm
    rw [hf, hf'] at this
    exact Option.some.inj this
  subst hff
  refine ⟨f, hf, hf', ?_, fun c fc hfc by_ bx hby hbx k hk => ?_⟩
  · intro fc hfc
    obtain rfl : f = f1 := Option.some.inj (hf.symm.trans hf1)
    obtain rfl : f = f2 := Option.some.inj (hf'.symm.trans hf2)
    obtain rfl : p0 = p0' := by have := hp1.1.symm.trans hp2.1; cases this; rfl
    obtain rfl : p1 = p1' := by have := hp1.2.symm.trans hp2.2; cases this; rfl
    obtain ⟨-, l, hl, hlen, hlv⟩ := htab fc hfc
    obtain ⟨-, l', hl', hlen', hlv'⟩ := htab' fc hfc
    rw [hl, hl']
    congr 1
    refine List.ext_getElem? fun k => ?_
    by_cases hk : k < 64
    · have := (hlv' k hk).symm.trans (hlv k hk)
      have := Except.ok.inj this
      rw [List.getD_eq_getElem?_getD, List.getD_eq_getElem?_getD, List.getElem?_eq_getElem (by omega), List.getElem?_eq_getElem (by omega)] at this
      rw [List.getElem?_eq_getElem (by omega), List.getElem?_eq_getElem (by omega)]
      exact congrArg some this
    · rw [List.getElem?_eq_none (by omega), List.getElem?_eq_none (by omega)]
  obtain rfl : q0 = q0' := by have := hq.1.symm.trans hq'.1; cases this; rfl
  obtain rfl : q1 = q1' := by have := hq.2.symm.trans hq'.2; cases this; rfl
  obtain ⟨samples, hsl, hsv, hco⟩ := hall c fc hfc by_ bx hby hbx
  obtain ⟨samples', hsl', hsv', hco'⟩ := hall' c fc hfc by_ bx hby hbx
  have hss : samples = samples' := by
    refine List.ext_getElem? fun i => ?_
    by_cases hi : i < 64
    · have h1 := hsv (i / 8) (i % 8) (by omega) (by omega)
      have h2 := hsv' (i / 8) (i % 8) (by omega) (by omega)
      rw [← h1] at h2
      rw [show 8 * (i / 8) + i % 8 = i by omega] at h2
      exact h2.symm
    · rw [List.getElem?_eq_none (by omega), List.getElem?_eq_none (by omega)]
  subst hss
  have hsh : Shifted samples := by
    intro v hv
    obtain ⟨i, hi, hiv⟩ := List.getElem_of_mem hv
    have h1 := hsv (i / 8) (i % 8) (by omega) (by omega)
    rw [show 8 * (i / 8) + i % 8 = i by omega, List.getElem?_eq_getElem hi, hiv] at h1
    have h1 := Option.some.inj h1
    have := (P c (min ((8 * by_ + i / 8) * (f.vmax / fc.v)) (h.toNat - 1)) (min ((8 * bx + i % 8) * (f.hmax / fc.h)) (w.toNat - 1))).toNat_lt
    omega
  have ha := hco k hk
  have hb := hco' k hk
  split at ha
  · rename_i h0
    rw [if_pos h0] at hb
    exact isCoef_simd hq.1 hsl hsh hk ha hb
  · rename_i h0
    rw [if_neg h0] at hb
    exact isCoef_simd hq.2 hsl hsh hk ha hb

-- the hypotheses hold for a progressive 4:2:0 encoder with a restart interval and a 200 x 100 RGB image
example : ∃ e p p' P, Configured ⟨true, 8⟩ 75 [.setProgressive true, .setRestartInterval 3, .setSamplingFactor .F_2_2] e ∧ Platform.Valid ⟨true, 8⟩ ∧
    Spec.EncodeCall ⟨true, 8⟩ false e p .ycbcr 200 100 P ∧ Spec.EncodeCall ⟨true, 8⟩ true e p' .ycbcr 200 100 P ∧
    Spec.Supported ⟨true, 8⟩ false e .ycbcr 200 100 P ∧ Spec.Supported ⟨true, 8⟩ true e .ycbcr 200 100 P ∧
    Spec.EightBit e.getQuantizationTables ∧ ScansFine true e := by
  obtain ⟨e, h1, h2⟩ := reachable_exists ⟨true, 8⟩ 75 [.setProgressive true, .setRestartInterval 3, .setSamplingFactor .F_2_2] (by decide)
  have hq : e.getQuantizationTables = (.default, .default) := by rw [h2.quant]; rfl
  have hl : (200 : UInt16).toNat * (100 : UInt16).toNat * ColorType.rgb.bytesPerPixel ≤ (List.replicate 60000 (7 : UInt8)).length := by
    rw [List.length_replicate]; decide
  have hsl : Spec.SliceOk ⟨true, 8⟩ (List.replicate 60000 7) := by rw [Spec.SliceOk, List.length_replicate]; decide
  refine ⟨e, _, _, _, h1, by decide, .data _ 200 100 .rgb hl hsl, .data _ 200 100 .rgb hl hsl,
    ⟨by decide, by decide, Or.inl rfl, Or.inl ?_⟩, ⟨by decide, by decide, Or.inl rfl, Or.inl ?_⟩, ?_, ?_⟩
  · rw [h2.optimized]; rfl
  · rw [h2.optimized]; rfl
  · intro t ht; rw [hq] at ht; rcases ht with h | h <;> cases h
  · intro _ n hn
    rw [h2.scans] at hn; cases hn; decide

end Jpeg
