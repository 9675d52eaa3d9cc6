import Verif.Props.Finer
import Verif.Props.Tiles
/-! C91: components do not influence each other. -/
namespace Jpeg
open _root_.Spec

section
variable {pf : Platform} (hpf : pf.Valid) {q : UInt8} {calls : List Spec.Call} {e : Encoder} (hc : Configured pf q calls e)
  {simd : Bool} {p : Prog (R Unit)} {ct : JpegColorType} {w h : UInt16} {P : Nat → Nat → Nat → UInt8} (hp : Spec.EncodeCall pf simd e p ct w h P)
  (hs : Spec.Supported pf simd e ct w h P) (h8 : Spec.EightBit e.getQuantizationTables) {strict : Bool} (hst : ScansFine strict e)
include hpf hc hp hs h8 hst

/-- Every coefficient is a function of the entry of the table in the file and the 64 samples of its block. -/
theorem coef_by_table : Spec.Encodes p strict fun _ d => ∃ f, d.frame = some f ∧
    f = ⟨d.frame.elim false (·.progressive), h.toNat, w.toNat, Spec.expectedComps e.getSamplingFactor.factors.1 e.getSamplingFactor.factors.2 ct⟩ ∧
    ∀ c fc, f.comps[c]? = some fc → ∃ l, d.qts fc.tq = some l ∧ l.length = 64 ∧ ∀ by_ bx, by_ < f.blocksHigh fc → bx < f.blocksWide fc → ∀ k, k < 64 →
      d.coefs c by_ bx k = quantOf (l.getD k 0) ((dctFn simd (Spec.blockSamples w.toNat h.toNat P c (f.vmax / fc.v) (f.hmax / fc.h) by_ bx)).getD (zigzag.getD k 0) 0) := by
  refine (((C29_sampling_positions hpf hc hp hs h8 hst).and (C32_frame_header hpf hc hp hs h8 hst)).and (C21_tables_in_file hpf hc hp hs h8 hst)).mono ?_
  rintro _ d ⟨⟨⟨f, q0, q1, hf, hq, hall⟩, -, -, -, hfr⟩, f1, p0, p1, hf1, hp1, htab⟩
  unfold Spec.HasFrame at hfr
  obtain rfl : f = f1 := Option.some.inj (hf.symm.trans hf1)
  obtain rfl : q0 = p0 := by have := hq.1.symm.trans hp1.1; cases this; rfl
  obtain rfl : q1 = p1 := by have := hq.2.symm.trans hp1.2; cases this; rfl
  have e1 := Option.some.inj (hf.symm.trans hfr)
  refine ⟨f, hf, by rw [hf]; simp [e1], fun c fc hfc => ?_⟩
  obtain ⟨htq, l, hl, hlen, hlv⟩ := htab fc (List.mem_of_getElem? hfc)
  refine ⟨l, hl, hlen, fun by_ bx hby hbx k hk => ?_⟩
  obtain ⟨samples, hsl, hsv, hco⟩ := hall c fc hfc by_ bx hby hbx
  have hss : samples = Spec.blockSamples w.toNat h.toNat P c (f.vmax / fc.v) (f.hmax / fc.h) by_ bx := by
    refine List.ext_getElem? fun i => ?_
    by_cases hi : i < 64
    · have h1 := hsv (i / 8) (i % 8) (by omega) (by omega)
      rw [show 8 * (i / 8) + i % 8 = i by omega] at h1
      rw [h1, Spec.blockSamples, List.getElem?_map, List.getElem?_range hi]
      rfl
    · rw [List.getElem?_eq_none (by omega), List.getElem?_eq_none (by rw [blockSamples_length]; omega)]
  subst hss
  have hsh : Shifted (Spec.blockSamples w.toNat h.toNat P c (f.vmax / fc.v) (f.hmax / fc.h) by_ bx) := by
    intro v hv
    obtain ⟨i, -, rfl⟩ := List.mem_map.mp hv
    have := (Spec.sampleAt w.toNat h.toNat P c ((8 * by_ + i / 8) * (f.vmax / fc.v)) ((8 * bx + i % 8) * (f.hmax / fc.h))).toNat_lt
    omega
  have ha := hco k hk
  have hlk := hlv k hk
  have h88 := eightBit_steps h8
  have key : ∀ {type : QuantizationTableType} {luma : Bool} {t : QuantizationTable}, QuantizationTable.newWithQuality type q.toNat luma = .ok t →
      (∀ v ∈ steps type q.toNat luma, v ≤ 255) → Spec.IsCoef pf simd t (Spec.blockSamples w.toNat h.toNat P c (f.vmax / fc.v) (f.hmax / fc.h) by_ bx) k (d.coefs c by_ bx k) →
      t.get (zigzag.getD k 0) = .ok (l.getD k 0) →
      d.coefs c by_ bx k = quantOf (l.getD k 0) ((dctFn simd (Spec.blockSamples w.toNat h.toNat P c (f.vmax / fc.v) (f.hmax / fc.h) by_ bx)).getD (zigzag.getD k 0) 0) := by
    intro type luma t ht hv ha hg
    obtain ⟨a1, -, a3⟩ := isCoef_quantOf ht hsl hsh hk ha
    have hm := getD_mem (s := steps type q.toNat luma) (k := zigzag.getD k 0) (by rw [steps_length]; exact zigzag_lt k hk)
    have s1 := hv _ hm
    rw [a3] at hg
    have hg := Except.ok.inj hg
    rw [Nat.mod_eq_of_lt (by omega)] at hg
    rw [a1, hg]
  have hquality := hc.settings.1.quality
  unfold Steps8 Encoder.steps0 Encoder.steps1 at h88
  rw [hquality] at h88
  rcases htq with h0 | h0
  · rw [if_pos h0] at ha hlk
    exact key hq.1 h88.1 ha hlk
  · rw [if_neg (by omega)] at ha hlk
    exact key hq.2 h88.2 ha hlk

end

section
variable {pf pf' : Platform} (hpf : pf.Valid) (hpf' : pf'.Valid) {q q' : UInt8} {calls calls' : List Spec.Call} {e e' : Encoder} (hc : Configured pf q calls e)
  (hc' : Configured pf' q' calls' e') {simd : Bool} {p p' : Prog (R Unit)} {ct ct' : JpegColorType} {w h w' h' : UInt16} {P P' : Nat → Nat → Nat → UInt8}
  (hp : Spec.EncodeCall pf simd e p ct w h P) (hp' : Spec.EncodeCall pf' simd e' p' ct' w' h' P')
  (hs : Spec.Supported pf simd e ct w h P) (hs' : Spec.Supported pf' simd e' ct' w' h' P') (h8 : Spec.EightBit e.getQuantizationTables)
  (h8' : Spec.EightBit e'.getQuantizationTables) {strict strict' : Bool} (hst : ScansFine strict e) (hst' : ScansFine strict' e')
include hpf hpf' hc hc' hp hp' hs hs' h8 h8' hst hst'

/-- C91: two images are encoded, with any settings (quality, tables, sampling factors, color types and modes may all differ). If a block of a component of the first and a block of a
component of the second stand for the same 64 samples, then they have the same coefficients wherever the tables the two components use have the same entries. -/
theorem C91_component :
    Spec.Encodes p strict fun _ d => Spec.Encodes p' strict' fun _ d' => ∃ f f', d.frame = some f ∧ d'.frame = some f' ∧
      ∀ c fc c' fc', f.comps[c]? = some fc → f'.comps[c']? = some fc' → ∃ l l', d.qts fc.tq = some l ∧ d'.qts fc'.tq = some l' ∧ l.length = 64 ∧ l'.length = 64 ∧
      ∀ by_ bx by' bx', by_ < f.blocksHigh fc → bx < f.blocksWide fc → by' < f'.blocksHigh fc' → bx' < f'.blocksWide fc' →
        (∀ y x, y < 8 → x < 8 → P c (min ((8 * by_ + y) * (f.vmax / fc.v)) (h.toNat - 1)) (min ((8 * bx + x) * (f.hmax / fc.h)) (w.toNat - 1)) =
          P' c' (min ((8 * by' + y) * (f'.vmax / fc'.v)) (h'.toNat - 1)) (min ((8 * bx' + x) * (f'.hmax / fc'.h)) (w'.toNat - 1))) →
        ∀ k, k < 64 → l[k]? = l'[k]? → d.coefs c by_ bx k = d'.coefs c' by' bx' k := by
  refine (coef_by_table hpf hc hp hs h8 hst).mono ?_
  rintro _ d ⟨f, hf, -, hall⟩
  refine (coef_by_table hpf' hc' hp' hs' h8' hst').mono ?_
  rintro _ d' ⟨f', hf', -, hall'⟩
  refine ⟨f, f', hf, hf', fun c fc c' fc' hfc hfc' => ?_⟩
  obtain ⟨l, hl, hlen, hco⟩ := hall c fc hfc
  obtain ⟨l', hl', hlen', hco'⟩ := hall' c' fc' hfc'
  refine ⟨l, l', hl, hl', hlen, hlen', fun by_ bx by' bx' h1 h2 h3 h4 hsame k hk hkk => ?_⟩
  rw [hco by_ bx h1 h2 k hk, hco' by' bx' h3 h4 k hk, List.getD_eq_getElem?_getD, List.getD_eq_getElem?_getD, hkk]
  congr 3
  refine congrArg _ ?_
  refine List.map_congr_left fun i hi => ?_
  have hi := List.mem_range.mp hi
  unfold Spec.sampleAt
  rw [hsame (i / 8) (i % 8) (by omega) (by omega)]

end

/-- The first component is not subsampled, except for CMYK. -/
theorem first_full {fh fv : Nat} (h1 : 0 < fh) (h2 : 0 < fv) {ct : JpegColorType} (hct : ct ≠ .cmyk) (pr : Bool) (h w : Nat) :
    ∃ fc, (Spec.expectedComps fh fv ct)[0]? = some fc ∧ fc.tq = 0 ∧ (Frame.mk pr h w (Spec.expectedComps fh fv ct)).vmax / fc.v = 1 ∧
      (Frame.mk pr h w (Spec.expectedComps fh fv ct)).hmax / fc.h = 1 ∧
      (Frame.mk pr h w (Spec.expectedComps fh fv ct)).blocksHigh fc = _root_.Spec.ceilDiv h 8 ∧
      (Frame.mk pr h w (Spec.expectedComps fh fv ct)).blocksWide fc = _root_.Spec.ceilDiv w 8 := by
  have hcd : ∀ n m, 0 < m → _root_.Spec.ceilDiv (n * m) m = n := by
    intro n m hm
    unfold _root_.Spec.ceilDiv
    rw [show n * m + m - 1 = (m - 1) + m * n by rw [Nat.mul_comm]; omega, Nat.add_mul_div_left _ _ hm, Nat.div_eq_of_lt (by omega)]
    omega
  have hcd1 : ∀ n, _root_.Spec.ceilDiv n 1 = n := fun n => by unfold _root_.Spec.ceilDiv; omega
  cases ct <;> first | exact absurd rfl hct | skip
  all_goals
    simp only [Spec.expectedComps, List.getElem?_cons_zero, Option.some.injEq, exists_eq_left', Frame.vmax, Frame.hmax, Frame.blocksHigh, Frame.blocksWide, List.map_cons,
      List.map_nil, List.foldl_cons, List.foldl_nil]
    simp [Nat.max_eq_left h1, Nat.max_eq_left h2, Nat.div_self, h1, h2, hcd, hcd1]

section
variable {pf pf' : Platform} (hpf : pf.Valid) (hpf' : pf'.Valid) {q q' : UInt8} {calls calls' : List Spec.Call} {e e' : Encoder} (hc : Configured pf q calls e)
  (hc' : Configured pf' q' calls' e') {simd : Bool} {p p' : Prog (R Unit)} {ct ct' : JpegColorType} {w h : UInt16} {P P' : Nat → Nat → Nat → UInt8}
  (hp : Spec.EncodeCall pf simd e p ct w h P) (hp' : Spec.EncodeCall pf' simd e' p' ct' w h P')
  (hs : Spec.Supported pf simd e ct w h P) (hs' : Spec.Supported pf' simd e' ct' w h P') (h8 : Spec.EightBit e.getQuantizationTables)
  (h8' : Spec.EightBit e'.getQuantizationTables) {strict strict' : Bool} (hst : ScansFine strict e) (hst' : ScansFine strict' e')
include hpf hpf' hc hc' hp hp' hs hs' h8 h8' hst hst'

/-- C91: images of the same size with the same luma plane, encoded with the same luma table (`table 0` of the two files), have the same luma coefficients: neither the chroma planes, nor
whether there are any (gray images), nor the chroma table, nor the sampling factors, nor the mode have an influence. -/
theorem C91_luma (hct : ct ≠ .cmyk) (hct' : ct' ≠ .cmyk) (hP : ∀ y x, y < h.toNat → x < w.toNat → P 0 y x = P' 0 y x) :
    Spec.Encodes p strict fun _ d => Spec.Encodes p' strict' fun _ d' => ∃ l l', d.qts 0 = some l ∧ d'.qts 0 = some l' ∧
      ∀ by_ bx, by_ < _root_.Spec.ceilDiv h.toNat 8 → bx < _root_.Spec.ceilDiv w.toNat 8 → ∀ k, k < 64 → l[k]? = l'[k]? → d.coefs 0 by_ bx k = d'.coefs 0 by_ bx k := by
  refine (coef_by_table hpf hc hp hs h8 hst).mono ?_
  rintro _ d ⟨f, -, hf, hall⟩
  refine (coef_by_table hpf' hc' hp' hs' h8' hst').mono ?_
  rintro _ d' ⟨f', -, hf', hall'⟩
  have hfac : ∀ s : SamplingFactor, 0 < s.factors.1 ∧ 0 < s.factors.2 := by intro s; cases s <;> decide
  obtain ⟨fc, a1, a2, a3, a4, a5, a6⟩ := first_full (hfac e.getSamplingFactor).1 (hfac e.getSamplingFactor).2 hct (d.frame.elim false (·.progressive)) h.toNat w.toNat
  obtain ⟨fc', b1, b2, b3, b4, b5, b6⟩ := first_full (hfac e'.getSamplingFactor).1 (hfac e'.getSamplingFactor).2 hct' (d'.frame.elim false (·.progressive)) h.toNat w.toNat
  rw [← hf] at a3 a4 a5 a6
  rw [← hf'] at b3 b4 b5 b6
  obtain ⟨l, hl, -, hco⟩ := hall 0 fc (by rw [hf]; exact a1)
  obtain ⟨l', hl', -, hco'⟩ := hall' 0 fc' (by rw [hf']; exact b1)
  rw [a2] at hl
  rw [b2] at hl'
  refine ⟨l, l', hl, hl', fun by_ bx h1 h2 k hk hkk => ?_⟩
  rw [hco by_ bx (by rw [a5]; exact h1) (by rw [a6]; exact h2) k hk, hco' by_ bx (by rw [b5]; exact h1) (by rw [b6]; exact h2) k hk, a3, a4, b3, b4,
    List.getD_eq_getElem?_getD, List.getD_eq_getElem?_getD, hkk]
  congr 3
  refine congrArg _ ?_
  refine List.map_congr_left fun i hi => ?_
  unfold Spec.sampleAt
  have hh := hs.height
  have hw := hs.width
  rw [hP _ _ (by have : h.toNat ≠ 0 := fun h0 => hh (UInt16.toNat_inj.mp h0)
                 omega) (by have : w.toNat ≠ 0 := fun h0 => hw (UInt16.toNat_inj.mp h0)
                            omega)]

/-- C91: in terms of the settings: the same quality and the same luma table type. -/
theorem C91_luma_settings (hct : ct ≠ .cmyk) (hct' : ct' ≠ .cmyk) (hP : ∀ y x, y < h.toNat → x < w.toNat → P 0 y x = P' 0 y x) (hq : q = q')
    (ht : e.getQuantizationTables.1 = e'.getQuantizationTables.1) :
    Spec.Encodes p strict fun _ d => Spec.Encodes p' strict' fun _ d' => d.qts 0 = d'.qts 0 ∧
      ∀ by_ bx, by_ < _root_.Spec.ceilDiv h.toNat 8 → bx < _root_.Spec.ceilDiv w.toNat 8 → ∀ k, k < 64 → d.coefs 0 by_ bx k = d'.coefs 0 by_ bx k := by
  refine (((C91_luma hpf hpf' hc hc' hp hp' hs hs' h8 h8' hst hst' hct hct' hP).and (C21_tables_in_file hpf hc hp hs h8 hst)).and (coef_by_table hpf hc hp hs h8 hst)).mono ?_
  rintro _ d ⟨⟨hA, f1, q0, q1, hf1, hq1, htab1⟩, f, hff, hf, -⟩
  refine ((hA.and (C21_tables_in_file hpf' hc' hp' hs' h8' hst')).and (coef_by_table hpf' hc' hp' hs' h8' hst')).mono ?_
  rintro _ d' ⟨⟨⟨l, l', hl, hl', hco⟩, f2, q0', q1', hf2, hq2, htab2⟩, f', hff', hf', -⟩
  have hfac : ∀ s : SamplingFactor, 0 < s.factors.1 ∧ 0 < s.factors.2 := by intro s; cases s <;> decide
  obtain ⟨fc, a1, a2, -⟩ := first_full (hfac e.getSamplingFactor).1 (hfac e.getSamplingFactor).2 hct (d.frame.elim false (·.progressive)) h.toNat w.toNat
  obtain ⟨fc', b1, b2, -⟩ := first_full (hfac e'.getSamplingFactor).1 (hfac e'.getSamplingFactor).2 hct' (d'.frame.elim false (·.progressive)) h.toNat w.toNat
  obtain rfl : f = f1 := Option.some.inj (hff.symm.trans hf1)
  obtain rfl : f' = f2 := Option.some.inj (hff'.symm.trans hf2)
  obtain ⟨-, m, hm, hmlen, hmv⟩ := htab1 fc (by rw [hf]; exact List.mem_of_getElem? a1)
  obtain ⟨-, m', hm', hmlen', hmv'⟩ := htab2 fc' (by rw [hf']; exact List.mem_of_getElem? b1)
  rw [a2, hl] at hm
  rw [b2, hl'] at hm'
  obtain rfl := Option.some.inj hm
  obtain rfl := Option.some.inj hm'
  subst hq
  obtain rfl : q0 = q0' := by
    have h1 := hq1.1
    have h2 := hq2.1
    rw [ht] at h1
    exact Except.ok.inj (h1.symm.trans h2)
  have hll : l = l' := by
    refine List.ext_getElem? fun k => ?_
    by_cases hk : k < 64
    · have h1 := hmv k hk
      have h2 := hmv' k hk
      rw [if_pos a2] at h1
      rw [if_pos b2, h1] at h2
      have h3 := Except.ok.inj h2
      rw [List.getD_eq_getElem?_getD, List.getD_eq_getElem?_getD, List.getElem?_eq_getElem (by omega), List.getElem?_eq_getElem (by omega)] at h3
      rw [List.getElem?_eq_getElem (by omega), List.getElem?_eq_getElem (by omega)]
      exact congrArg some h3
    · rw [List.getElem?_eq_none (by omega), List.getElem?_eq_none (by omega)]
  subst hll
  exact ⟨hl.trans hl'.symm, fun by_ bx h1 h2 k hk => hco by_ bx h1 h2 k hk rfl⟩

end

/-- The hypotheses can be met: a gray image and a 4:2:0 progressive color image with another chroma table. -/
example : ∃ e e', Configured ⟨true, 8⟩ 80 [] e ∧ Configured ⟨false, 4⟩ 80 [.setSamplingFactor .F_2_2, .setProgressive true, .setQuantizationTables .default .flat] e' ∧
    e.getQuantizationTables.1 = e'.getQuantizationTables.1 ∧ e.getQuantizationTables.2 ≠ e'.getQuantizationTables.2 ∧ Spec.EightBit e.getQuantizationTables ∧
    Spec.EightBit e'.getQuantizationTables ∧ ScansFine true e ∧ ScansFine true e' ∧ (∀ P, Spec.Supported ⟨true, 8⟩ false e .luma 40 20 P) ∧
    ∀ P, Spec.Supported ⟨false, 4⟩ false e' .ycbcr 40 20 P := by
  obtain ⟨e, h1, h2⟩ := reachable_exists ⟨true, 8⟩ 80 [] (by decide)
  obtain ⟨e', h1', h2'⟩ := reachable_exists ⟨false, 4⟩ 80 [.setSamplingFactor .F_2_2, .setProgressive true, .setQuantizationTables .default .flat] (by decide)
  refine ⟨e, e', h1, h1', by rw [h2.quant, h2'.quant]; rfl, by rw [h2.quant, h2'.quant]; decide, (by rw [h2.quant]; rintro t (h | h) <;> cases h), (by rw [h2'.quant]; rintro t (h | h) <;> cases h), ?_, ?_,
    fun P => ⟨by decide, by decide, Or.inl rfl, Or.inl (by rw [h2.optimized]; rfl)⟩, fun P => ⟨by decide, by decide, Or.inr (Or.inl ?_), Or.inl (by rw [h2'.optimized]; rfl)⟩⟩
  · intro _; rw [h2.scans]; decide
  · intro _; rw [h2'.scans]; decide
  · unfold Spec.frameOf; rw [h2'.scans, h2'.sampling]; decide

end Jpeg
