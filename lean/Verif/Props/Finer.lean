import Verif.Props.Simd
/-! C90: finer quantisation tables keep more. -/
namespace Jpeg
open _root_.Spec

/-! ### Quantising one value with two divisors -/

/-- The first value that is quantised to at least `c`. -/
def firstAt (v c : Nat) : Nat := (c * 32768 + (computeReciprocal (8 * v)).1 - 1) / (computeReciprocal (8 * v)).1 - (computeReciprocal (8 * v)).2

/-- What has to be checked for the divisors `v` and `v + 1`. -/
def finerAt (v : Nat) : Bool := decide (0 < (computeReciprocal (8 * (v + 1))).1) && (List.range (8192 / (8 * (v + 1)) + 2)).all fun c => decide (c ≤ quantAbs v (firstAt (v + 1) c))

theorem finer_checked : ∀ v, v < 69 → 1 ≤ v → finerAt v = true := by decide +kernel

theorem firstAt_le {v x : Nat} (hr : 0 < (computeReciprocal (8 * v)).1) : firstAt v (quantAbs v x) ≤ x := by
  unfold firstAt quantAbs
  generalize (computeReciprocal (8 * v)).1 = r at *
  generalize (computeReciprocal (8 * v)).2 = k
  have h1 : (x + k) * r / 32768 * 32768 ≤ (x + k) * r := Nat.div_mul_le_self _ _
  have h2 : ((x + k) * r / 32768 * 32768 + r - 1) / r < x + k + 1 := by
    rw [Nat.div_lt_iff_lt_mul hr]
    rw [Nat.add_mul (x + k) 1 r, Nat.one_mul]
    omega
  omega

theorem quantAbs_succ {v x : Nat} (h1 : 1 ≤ v) (h2 : v < 69) (hx : x ≤ 8192) : quantAbs (v + 1) x ≤ quantAbs v x := by
  have hf := finer_checked v h2 h1
  unfold finerAt at hf
  rw [Bool.and_eq_true, decide_eq_true_eq, List.all_eq_true] at hf
  have hb := (quantAbs_error (v := v + 1) (by omega) (by omega) hx).1
  have hlt : quantAbs (v + 1) x < 8192 / (8 * (v + 1)) + 2 := by
    by_contra hc
    have h3 := Nat.lt_div_mul_add (a := 8192) (show 0 < 8 * (v + 1) by omega)
    have h4 : 8 * (v + 1) * (8192 / (8 * (v + 1)) + 2) ≤ 8 * (v + 1) * quantAbs (v + 1) x := Nat.mul_le_mul_left _ (by omega)
    rw [Nat.mul_add, Nat.mul_comm (8 * (v + 1)) (8192 / _)] at h4
    omega
  have hc := hf.2 _ (List.mem_range.mpr hlt)
  rw [decide_eq_true_eq] at hc
  exact hc.trans (quantAbs_mono v (firstAt_le hf.1))

theorem quantAbs_finer {v v' x : Nat} (h1 : 1 ≤ v') (hv : v' ≤ v) (h2 : v ≤ 69) (hx : x ≤ 8192) : quantAbs v x ≤ quantAbs v' x := by
  induction v, hv using Nat.le_induction with
  | base => exact Nat.le_refl _
  | succ n hn ih => exact (quantAbs_succ (by omega) (by omega) hx).trans (ih (by omega))

theorem quantAbs_near {v v' x : Nat} (h1 : 1 ≤ v') (hv : v' ≤ v) (h2 : v ≤ 2048) (hx : x ≤ 8192) : quantAbs v x ≤ quantAbs v' x + 1 := by
  have e1 := (quantAbs_error (v := v) (by omega) h2 hx).1
  have e2 := (quantAbs_error (v := v') h1 (by omega) hx).2
  by_contra hc
  have h3 : v' * (quantAbs v' x + 2) ≤ v' * quantAbs v x := Nat.mul_le_mul_left _ (by omega)
  obtain ⟨m, rfl⟩ := Nat.exists_eq_add_of_le hv
  have h4 : m * 1 ≤ m * quantAbs (v' + m) x := Nat.mul_le_mul_left _ (by omega)
  nlinarith

theorem quantOf_signs {v v' : Nat} {x : Int} : 0 ≤ quantOf v x * quantOf v' x := by
  unfold quantOf
  split
  · rw [neg_mul_neg]; positivity
  · positivity

/-! ### Coefficients -/

/-- A coefficient is the quantised value of the transform, which does not depend on the table. -/
theorem isCoef_quantOf {pf : Platform} {simd : Bool} {type : QuantizationTableType} {quality : UInt8} {luma : Bool} {table : QuantizationTable}
    (ht : QuantizationTable.newWithQuality type quality.toNat luma = .ok table) {samples : List Int} (hl : samples.length = 64) (hs : Shifted samples)
    {k : Nat} (hk : k < 64) {a : Int} (ha : Spec.IsCoef pf simd table samples k a) :
    a = quantOf ((steps type quality.toNat luma).getD (zigzag.getD k 0) 1) ((dctFn simd samples).getD (zigzag.getD k 0) 0) ∧
    ((dctFn simd samples).getD (zigzag.getD k 0) 0).natAbs ≤ 8192 ∧
    table.get (zigzag.getD k 0) = .ok ((steps type quality.toNat luma).getD (zigzag.getD k 0) 1 % 256) := by
  obtain ⟨F, hF, hqa⟩ := ha
  have hop : OpOk (if simd then avx2Operations else defaultOperations) (dctFn simd) := by
    cases simd
    · exact opOk_default
    · exact opOk_avx2
  have h1 : Spec.buildDct simd pf samples = .ok (dctFn simd samples) := by
    have := hop.run pf samples hl hs
    cases simd <;> exact this
  rw [h1] at hF
  cases hF
  rw [newWithQuality_eq] at ht
  cases ht
  have hz := zigzag_lt k hk
  generalize zigzag.getD k 0 = z at *
  have b1 : ((dctFn simd samples).getD z 0).natAbs ≤ 8192 := by
    by_cases h0 : z = 0
    · subst h0; have := hop.dc samples hl hs; omega
    · have := hop.ac samples z hl hs (by omega) hz; omega
  have hlen : z < (steps type quality.toNat luma).length := by rw [steps_length]; exact hz
  rw [quantize_eq pf _ (steps_range _ _ _) z hlen _ (by omega)] at hqa
  exact ⟨(Except.ok.inj hqa).symm, b1, mkQ_get _ hlen⟩

/-- What holds of two coefficients `a` and `a'` of the same samples if the step `s'` of the latter is not larger than the step `s`. -/
def Spec.Kept (s s' : Nat) (a a' : Int) : Prop := s' ≤ s → 0 ≤ a * a' ∧ a.natAbs ≤ a'.natAbs + 1 ∧ (s ≤ 69 → a.natAbs ≤ a'.natAbs)

section
variable {pf pf' : Platform} (hpf : pf.Valid) (hpf' : pf'.Valid) {q q' : UInt8} {calls calls' : List Spec.Call} {e e' : Encoder} (hc : Configured pf q calls e)
  (hc' : Configured pf' q' calls' e') {simd : Bool} {p p' : Prog (R Unit)} {ct : JpegColorType} {w h : UInt16} {P : Nat → Nat → Nat → UInt8}
  (hp : Spec.EncodeCall pf simd e p ct w h P) (hp' : Spec.EncodeCall pf' simd e' p' ct w h P)
  (hs : Spec.Supported pf simd e ct w h P) (hs' : Spec.Supported pf' simd e' ct w h P) (h8 : Spec.EightBit e.getQuantizationTables)
  (h8' : Spec.EightBit e'.getQuantizationTables) {strict : Bool} (hst : ScansFine strict e) (hst' : ScansFine strict e')
  (hfac : e.getSamplingFactor = e'.getSamplingFactor)
include hpf hpf' hc hc' hp hp' hs hs' h8 h8' hst hst' hfac

/-- C90: an image is encoded twice, with any settings but the same sampling factors. Where the quantisation table of the second file has an entry that is not larger, the coefficient
does not change its sign and its absolute value gets at most one smaller; not at all if the entry was at most 69. -/
theorem C90_finer : Spec.Encodes p strict fun _ d => Spec.Encodes p' strict fun _ d' => ∃ f f', d.frame = some f ∧ d'.frame = some f' ∧ f'.comps = f.comps ∧
    ∀ c (fc : FrameComp), f.comps[c]? = some fc → ∃ l l', d.qts fc.tq = some l ∧ d'.qts fc.tq = some l' ∧
      ∀ by_ bx, by_ < f.blocksHigh fc → bx < f.blocksWide fc → ∀ k, k < 64 → Spec.Kept (l.getD k 0) (l'.getD k 0) (d.coefs c by_ bx k) (d'.coefs c by_ bx k) := by
  refine (((C29_sampling_positions hpf hc hp hs h8 hst).and (C32_frame_header hpf hc hp hs h8 hst)).and (C21_tables_in_file hpf hc hp hs h8 hst)).mono ?_
  rintro _ d ⟨⟨⟨f, q0, q1, hf, hq, hall⟩, -, -, -, hfr⟩, f1, p0, p1, hf1, hp1, htab⟩
  refine (((C29_sampling_positions hpf' hc' hp' hs' h8' hst').and (C32_frame_header hpf' hc' hp' hs' h8' hst')).and (C21_tables_in_file hpf' hc' hp' hs' h8' hst')).mono ?_
  rintro _ d' ⟨⟨⟨f', q0', q1', hf', hq', hall'⟩, -, -, -, hfr'⟩, f2, p0', p1', hf2, hp2, htab'⟩
  unfold Spec.HasFrame at hfr hfr'
  obtain rfl : f = f1 := Option.some.inj (hf.symm.trans hf1)
  obtain rfl : f' = f2 := Option.some.inj (hf'.symm.trans hf2)
  obtain rfl : q0 = p0 := by have := hq.1.symm.trans hp1.1; cases this; rfl
  obtain rfl : q1 = p1 := by have := hq.2.symm.trans hp1.2; cases this; rfl
  obtain rfl : q0' = p0' := by have := hq'.1.symm.trans hp2.1; cases this; rfl
  obtain rfl : q1' = p1' := by have := hq'.2.symm.trans hp2.2; cases this; rfl
  have e1 := Option.some.inj (hf.symm.trans hfr)
  have e2 := Option.some.inj (hf'.symm.trans hfr')
  rw [← hfac] at e2
  have hcomps : f'.comps = f.comps := by rw [e1, e2]
  have hdim : ∀ fc, f'.blocksHigh fc = f.blocksHigh fc ∧ f'.blocksWide fc = f.blocksWide fc ∧ f'.vmax = f.vmax ∧ f'.hmax = f.hmax := by
    intro fc
    rw [e1, e2]
    exact ⟨rfl, rfl, rfl, rfl⟩
  refine ⟨f, f', hf, hf', hcomps, fun c fc hfc => ?_⟩
  obtain ⟨htq, l, hl, hlen, hlv⟩ := htab fc (List.mem_of_getElem? hfc)
  obtain ⟨-, l', hl', hlen', hlv'⟩ := htab' fc (List.mem_of_getElem? (hcomps ▸ hfc))
  refine ⟨l, l', hl, hl', fun by_ bx hby hbx k hk => ?_⟩
  obtain ⟨samples, hsl, hsv, hco⟩ := hall c fc hfc by_ bx hby hbx
  obtain ⟨samples', hsl', hsv', hco'⟩ := hall' c fc (hcomps ▸ hfc) by_ bx (by rw [(hdim fc).1]; exact hby) (by rw [(hdim fc).2.1]; exact hbx)
  rw [(hdim fc).2.2.1, (hdim fc).2.2.2] at hsv'
  have hss : samples = samples' := by
    refine List.ext_getElem? fun i => ?_
    by_cases hi : i < 64
    · have h1 := hsv (i / 8) (i % 8) (by omega) (by omega)
      have h2 := hsv' (i / 8) (i % 8) (by omega) (by omega)
      rw [← h1] at h2
      rw [show 8 * (i / 8) + i % 8 = i by omega] at h2
      exact h2.symm
    · rw [List.getElem?_eq_none (by omega), List.getElem?_eq_none (by omega)]
  subst hss
  have hsh : Shifted samples := by
    intro v hv
    obtain ⟨i, hi, hiv⟩ := List.getElem_of_mem hv
    have h1 := hsv (i / 8) (i % 8) (by omega) (by omega)
    rw [show 8 * (i / 8) + i % 8 = i by omega, List.getElem?_eq_getElem hi, hiv] at h1
    have h1 := Option.some.inj h1
    have := (P c (min ((8 * by_ + i / 8) * (f.vmax / fc.v)) (h.toNat - 1)) (min ((8 * bx + i % 8) * (f.hmax / fc.h)) (w.toNat - 1))).toNat_lt
    omega
  have ha := hco k hk
  have hb := hco' k hk
  have h88 := eightBit_steps h8
  have h88' := eightBit_steps h8'
  have hlk := hlv k hk
  have hlk' := hlv' k hk
  have key : ∀ {type type' : QuantizationTableType} {luma : Bool} {t t' : QuantizationTable}, QuantizationTable.newWithQuality type q.toNat luma = .ok t →
      QuantizationTable.newWithQuality type' q'.toNat luma = .ok t' → (∀ v ∈ steps type q.toNat luma, v ≤ 255) → (∀ v ∈ steps type' q'.toNat luma, v ≤ 255) →
      Spec.IsCoef pf simd t samples k (d.coefs c by_ bx k) → Spec.IsCoef pf' simd t' samples k (d'.coefs c by_ bx k) →
      t.get (zigzag.getD k 0) = .ok (l.getD k 0) → t'.get (zigzag.getD k 0) = .ok (l'.getD k 0) → Spec.Kept (l.getD k 0) (l'.getD k 0) (d.coefs c by_ bx k) (d'.coefs c by_ bx k) := by
    intro type type' luma t t' ht ht' hv hv' ha hb hg hg'
    obtain ⟨a1, a2, a3⟩ := isCoef_quantOf ht hsl hsh hk ha
    obtain ⟨b1, -, b3⟩ := isCoef_quantOf ht' hsl hsh hk hb
    have hz := zigzag_lt k hk
    have hm := getD_mem (s := steps type q.toNat luma) (k := zigzag.getD k 0) (by rw [steps_length]; exact hz)
    have hm' := getD_mem (s := steps type' q'.toNat luma) (k := zigzag.getD k 0) (by rw [steps_length]; exact hz)
    have s1 := hv _ hm
    have s2 := hv' _ hm'
    have s3 := steps_range _ _ _ _ hm
    have s4 := steps_range _ _ _ _ hm'
    rw [a3] at hg
    rw [b3] at hg'
    have hg := Except.ok.inj hg
    have hg' := Except.ok.inj hg'
    rw [Nat.mod_eq_of_lt (by omega)] at hg hg'
    rw [← hg, ← hg', a1, b1]
    intro hle
    rw [quantOf_natAbs, quantOf_natAbs]
    exact ⟨quantOf_signs, quantAbs_near s4.1 hle s3.2 a2, fun h69 => quantAbs_finer s4.1 hle h69 a2⟩
  have hquality := hc.settings.1.quality
  have hquality' := hc'.settings.1.quality
  unfold Steps8 Encoder.steps0 Encoder.steps1 at h88 h88'
  rw [hquality] at h88
  rw [hquality'] at h88'
  rcases htq with h0 | h0
  · rw [if_pos h0] at ha hb hlk hlk'
    exact key hq.1 hq'.1 h88.1 h88'.1 ha hb hlk hlk'
  · rw [if_neg (by omega)] at ha hb hlk hlk'
    exact key hq.2 hq'.2 h88.2 h88'.2 ha hb hlk hlk'

/-- C90: a higher quality, with the same built-in tables and sampling factors: all steps get smaller or stay as they are; all coefficients keep their sign, and their absolute values
get at most one smaller, or not at all if the step was at most 69. -/
theorem C90_quality (hq : q ≤ q') (htab : e.getQuantizationTables = e'.getQuantizationTables)
    (hbuiltin : ∀ t, e.getQuantizationTables.1 ≠ .custom t ∧ e.getQuantizationTables.2 ≠ .custom t) :
    Spec.Encodes p strict fun _ d => Spec.Encodes p' strict fun _ d' => ∃ f f', d.frame = some f ∧ d'.frame = some f' ∧ f'.comps = f.comps ∧
    ∀ c (fc : FrameComp), f.comps[c]? = some fc → ∃ l l', d.qts fc.tq = some l ∧ d'.qts fc.tq = some l' ∧
      ∀ k, k < 64 → l'.getD k 0 ≤ l.getD k 0 ∧ ∀ by_ bx, by_ < f.blocksHigh fc → bx < f.blocksWide fc →
        0 ≤ d.coefs c by_ bx k * d'.coefs c by_ bx k ∧ (d.coefs c by_ bx k).natAbs ≤ (d'.coefs c by_ bx k).natAbs + 1 ∧
        (l.getD k 0 ≤ 69 → (d.coefs c by_ bx k).natAbs ≤ (d'.coefs c by_ bx k).natAbs) := by
  refine ((C90_finer hpf hpf' hc hc' hp hp' hs hs' h8 h8' hst hst' hfac).and (C21_tables_in_file hpf hc hp hs h8 hst)).mono ?_
  rintro _ d ⟨hA, f1, p0, p1, hf1, hp1, htab1⟩
  refine (hA.and (C21_tables_in_file hpf' hc' hp' hs' h8' hst')).mono ?_
  rintro _ d' ⟨⟨f, f', hf, hf', hcomps, hall⟩, f2, p0', p1', hf2, hp2, htab2⟩
  obtain rfl : f = f1 := Option.some.inj (hf.symm.trans hf1)
  obtain rfl : f' = f2 := Option.some.inj (hf'.symm.trans hf2)
  refine ⟨f, f', hf, hf', hcomps, fun c fc hfc => ?_⟩
  obtain ⟨l, l', hl, hl', hk⟩ := hall c fc hfc
  obtain ⟨htq, l1, hl1, -, hlv⟩ := htab1 fc (List.mem_of_getElem? hfc)
  obtain ⟨-, l2, hl2, -, hlv'⟩ := htab2 fc (List.mem_of_getElem? (hcomps ▸ hfc))
  obtain rfl : l = l1 := Option.some.inj (hl.symm.trans hl1)
  obtain rfl : l' = l2 := Option.some.inj (hl'.symm.trans hl2)
  have hle : ∀ k, k < 64 → l'.getD k 0 ≤ l.getD k 0 := by
    intro k hk
    have key : ∀ {type : QuantizationTableType} {luma : Bool} {t t' : QuantizationTable}, (∀ c, type ≠ .custom c) → QuantizationTable.newWithQuality type q.toNat luma = .ok t →
        QuantizationTable.newWithQuality type q'.toNat luma = .ok t' → t.get (zigzag.getD k 0) = .ok (l.getD k 0) → t'.get (zigzag.getD k 0) = .ok (l'.getD k 0) →
        l'.getD k 0 ≤ l.getD k 0 := by
      intro type luma t t' hty h1 h2 g1 g2
      obtain ⟨t1, t2, m1, m2, hm⟩ := C20_monotone type hty q q' hq luma
      obtain rfl := Except.ok.inj (h1.symm.trans m1)
      obtain rfl := Except.ok.inj (h2.symm.trans m2)
      obtain ⟨v1, v2, n1, n2, hv⟩ := hm _ (zigzag_lt k hk)
      rw [g1] at n1
      rw [g2] at n2
      rw [Except.ok.inj n1, Except.ok.inj n2]
      exact hv
    have g1 := hlv k hk
    have g2 := hlv' k hk
    unfold Spec.AreTables at hp1 hp2
    rw [← htab] at hp2
    rcases htq with h0 | h0
    · rw [if_pos h0] at g1 g2
      exact key (fun t => (hbuiltin t).1) hp1.1 hp2.1 g1 g2
    · rw [if_neg (by omega)] at g1 g2
      exact key (fun t => (hbuiltin t).2) hp1.2 hp2.2 g1 g2
  exact ⟨l, l', hl, hl', fun k hk' => ⟨hle k hk', fun by_ bx hy hx => hk by_ bx hy hx k hk' (hle k hk')⟩⟩

end

/-- Two light pixels (243) on a grey background (128), 8 x 8 pixels. -/
def Spec.twoDots : Bytes := [243, 128, 243] ++ List.replicate 61 128

/-- FALSE: "a higher quality never makes a coefficient smaller". A grey image of 8 x 8 pixels, default tables: at quality 49 the file has a coefficient that quality 50 sets to zero (the
steps are 70 and 69; the coefficient is 34.75, so that both are not rounded to the nearest value). -/
theorem C90_never_less_false : ∃ e e' P, Configured ⟨true, 8⟩ 49 [] e ∧ Configured ⟨true, 8⟩ 50 [] e' ∧
    Spec.EncodeCall ⟨true, 8⟩ false e (e.encode ⟨true, 8⟩ false Spec.twoDots 8 8 .luma) .luma 8 8 P ∧
    Spec.EncodeCall ⟨true, 8⟩ false e' (e'.encode ⟨true, 8⟩ false Spec.twoDots 8 8 .luma) .luma 8 8 P ∧
    Spec.Encodes (e.encode ⟨true, 8⟩ false Spec.twoDots 8 8 .luma) true (fun _ d => (d.qts 0).map (·.getD 41 0) = some 70 ∧ d.coefs 0 0 0 41 = 1) ∧
    Spec.Encodes (e'.encode ⟨true, 8⟩ false Spec.twoDots 8 8 .luma) true fun _ d => (d.qts 0).map (·.getD 41 0) = some 69 ∧ d.coefs 0 0 0 41 = 0 := by
  have key : ∀ (q : UInt8) (s : Nat) (a : Int), (steps .default q.toNat true).getD 22 1 = s → s ≤ 255 → quantOf s 278 = a → ∀ e, Configured ⟨true, 8⟩ q [] e → SettingsAre e q [] →
      Spec.Encodes (e.encode ⟨true, 8⟩ false Spec.twoDots 8 8 .luma) true fun _ d => (d.qts 0).map (·.getD 41 0) = some s ∧ d.coefs 0 0 0 41 = a := by
    intro q s a hstep hs255 ha e hc hset
    have hpf : Platform.Valid ⟨true, 8⟩ := by decide
    have hp : Spec.EncodeCall ⟨true, 8⟩ false e (e.encode ⟨true, 8⟩ false Spec.twoDots 8 8 .luma) .luma 8 8 _ :=
      .data _ _ _ _ (by decide) (by unfold Spec.SliceOk; decide)
    have hq : e.getQuantizationTables = (.default, .default) := by rw [hset.quant]; rfl
    have hs : Spec.Supported ⟨true, 8⟩ false e .luma 8 8 (Spec.samplesOf .luma Spec.twoDots (UInt16.toNat 8)) := ⟨by decide, by decide, Or.inl rfl, Or.inl (by rw [hset.optimized]; rfl)⟩
    have h8 : Spec.EightBit e.getQuantizationTables := by intro t ht; rw [hq] at ht; rcases ht with h | h <;> cases h
    have hst : ScansFine true e := by intro _ n hn; rw [hset.scans] at hn; cases hn
    refine (((C29_sampling_positions hpf hc hp hs h8 hst).and (C32_frame_header hpf hc hp hs h8 hst)).and (C21_tables_in_file hpf hc hp hs h8 hst)).mono ?_
    rintro _ d ⟨⟨⟨f, q0, q1, hf, hq1, hall⟩, -, -, -, hfr⟩, f1, p0, p1, hf1, hp1, htab⟩
    unfold Spec.HasFrame at hfr
    obtain rfl : f = f1 := Option.some.inj (hf.symm.trans hf1)
    obtain rfl : q0 = p0 := by have := hq1.1.symm.trans hp1.1; cases this; rfl
    have e1 := Option.some.inj (hf.symm.trans hfr)
    have hfc : f.comps[0]? = some ⟨0, 1, 1, 0⟩ := by rw [e1]; rfl
    have hb : f.blocksHigh ⟨0, 1, 1, 0⟩ = 1 ∧ f.blocksWide ⟨0, 1, 1, 0⟩ = 1 ∧ f.vmax = 1 ∧ f.hmax = 1 := by 
      rw [e1, hset.scans]
      exact (by decide : ∀ p : Bool, Frame.blocksHigh ⟨p, 8, 8, [⟨0, 1, 1, 0⟩]⟩ ⟨0, 1, 1, 0⟩ = 1 ∧ Frame.blocksWide ⟨p, 8, 8, [⟨0, 1, 1, 0⟩]⟩ ⟨0, 1, 1, 0⟩ = 1 ∧
        Frame.vmax ⟨p, 8, 8, [⟨0, 1, 1, 0⟩]⟩ = 1 ∧ Frame.hmax ⟨p, 8, 8, [⟨0, 1, 1, 0⟩]⟩ = 1) _
    obtain ⟨samples, hsl, hsv, hco⟩ := hall 0 _ hfc 0 0 (by omega) (by omega)
    rw [hb.2.2.1, hb.2.2.2] at hsv
    have hss : samples = [115, 0, 115] ++ List.replicate 61 0 := by
      refine List.ext_getElem? fun i => ?_
      by_cases hi : i < 64
      · have h1 := hsv (i / 8) (i % 8) (by omega) (by omega)
        rw [show 8 * (i / 8) + i % 8 = i by omega] at h1
        rw [h1]
        have hall : ∀ i < 64, some ((((Spec.samplesOf .luma Spec.twoDots 8 0 (min ((8 * 0 + i / 8) * 1) 7)) (min ((8 * 0 + i % 8) * 1) 7)).toNat : Int) - 128) =
          ([115, 0, 115] ++ List.replicate 61 0 : List Int)[i]? := by decide +kernel
        exact hall i hi
      · rw [List.getElem?_eq_none (by omega), List.getElem?_eq_none (by simp; omega)]
    subst hss
    have hk := hco 41 (by omega)
    obtain ⟨-, l, hl, hlen, hlv⟩ := htab _ (List.mem_of_getElem? hfc)
    have hlk := hlv 41 (by omega)
    rw [if_pos rfl] at hk hlk
    have ht := hq1.1
    rw [hq] at ht
    obtain ⟨b1, -, b3⟩ := isCoef_quantOf ht (by simp) (by unfold Shifted; decide +kernel) (by omega) hk
    rw [show zigzag.getD 41 0 = 22 from by decide] at b1 b3 hlk
    rw [hstep] at b1 b3
    rw [hlk, Nat.mod_eq_of_lt (by omega)] at b3
    have hd : (dctFn false ([115, 0, 115] ++ List.replicate 61 0)).getD 22 0 = 278 := by decide +kernel
    rw [hd, ha] at b1
    refine ⟨?_, b1⟩
    rw [hl, Option.map_some, Except.ok.inj b3]
  obtain ⟨e, h1, h2⟩ := reachable_exists ⟨true, 8⟩ 49 [] (by decide)
  obtain ⟨e', h1', h2'⟩ := reachable_exists ⟨true, 8⟩ 50 [] (by decide)
  exact ⟨e, e', _, h1, h1', .data _ _ _ _ (by decide) (by unfold Spec.SliceOk; decide), .data _ _ _ _ (by decide) (by unfold Spec.SliceOk; decide),
    key 49 70 1 (by decide +kernel) (by decide) (by decide +kernel) e h1 h2, key 50 69 0 (by decide +kernel) (by decide) (by decide +kernel) e' h1' h2'⟩

-- the hypotheses of C90: a progressive and a baseline encoder, 4:2:0, quality 30 and 60
example : ∃ e e' p p' P, Configured ⟨true, 8⟩ 30 [.setProgressive true] e ∧ Configured ⟨false, 8⟩ 60 [] e' ∧ Spec.EncodeCall ⟨true, 8⟩ true e p .ycbcr 20 10 P ∧
    Spec.EncodeCall ⟨false, 8⟩ true e' p' .ycbcr 20 10 P ∧ Spec.Supported ⟨true, 8⟩ true e .ycbcr 20 10 P ∧ Spec.Supported ⟨false, 8⟩ true e' .ycbcr 20 10 P ∧
    Spec.EightBit e.getQuantizationTables ∧ Spec.EightBit e'.getQuantizationTables ∧ ScansFine true e ∧ ScansFine true e' ∧ e.getSamplingFactor = e'.getSamplingFactor ∧
    e.getQuantizationTables = e'.getQuantizationTables ∧ ∀ t, e.getQuantizationTables.1 ≠ .custom t ∧ e.getQuantizationTables.2 ≠ .custom t := by
  obtain ⟨e, h1, h2⟩ := reachable_exists ⟨true, 8⟩ 30 [.setProgressive true] (by decide)
  obtain ⟨e', h1', h2'⟩ := reachable_exists ⟨false, 8⟩ 60 [] (by decide)
  have hq : e.getQuantizationTables = (.default, .default) := by rw [h2.quant]; rfl
  have hq' : e'.getQuantizationTables = (.default, .default) := by rw [h2'.quant]; rfl
  have hl : (20 : UInt16).toNat * (10 : UInt16).toNat * ColorType.rgb.bytesPerPixel ≤ (List.replicate 600 (7 : UInt8)).length := by
    rw [List.length_replicate]; decide
  have hsl : ∀ b, Spec.SliceOk ⟨b, 8⟩ (List.replicate 600 7) := by intro b; rw [Spec.SliceOk, List.length_replicate]; simp [Platform.wordBits]
  refine ⟨e, e', _, _, _, h1, h1', .data _ 20 10 .rgb hl (hsl _), .data _ 20 10 .rgb hl (hsl _), ⟨by decide, by decide, Or.inl rfl, Or.inl ?_⟩, ⟨by decide, by decide, Or.inl rfl, Or.inl ?_⟩,
    ?_, ?_, ?_, ?_, ?_, hq.trans hq'.symm, ?_⟩
  · rw [h2.optimized]; rfl
  · rw [h2'.optimized]; rfl
  · intro t ht; rw [hq] at ht; rcases ht with h | h <;> cases h
  · intro t ht; rw [hq'] at ht; rcases ht with h | h <;> cases h
  · intro _ n hn; rw [h2.scans] at hn; cases hn; decide
  · intro _ n hn; rw [h2'.scans] at hn; cases hn
  · rw [h2.sampling, h2'.sampling]; decide
  · rw [hq]; intro t; exact ⟨by simp, by simp⟩

end Jpeg
