import Verif.Props.SameFile
import Verif.Props.Tiles
/-! C75: encoding the decoded image again. -/
namespace Jpeg
open _root_.Spec

/-- A block of a decoded file (`table`: quantisation steps, `coefs`: quantised coefficients) is shown as the 8 bit samples `s`: the exact inverse transform
rounded to the nearest integer (this excludes blocks for which values below 0 or above 255 had to be clamped). -/
def Spec.ShownAs (table : List Nat) (coefs : Nat → Int) (s : Nat → Nat → UInt8) : Prop :=
  ∀ y x, y < 8 → x < 8 → |((s y x).toNat : ℝ) - reconstructed table coefs y x| ≤ 1 / 2

/-- A step so large that rounding the samples and the encoder's own inaccuracy together cannot change the quantised value. -/
def Spec.CoarseStep (step : Nat) : Prop := 14 ≤ step

theorem coarse_bound {step : Nat} (h : Spec.CoarseStep step) (simd : Bool) : quantError step + (if simd then 3.75 else 2.75) / 8 + 4 < (step : ℝ) := by
  unfold Spec.CoarseStep at h
  have h14 : (14 : ℝ) ≤ step := by exact_mod_cast h
  have hq : quantError step ≤ 2 * step / 3 := by
    unfold quantError
    split <;> linarith
  have hs : ((if simd then 3.75 else 2.75) / 8 : ℝ) ≤ 3.75 / 8 := by cases simd <;> norm_num
  linarith

/-- The exact transform of the samples shown differs from the dequantised coefficients by at most 4 (Parseval). -/
theorem shown_dct {table : List Nat} {coefs : Nat → Int} {s : Nat → Nat → UInt8} (h : Spec.ShownAs table coefs s) {u v : Nat} (hu : u < 8) (hv : v < 8) :
    |dequantized table coefs u v - realDct (fun y x => ((s y x).toNat : ℝ) - 128) u v| ≤ 4 := by
  have hp := parseval (fun y x => ((s y x).toNat : ℝ) - 128) (dequantized table coefs)
  have hle : ∑ y ∈ Finset.range 8, ∑ x ∈ Finset.range 8, (realIdct (dequantized table coefs) y x - (((s y x).toNat : ℝ) - 128)) ^ 2 ≤
      ∑ _y ∈ Finset.range 8, ∑ _x ∈ Finset.range 8, (1 / 4 : ℝ) := by
    refine Finset.sum_le_sum fun y hy => Finset.sum_le_sum fun x hx => ?_
    have := abs_le.mp (h y x (Finset.mem_range.mp hy) (Finset.mem_range.mp hx))
    rw [reconstructed] at this
    nlinarith [this.1, this.2]
  rw [hp] at hle
  have h16 : ∑ _y ∈ Finset.range 8, ∑ _x ∈ Finset.range 8, (1 / 4 : ℝ) = 16 := by norm_num [Finset.sum_const]
  rw [h16] at hle
  have h1 : (dequantized table coefs u v - realDct (fun y x => ((s y x).toNat : ℝ) - 128) u v) ^ 2 ≤ 16 := by
    refine le_trans ?_ hle
    refine le_trans ?_ (Finset.single_le_sum (f := fun u => ∑ v ∈ Finset.range 8,
      (dequantized table coefs u v - realDct (fun y x => ((s y x).toNat : ℝ) - 128) u v) ^ 2) (fun u _ => Finset.sum_nonneg fun v _ => sq_nonneg _)
      (Finset.mem_range.mpr hu))
    exact Finset.single_le_sum (f := fun v => (dequantized table coefs u v - realDct (fun y x => ((s y x).toNat : ℝ) - 128) u v) ^ 2)
      (fun v _ => sq_nonneg _) (Finset.mem_range.mpr hv)
  exact abs_le_of_sq_le_sq (by norm_num; exact h1) (by norm_num)

section
variable {pf : Platform} (hpf : pf.Valid) {q : UInt8} {calls : List Spec.Call} {e : Encoder} (hc : Configured pf q calls e)
  {simd : Bool} {p : Prog (R Unit)} {ct : JpegColorType} {w h : UInt16} {P : Nat → Nat → Nat → UInt8} (hp : Spec.EncodeCall pf simd e p ct w h P)
  (hs : Spec.Supported pf simd e ct w h P) (h8 : Spec.EightBit e.getQuantizationTables) {strict : Bool} (hst : ScansFine strict e)
  {pf' : Platform} (hpf' : pf'.Valid) {calls' : List Spec.Call} {e' : Encoder} (hc' : Configured pf' q calls' e') {simd' : Bool} {p' : Prog (R Unit)}
  {P' : Nat → Nat → Nat → UInt8} (hp' : Spec.EncodeCall pf' simd' e' p' ct w h P') (hs' : Spec.Supported pf' simd' e' ct w h P')
  (hst' : ScansFine strict e') (hq : e'.getQuantizationTables = e.getQuantizationTables)
  (hfac : e'.getSamplingFactor.factors = e.getSamplingFactor.factors)
include hpf hc hp hs h8 hst hpf' hc' hp' hs' hst' hq hfac

/-- C75: no loss in the second generation. If the samples decoded from a file are encoded again, with the same quality, quantisation tables and sampling
factors (in any mode and build), then in every block that needed no clamping every coefficient with a quantisation step of at least 14 is the same as in the
first file. -/
theorem C75_second_generation :
    Spec.Encodes p strict fun _ d => Spec.Encodes p' strict fun _ d' => ∃ f, d.frame = some f ∧
      ∀ c fc, f.comps[c]? = some fc → ∃ table, d.qts fc.tq = some table ∧
        ∀ by_ bx, by_ < f.blocksHigh fc → bx < f.blocksWide fc →
          Spec.ShownAs table (d.coefs c by_ bx) (fun y x =>
            P' c (min ((8 * by_ + y) * (f.vmax / fc.v)) (h.toNat - 1)) (min ((8 * bx + x) * (f.hmax / fc.h)) (w.toNat - 1))) →
          ∀ k, k < 64 → Spec.CoarseStep (table.getD k 0) → d'.coefs c by_ bx k = d.coefs c by_ bx k := by
  have h8' : Spec.EightBit e'.getQuantizationTables := by rw [hq]; exact h8
  refine ((C21_tables_in_file hpf hc hp hs h8 hst).and (C32_frame_header hpf hc hp hs h8 hst)).mono ?_
  rintro _ d ⟨⟨f, q0, q1, hf, hqt, htab⟩, -, -, -, hfr⟩
  refine (((C21_tables_in_file hpf' hc' hp' hs' h8' hst').and (C32_frame_header hpf' hc' hp' hs' h8' hst')).and (C41_coefficient_error hpf' hc' hp' hs' h8' hst')).mono ?_
  rintro _ d' ⟨⟨⟨f', q0', q1', hf', hqt', htab'⟩, -, -, -, hfr'⟩, f'', hf'', herr⟩
  rw [hf'] at hf''
  obtain rfl := Option.some.inj hf''
  rw [hq] at hqt'
  obtain rfl : q0 = q0' := by have := hqt.1.symm.trans hqt'.1; cases this; rfl
  obtain rfl : q1 = q1' := by have := hqt.2.symm.trans hqt'.2; cases this; rfl
  have e1 := hf.symm.trans hfr
  have e2 := hf'.symm.trans hfr'
  have e1 := Option.some.inj e1
  have e2 := Option.some.inj e2
  have hcomps : f'.comps = f.comps := by rw [e1, e2, hfac]
  have hwid : f'.width = f.width := by rw [e1, e2]
  have hhei : f'.height = f.height := by rw [e1, e2]
  have hhm : f'.hmax = f.hmax := by unfold Frame.hmax; rw [hcomps]
  have hvm : f'.vmax = f.vmax := by unfold Frame.vmax; rw [hcomps]
  refine ⟨f, hf, fun c fc hfc => ?_⟩
  obtain ⟨-, l, hl, hlen, hent⟩ := htab fc (List.mem_of_getElem? hfc)
  refine ⟨l, hl, fun by_ bx hby hbx hshow k hk hcoarse => ?_⟩
  rw [← hcomps] at hfc
  obtain ⟨-, l', hl', hlen', hent'⟩ := htab' fc (List.mem_of_getElem? hfc)
  obtain ⟨table, ht, -, herr⟩ := herr c fc hfc
  rw [hl'] at ht
  obtain rfl := Option.some.inj ht
  have hkk : l'.getD k 0 = l.getD k 0 := by
    have := (hent' k hk).symm.trans (hent k hk)
    exact Except.ok.inj this
  have h1 := herr by_ bx (by unfold Frame.blocksHigh at hby ⊢; rw [hhei, hvm]; exact hby) (by unfold Frame.blocksWide at hbx ⊢; rw [hwid, hhm]; exact hbx) k hk
  rw [hvm, hhm, hkk] at h1
  have hz : zigzag.getD k 0 < 64 := by
    have : ∀ k, k < 64 → zigzag.getD k 0 < 64 := by decide
    exact this k hk
  have h2 := shown_dct hshow (u := zigzag.getD k 0 / 8) (v := zigzag.getD k 0 % 8) (by omega) (by omega)
  have hidx : zigzag.idxOf (8 * (zigzag.getD k 0 / 8) + zigzag.getD k 0 % 8) = k := by
    rw [Nat.div_add_mod]
    have : ∀ k, k < 64 → zigzag.idxOf (zigzag.getD k 0) = k := by decide
    exact this k hk
  rw [dequantized, hidx] at h2
  have hb := coarse_bound hcoarse simd'
  generalize realDct _ _ _ = D at h1 h2
  have hd : |(l.getD k 0 : ℝ) * ((d'.coefs c by_ bx k - d.coefs c by_ bx k : Int) : ℝ)| < (l.getD k 0 : ℝ) := by
    refine lt_of_le_of_lt ?_ hb
    push_cast
    rw [abs_le] at h1 h2 ⊢
    constructor <;> nlinarith [h1.1, h1.2, h2.1, h2.2]
  have hpos : (0 : ℝ) < (l.getD k 0 : ℝ) := lt_of_le_of_lt (abs_nonneg _) hd
  rw [abs_mul, abs_of_pos hpos] at hd
  have h3 : |((d'.coefs c by_ bx k - d.coefs c by_ bx k : Int) : ℝ)| < 1 := by
    by_contra hcon
    rw [not_lt] at hcon
    nlinarith
  rw [← Int.cast_abs] at h3
  have h4 : |d'.coefs c by_ bx k - d.coefs c by_ bx k| < 1 := by exact_mod_cast h3
  have := Int.abs_lt_one_iff.mp h4
  omega

end

/-- If the image consists of whole MCUs, all blocks that are coded lie in the image. -/
theorem whole_mcus {n m v mx : Nat} (hmx : 0 < mx) (hn : n = 8 * mx * m) :
    _root_.Spec.ceilDiv n (8 * mx) * v = _root_.Spec.ceilDiv (_root_.Spec.ceilDiv (n * v) mx) 8 := by
  subst hn
  have h1 : _root_.Spec.ceilDiv (8 * mx * m) (8 * mx) = m := by
    unfold _root_.Spec.ceilDiv
    rw [show 8 * mx * m + 8 * mx - 1 = (8 * mx - 1) + 8 * mx * m by omega, Nat.add_mul_div_left _ _ (by omega), Nat.div_eq_of_lt (by omega), Nat.zero_add]
  have h2 : _root_.Spec.ceilDiv (8 * mx * m * v) mx = 8 * (m * v) := by
    unfold _root_.Spec.ceilDiv
    rw [show 8 * mx * m * v = mx * (8 * (m * v)) by ring, show mx * (8 * (m * v)) + mx - 1 = (mx - 1) + mx * (8 * (m * v)) by omega,
      Nat.add_mul_div_left _ _ hmx, Nat.div_eq_of_lt (by omega), Nat.zero_add]
  rw [h1, h2]
  unfold _root_.Spec.ceilDiv
  omega

section
variable {pf pf' : Platform} (hpf : pf.Valid) (hpf' : pf'.Valid) {q : UInt8} {calls calls' : List Spec.Call} {e : Encoder} (hc : Configured pf q calls e)
  (hc' : Configured pf' q calls' e)
  {simd simd' : Bool} {p p' : Prog (R Unit)} {ct : JpegColorType} {w h : UInt16} {P P' : Nat → Nat → Nat → UInt8} (hp : Spec.EncodeCall pf simd e p ct w h P)
  (hs : Spec.Supported pf simd e ct w h P) (h8 : Spec.EightBit e.getQuantizationTables) {strict : Bool} (hst : ScansFine strict e)
  (hp' : Spec.EncodeCall pf' simd' e p' ct w h P') (hs' : Spec.Supported pf' simd' e ct w h P')
include hpf hpf' hc hc' hp hs h8 hst hp' hs'

/-- C75: encoding is idempotent. An image of whole MCUs, encoded with steps of at least 14, and decoded without clamping: encoding the decoded image with the
same settings gives the same file, byte by byte. -/
theorem C75_same_file (hw : 8 * (Spec.frameOf e ct w h).hmax ∣ w.toNat) (hh : 8 * (Spec.frameOf e ct w h).vmax ∣ h.toNat) :
    Spec.Encodes p strict fun bytes d => Spec.Encodes p' strict fun bytes' _ => ∃ f, d.frame = some f ∧
      ((∀ c fc, f.comps[c]? = some fc → ∃ table, d.qts fc.tq = some table ∧ (∀ k, k < 64 → Spec.CoarseStep (table.getD k 0)) ∧
        ∀ by_ bx, by_ < f.blocksHigh fc → bx < f.blocksWide fc → Spec.ShownAs table (d.coefs c by_ bx) (fun y x =>
          P' c (min ((8 * by_ + y) * (f.vmax / fc.v)) (h.toNat - 1)) (min ((8 * bx + x) * (f.hmax / fc.h)) (w.toNat - 1)))) →
      bytes' = bytes) := by
  refine (((C75_second_generation hpf hc hp hs h8 hst hpf' hc' hp' hs' hst rfl rfl).and (C74_same_coefficients_same_file hpf hpf' hc hp hp' hs hs' h8 hst)).and
    (C32_frame_header hpf hc hp hs h8 hst)).mono ?_
  rintro bytes d ⟨⟨h1, h2⟩, -, -, -, hfr⟩
  refine (h1.and h2).mono ?_
  rintro bytes' d' ⟨⟨f, hf, hgen⟩, hsame⟩
  refine ⟨f, hf, fun hall => (hsame ?_).symm⟩
  have hff : f = Spec.frameOf e ct w h := Option.some.inj (hf.symm.trans hfr)
  subst hff
  intro c fc hfc y x k hy hx hk
  obtain ⟨table, ht, hsteps, hshow⟩ := hall c fc hfc
  obtain ⟨table', ht', hkey⟩ := hgen c fc hfc
  rw [ht] at ht'
  obtain rfl := Option.some.inj ht'
  obtain ⟨n, hn⟩ := hw
  obtain ⟨m, hm⟩ := hh
  have hpos : ∀ (l : List FrameComp) (g : FrameComp → Nat), (l.map g).foldl max 0 = 0 → ∀ c ∈ l, g c = 0 := by
    intro l g h0 c hc
    have hmono : ∀ (l : List Nat) a, a ≤ l.foldl max a ∧ ∀ b ∈ l, b ≤ l.foldl max a := by
      intro l
      induction l with
      | nil => intro a; exact ⟨le_refl _, by simp⟩
      | cons b l ih =>
        intro a
        obtain ⟨i1, i2⟩ := ih (max a b)
        refine ⟨le_trans (le_max_left _ _) i1, fun x hx => ?_⟩
        rcases List.mem_cons.mp hx with rfl | hx
        · exact le_trans (le_max_right _ _) i1
        · exact i2 x hx
    have := (hmono (l.map g) 0).2 (g c) (List.mem_map_of_mem hc)
    omega
  have hmem : fc ∈ (Spec.frameOf e ct w h).comps := List.mem_of_getElem? hfc
  have hy' : y < (Spec.frameOf e ct w h).blocksHigh fc := by
    by_cases hz : (Spec.frameOf e ct w h).vmax = 0
    · have := hpos _ (·.v) hz fc hmem
      rw [this, Nat.mul_zero] at hy
      omega
    · have := whole_mcus (v := fc.v) (Nat.pos_of_ne_zero hz) hm
      unfold Frame.blocksHigh
      unfold Frame.mcusHigh at hy
      rw [← show h.toNat = (Spec.frameOf e ct w h).height from rfl, ← this]
      exact hy
  have hx' : x < (Spec.frameOf e ct w h).blocksWide fc := by
    by_cases hz : (Spec.frameOf e ct w h).hmax = 0
    · have := hpos _ (·.h) hz fc hmem
      rw [this, Nat.mul_zero] at hx
      omega
    · have := whole_mcus (v := fc.h) (Nat.pos_of_ne_zero hz) hn
      unfold Frame.blocksWide
      unfold Frame.mcusWide at hx
      rw [← show w.toNat = (Spec.frameOf e ct w h).width from rfl, ← this]
      exact hx
  exact (hkey y x hy' hx' (hshow y x hy' hx') k hk (hsteps k hk)).symm

end

/-- All steps of the default tables are at least 14 for qualities up to 35. -/
theorem default_coarse : ∀ q, q < 36 → ∀ k, k < 64 → 14 ≤ Spec.ijgStep q (Spec.annexKLuma.getD k 0) ∧ 14 ≤ Spec.ijgStep q (Spec.annexKChroma.getD k 0) := by
  decide +kernel

section
variable {pf : Platform} (hpf : pf.Valid) {q : UInt8} {calls : List Spec.Call} {e : Encoder} (hc : Configured pf q calls e)
  {simd : Bool} {p : Prog (R Unit)} {ct : JpegColorType} {w h : UInt16} {P : Nat → Nat → Nat → UInt8} (hp : Spec.EncodeCall pf simd e p ct w h P)
  (hs : Spec.Supported pf simd e ct w h P) (h8 : Spec.EightBit e.getQuantizationTables) {strict : Bool} (hst : ScansFine strict e)
include hpf hc hp hs h8 hst

/-- C75: with the default tables all steps are coarse if the quality is at most 35. -/
theorem C75_default_tables (hq : q.toNat ≤ 35) (hd : e.getQuantizationTables = (.default, .default)) :
    Spec.Encodes p strict fun _ d => ∃ f, d.frame = some f ∧ ∀ fc ∈ f.comps, ∃ table, d.qts fc.tq = some table ∧
      ∀ k, k < 64 → Spec.CoarseStep (table.getD k 0) := by
  refine (C21_tables_in_file hpf hc hp hs h8 hst).mono ?_
  rintro _ d ⟨f, q0, q1, hf, hqt, htab⟩
  refine ⟨f, hf, fun fc hfc => ?_⟩
  obtain ⟨-, l, hl, hlen, hent⟩ := htab fc hfc
  refine ⟨l, hl, fun k hk => ?_⟩
  have hz : zigzag.getD k 0 < 64 := by
    have : ∀ k, k < 64 → zigzag.getD k 0 < 64 := by decide
    exact this k hk
  have h1 := hent k hk
  have hco := default_coarse q.toNat (by omega) _ hz
  have hqt1 := hqt.1
  have hqt2 := hqt.2
  rw [hd] at hqt1 hqt2
  obtain ⟨t, ht, hg⟩ := C20_default_table q true
  obtain ⟨t', ht', hg'⟩ := C20_default_table q false
  obtain rfl := Except.ok.inj (ht.symm.trans hqt1)
  obtain rfl := Except.ok.inj (ht'.symm.trans hqt2)
  unfold Spec.CoarseStep
  split at h1
  · rw [hg _ hz] at h1
    rw [← Except.ok.inj h1]
    exact hco.1
  · rw [hg' _ hz] at h1
    rw [← Except.ok.inj h1]
    exact hco.2

end

-- a case that meets all the hypotheses: quality 10, default tables, an image of one gray block, which is shown without clamping
example : ∃ e p, Configured ⟨true, 8⟩ 10 [] e ∧ Spec.EncodeCall ⟨true, 8⟩ false e p .luma 8 8 (Spec.samplesOf .luma (List.replicate 64 130) 8) ∧
    Spec.Supported ⟨true, 8⟩ false e .luma 8 8 (Spec.samplesOf .luma (List.replicate 64 130) 8) ∧ Spec.EightBit e.getQuantizationTables ∧
    8 * (Spec.frameOf e .luma 8 8).hmax ∣ 8 ∧ 8 * (Spec.frameOf e .luma 8 8).vmax ∣ 8 ∧
    Spec.Encodes p true fun _ d => ∃ table, ∃ v' : UInt8, d.qts 0 = some table ∧ (∀ k, k < 64 → Spec.CoarseStep (table.getD k 0)) ∧
      Spec.ShownAs table (d.coefs 0 0 0) (fun _ _ => v') := by
  obtain ⟨e, h1, h2⟩ := reachable_exists ⟨true, 8⟩ 10 [] (by decide)
  have hq : e.getQuantizationTables = (.default, .default) := by rw [h2.quant]; rfl
  have hp : Spec.EncodeCall ⟨true, 8⟩ false e _ .luma 8 8 _ := .data (List.replicate 64 130) 8 8 .luma (by decide) (by unfold Spec.SliceOk; decide)
  have hs : Spec.Supported ⟨true, 8⟩ false e .luma 8 8 (Spec.samplesOf .luma (List.replicate 64 130) 8) :=
    ⟨by decide, by decide, Or.inl rfl, Or.inl (by rw [h2.optimized]; rfl)⟩
  have h8 : Spec.EightBit e.getQuantizationTables := by intro t ht; rw [hq] at ht; rcases ht with h | h <;> cases h
  have hst : ScansFine true e := by intro _ n hn; rw [h2.scans] at hn; cases hn
  refine ⟨e, _, h1, hp, hs, h8, ⟨1, rfl⟩, ⟨1, rfl⟩, ?_⟩
  refine (((C75_default_tables (by decide) h1 hp hs h8 hst (by decide) hq).and (C47_flat_blocks (by decide) h1 hp hs h8 hst)).and
    ((C32_frame_header (by decide) h1 hp hs h8 hst).and (C21_tables_in_file (by decide) h1 hp hs h8 hst))).mono ?_
  rintro _ d ⟨⟨⟨f, hf, hco⟩, f', hf', hfl⟩, ⟨-, -, -, hf''⟩, f3, q0, q1, hf3, hqt, htab⟩
  obtain rfl := Option.some.inj (hf.symm.trans hf')
  obtain rfl := Option.some.inj (hf.symm.trans hf3)
  obtain rfl := Option.some.inj (hf.symm.trans hf'')
  obtain ⟨table, ht, hsteps⟩ := hco ⟨0, 1, 1, 0⟩ (List.mem_singleton.mpr rfl)
  obtain ⟨table', ht', hflat⟩ := hfl 0 ⟨0, 1, 1, 0⟩ rfl
  obtain ⟨-, table'', ht'', -, hent⟩ := htab ⟨0, 1, 1, 0⟩ (List.mem_singleton.mpr rfl)
  obtain rfl := Option.some.inj (ht.symm.trans ht')
  obtain rfl := Option.some.inj (ht.symm.trans ht'')
  have hstep : table.getD 0 0 = 80 := by
    have h0 := hent 0 (by omega)
    obtain ⟨t, ht, hg⟩ := C20_default_table 10 true
    have h4 := hqt.1
    rw [hq] at h4
    obtain rfl := Except.ok.inj (ht.symm.trans h4)
    rw [if_pos rfl, hg _ (by decide)] at h0
    rw [← Except.ok.inj h0]
    decide
  obtain ⟨-, r, hr, hb⟩ := hflat 0 0 (by simp [Frame.blocksHigh, Frame.vmax, Spec.expectedComps, _root_.Spec.ceilDiv])
    (by simp [Frame.blocksWide, Frame.hmax, Spec.expectedComps, _root_.Spec.ceilDiv]) 130 (by
    intro y x hy hx
    have : ∀ a, a < 8 → ∀ b, b < 8 → Spec.samplesOf .luma (List.replicate 64 130) 8 0 a b = 130 := by decide +kernel
    exact this _ (by rw [show (UInt16.toNat 8) - 1 = 7 from rfl]; omega) _ (by rw [show (UInt16.toNat 8) - 1 = 7 from rfl]; omega))
  rw [hstep] at hb
  have hqe : quantError 80 ≤ 54 := by unfold quantError; split <;> norm_num
  have hb' := abs_le.mp hb
  rw [show ((130 : UInt8).toNat : ℝ) = 130 by rw [show (130 : UInt8).toNat = 130 from rfl]; norm_num] at hb'
  have hfl0 : (0 : Int) ≤ round r ∧ round r < 256 := by
    have := abs_le.mp (abs_sub_round r)
    constructor
    · have : (-1 : ℝ) < round r := by linarith
      have : (-1 : Int) < round r := by exact_mod_cast this
      omega
    · have : (round r : ℝ) < 256 := by linarith
      exact_mod_cast this
  refine ⟨table, UInt8.ofNat (round r).toNat, ht, hsteps, fun y x hy hx => ?_⟩
  rw [hr y x hy hx]
  have hv : (((UInt8.ofNat (round r).toNat).toNat : Nat) : ℝ) = round r := by
    rw [UInt8.toNat_ofNat_of_lt' (show (round r).toNat < 256 by omega)]
    have : (((round r).toNat : Int) : ℝ) = round r := by rw [Int.toNat_of_nonneg hfl0.1]
    exact_mod_cast this
  rw [hv, abs_sub_comm]
  exact abs_sub_round r

end Jpeg
