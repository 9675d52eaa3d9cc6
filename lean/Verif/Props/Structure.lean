import Verif.Proofs.Structure
import Verif.Props.Tiles
/-! C76, C77: brightness, block means, stripes. -/
namespace Jpeg
open _root_.Spec

/-- A sample block from its entries. -/
theorem samples_getD {samples : List Int} {s : Nat → Nat → UInt8} (h : ∀ y x, y < 8 → x < 8 → samples[8 * y + x]? = some (((s y x).toNat : Int) - 128))
    {i : Nat} (hi : i < 64) : samples.getD i 0 = ((s (i / 8) (i % 8)).toNat : Int) - 128 := by
  have := h (i / 8) (i % 8) (by omega) (by omega)
  rw [show 8 * (i / 8) + i % 8 = i by omega] at this
  rw [List.getD_eq_getElem?_getD, this]
  rfl

theorem samples_shifted {samples : List Int} (hl : samples.length = 64) {s : Nat → Nat → UInt8}
    (h : ∀ y x, y < 8 → x < 8 → samples[8 * y + x]? = some (((s y x).toNat : Int) - 128)) : Shifted samples := by
  intro v hv
  obtain ⟨i, hi, rfl⟩ := List.mem_iff_getElem.mp hv
  have := samples_getD h (i := i) (by omega)
  rw [List.getD_eq_getElem?_getD, List.getElem?_eq_getElem hi] at this
  have h2 : samples[i] = ((s (i / 8) (i % 8)).toNat : Int) - 128 := this
  rw [h2]
  have := (s (i / 8) (i % 8)).toNat_lt
  omega

section
variable {pf : Platform} (hpf : pf.Valid) {q : UInt8} {calls : List Spec.Call} {e : Encoder} (hc : Configured pf q calls e)
  {simd : Bool} {p : Prog (R Unit)} {ct : JpegColorType} {w h : UInt16} {P : Nat → Nat → Nat → UInt8} (hp : Spec.EncodeCall pf simd e p ct w h P)
  (hs : Spec.Supported pf simd e ct w h P) (h8 : Spec.EightBit e.getQuantizationTables) {strict : Bool} (hst : ScansFine strict e)
  {calls' : List Spec.Call} {e' : Encoder} (hc' : Configured pf q calls' e') {p' : Prog (R Unit)} {ct' : JpegColorType} {w' h' : UInt16}
  {P' : Nat → Nat → Nat → UInt8} (hp' : Spec.EncodeCall pf simd e' p' ct' w' h' P') (hs' : Spec.Supported pf simd e' ct' w' h' P')
  (hst' : ScansFine strict e') (hq : e'.getQuantizationTables = e.getQuantizationTables)
include hpf hc hp hs h8 hst hc' hp' hs' hst' hq

/-- C76: brightness. Two blocks (of any two images and at any places, encoded with the same quality and quantisation tables, by components that use the same
table) whose samples differ by a constant `δ` have the same AC coefficients. -/
theorem C76_brightness :
    Spec.Encodes p strict fun _ d => Spec.Encodes p' strict fun _ d' => ∃ f f', d.frame = some f ∧ d'.frame = some f' ∧
      ∀ c fc c' fc', f.comps[c]? = some fc → f'.comps[c']? = some fc' → fc.tq = fc'.tq →
      ∀ by_ bx by' bx', by_ < f.blocksHigh fc → bx < f.blocksWide fc → by' < f'.blocksHigh fc' → bx' < f'.blocksWide fc' → ∀ δ : Int,
        (∀ y x, y < 8 → x < 8 → ((P' c' (min ((8 * by' + y) * (f'.vmax / fc'.v)) (h'.toNat - 1)) (min ((8 * bx' + x) * (f'.hmax / fc'.h)) (w'.toNat - 1))).toNat : Int)
          = (P c (min ((8 * by_ + y) * (f.vmax / fc.v)) (h.toNat - 1)) (min ((8 * bx + x) * (f.hmax / fc.h)) (w.toNat - 1))).toNat + δ) →
        ∀ k, 1 ≤ k → k < 64 → d'.coefs c' by' bx' k = d.coefs c by_ bx k := by
  have h8' : Spec.EightBit e'.getQuantizationTables := by rw [hq]; exact h8
  refine (C29_sampling_positions hpf hc hp hs h8 hst).mono ?_
  rintro _ d ⟨f, q0, q1, hf, hqt, hall⟩
  refine (C29_sampling_positions hpf hc' hp' hs' h8' hst').mono ?_
  rintro _ d' ⟨f', q0', q1', hf', hqt', hall'⟩
  rw [hq] at hqt'
  obtain rfl : q0 = q0' := by have := hqt.1.symm.trans hqt'.1; cases this; rfl
  obtain rfl : q1 = q1' := by have := hqt.2.symm.trans hqt'.2; cases this; rfl
  refine ⟨f, f', hf, hf', fun c fc c' fc' hfc hfc' htq by_ bx by' bx' hby hbx hby' hbx' δ hsame k h1 hk => ?_⟩
  obtain ⟨samples, hsl, hsv, hco⟩ := hall c fc hfc by_ bx hby hbx
  obtain ⟨samples', hsl', hsv', hco'⟩ := hall' c' fc' hfc' by' bx' hby' hbx'
  have hsh : ∀ i, i < 64 → samples'.getD i 0 = samples.getD i 0 + δ := by
    intro i hi
    rw [samples_getD hsv' hi, samples_getD hsv hi, hsame _ _ (by omega) (by omega)]
    omega
  obtain ⟨fr, e1, e2⟩ := hco k hk
  obtain ⟨fr', e1', e2'⟩ := hco' k hk
  rw [buildDct_run simd _ hsl (samples_shifted hsl hsv)] at e1
  rw [buildDct_run simd _ hsl' (samples_shifted hsl' hsv')] at e1'
  obtain rfl := Except.ok.inj e1
  obtain rfl := Except.ok.inj e1'
  have hz : zigzag.getD k 0 < 64 := by rw [zigzag_eq]; exact ZIGZAG_getD_lt hk
  rw [dct_shift simd δ hsh (zigzag_pos k hk h1) hz, ← htq, e2] at e2'
  exact (Except.ok.inj e2').symm

end

section
variable {pf : Platform} (hpf : pf.Valid) {q : UInt8} {calls : List Spec.Call} {e : Encoder} (hc : Configured pf q calls e)
  {simd : Bool} {p : Prog (R Unit)} {ct : JpegColorType} {w h : UInt16} {P : Nat → Nat → Nat → UInt8} (hp : Spec.EncodeCall pf simd e p ct w h P)
  (hs : Spec.Supported pf simd e ct w h P) (h8 : Spec.EightBit e.getQuantizationTables) {strict : Bool} (hst : ScansFine strict e)
include hpf hc hp hs h8 hst

/-- The coefficients of a block in the file: quantised outputs of the transform, with the table of the file. -/
theorem coefs_transform : Spec.Encodes p strict fun _ d => ∃ f, d.frame = some f ∧
    ∀ c fc, f.comps[c]? = some fc → ∃ table, d.qts fc.tq = some table ∧ ∃ ty b, (∀ v ∈ steps ty q.toNat b, v ≤ 255) ∧
      (∀ k, k < 64 → (mkQ (steps ty q.toNat b)).get (zigzag.getD k 0) = .ok (table.getD k 0)) ∧
      ∀ by_ bx, by_ < f.blocksHigh fc → bx < f.blocksWide fc → ∃ samples : List Int, samples.length = 64 ∧ Shifted samples ∧
        (∀ y x, y < 8 → x < 8 → samples[8 * y + x]? = some (((P c (min ((8 * by_ + y) * (f.vmax / fc.v)) (h.toNat - 1))
          (min ((8 * bx + x) * (f.hmax / fc.h)) (w.toNat - 1))).toNat : Int) - 128)) ∧
        ∀ k, k < 64 → (mkQ (steps ty q.toNat b)).quantize pf ((if simd then Avx2.fdctA samples else fdctP samples).getD (zigzag.getD k 0) 0)
          (zigzag.getD k 0) = .ok (d.coefs c by_ bx k) := by
  refine ((C29_sampling_positions hpf hc hp hs h8 hst).and (C21_tables_in_file hpf hc hp hs h8 hst)).mono ?_
  rintro _ d ⟨⟨f, q0, q1, hf, hq, hall⟩, f', q0', q1', hf', hq', htab⟩
  rw [hf] at hf'
  obtain rfl := Option.some.inj hf'
  obtain rfl : q0 = q0' := by have := hq.1.symm.trans hq'.1; cases this; rfl
  obtain rfl : q1 = q1' := by have := hq.2.symm.trans hq'.2; cases this; rfl
  refine ⟨f, hf, fun c fc hfc => ?_⟩
  obtain ⟨ht01, l, hl, hlen, hent⟩ := htab fc (List.mem_of_getElem? hfc)
  have hq0 : q0 = mkQ (steps e.getQuantizationTables.1 q.toNat true) := by
    have := hq.1.symm.trans (newWithQuality_eq _ _ _); cases this; rfl
  have hq1 : q1 = mkQ (steps e.getQuantizationTables.2 q.toNat false) := by
    have := hq.2.symm.trans (newWithQuality_eq _ _ _); cases this; rfl
  obtain ⟨ty, b, hty, htq⟩ : ∃ (ty : QuantizationTableType) (b : Bool), (∀ t, ty = .custom t → ∀ v ∈ t.toList, v.toNat ≤ 255) ∧
      (if fc.tq = 0 then q0 else q1) = mkQ (steps ty q.toNat b) := by
    by_cases h0 : fc.tq = 0
    · exact ⟨_, _, fun t ht => h8 t (Or.inl ht), by rw [if_pos h0, hq0]⟩
    · exact ⟨_, _, fun t ht => h8 t (Or.inr ht), by rw [if_neg h0, hq1]⟩
  rw [htq] at hent
  refine ⟨l, hl, ty, b, steps_le255 hty, hent, fun by_ bx hby hbx => ?_⟩
  obtain ⟨samples, hsl, hsv, hco⟩ := hall c fc hfc by_ bx hby hbx
  refine ⟨samples, hsl, samples_shifted hsl hsv, hsv, fun k hk => ?_⟩
  obtain ⟨freq, h1, h2⟩ := hco k hk
  rw [buildDct_run simd _ hsl (samples_shifted hsl hsv)] at h1
  obtain rfl := Except.ok.inj h1
  rw [htq] at h2
  exact h2

/-- C76: the mean of the 64 samples a decoder reconstructs for a block differs from the mean of the samples the block stands for by at most 1/8 of what
quantising the DC coefficient may change, whatever is lost in the AC coefficients. -/
theorem C76_block_means : Spec.Encodes p strict fun _ d => ∃ f, d.frame = some f ∧
    ∀ c fc, f.comps[c]? = some fc → ∃ table, d.qts fc.tq = some table ∧
      ∀ by_ bx, by_ < f.blocksHigh fc → bx < f.blocksWide fc →
        |(∑ y ∈ Finset.range 8, ∑ x ∈ Finset.range 8, reconstructed table (d.coefs c by_ bx) y x) / 64 -
          (∑ y ∈ Finset.range 8, ∑ x ∈ Finset.range 8, ((P c (min ((8 * by_ + y) * (f.vmax / fc.v)) (h.toNat - 1))
            (min ((8 * bx + x) * (f.hmax / fc.h)) (w.toNat - 1))).toNat : ℝ)) / 64| ≤ quantError (table.getD 0 0) / 8 := by
  refine (coefs_transform hpf hc hp hs h8 hst).mono ?_
  rintro _ d ⟨f, hf, hall⟩
  refine ⟨f, hf, fun c fc hfc => ?_⟩
  obtain ⟨table, ht, ty, b, h255, hent, hblk⟩ := hall c fc hfc
  refine ⟨table, ht, fun by_ bx hby hbx => ?_⟩
  obtain ⟨samples, hsl, hsh, hsv, hco⟩ := hblk by_ bx hby hbx
  have hsum : ((samples.sum : Int) : ℝ) = (∑ y ∈ Finset.range 8, ∑ x ∈ Finset.range 8, ((P c (min ((8 * by_ + y) * (f.vmax / fc.v)) (h.toNat - 1))
            (min ((8 * bx + x) * (f.hmax / fc.h)) (w.toNat - 1))).toNat : ℝ)) - 8192 := by
    have h1 : samples.sum = ∑ y ∈ Finset.range 8, ∑ x ∈ Finset.range 8, samples.getD (8 * y + x) 0 := by
      conv_lhs => rw [list64 hsl]
      simp only [Finset.sum_range_succ, Finset.sum_range_zero, List.range, List.range.loop, List.map_cons, List.map_nil, List.sum_cons, List.sum_nil]
      ring_nf
    rw [h1]
    push_cast
    have h2 : ∀ y ∈ Finset.range 8, ∀ x ∈ Finset.range 8, ((samples.getD (8 * y + x) 0 : Int) : ℝ) = ((P c (min ((8 * by_ + y) * (f.vmax / fc.v)) (h.toNat - 1))
            (min ((8 * bx + x) * (f.hmax / fc.h)) (w.toNat - 1))).toNat : ℝ) - 128 := by
      intro y hy x hx
      rw [List.getD_eq_getElem?_getD, hsv y x (Finset.mem_range.mp hy) (Finset.mem_range.mp hx)]
      simp
    rw [Finset.sum_congr rfl fun y hy => Finset.sum_congr rfl fun x hx => h2 y hy x hx]
    simp only [Finset.sum_sub_distrib, Finset.sum_const, Finset.card_range]
    norm_num
  have hrec : (∑ y ∈ Finset.range 8, ∑ x ∈ Finset.range 8, reconstructed table (d.coefs c by_ bx) y x) = 8 * ((table.getD 0 0 : ℝ) * d.coefs c by_ bx 0) + 8192 := by
    simp only [reconstructed, Finset.sum_add_distrib]
    rw [idct_sum]
    simp only [dequantized, show zigzag.idxOf (8 * 0 + 0) = 0 by decide, Finset.sum_const, Finset.card_range]
    norm_num
  have h2 := hco 0 (by omega)
  have hstep := hent 0 (by omega)
  rw [show zigzag.getD 0 0 = 0 by decide] at h2 hstep
  rw [dct_dc simd hsl] at h2
  have hrange : |samples.sum| ≤ 8192 := by
    have : ∀ l : List Int, Shifted l → -128 * (l.length : Int) ≤ l.sum ∧ l.sum ≤ 127 * l.length := by
      intro l
      induction l with
      | nil => intro _; simp
      | cons a l ih =>
        intro hl
        have h1 := hl a (List.mem_cons_self ..)
        have h2 := ih fun v hv => hl v (List.mem_cons_of_mem _ hv)
        rw [List.sum_cons, List.length_cons]
        push_cast
        omega
    have := this samples hsh
    rw [hsl] at this
    rw [abs_le]
    omega
  have := quant_error h255 (by omega) hrange h2 hstep
  rw [hsum] at this
  rw [hrec]
  rw [abs_le] at this ⊢
  constructor <;> linarith [this.1, this.2]

/-- C77: vertical stripes stay vertical stripes. If the eight lines of a block are the same, the eight lines a decoder reconstructs from the file are the same:
all coefficients with a vertical frequency are zero. -/
theorem C77_equal_lines : Spec.Encodes p strict fun _ d => ∃ f, d.frame = some f ∧
    ∀ c fc, f.comps[c]? = some fc → ∃ table, d.qts fc.tq = some table ∧
      ∀ by_ bx, by_ < f.blocksHigh fc → bx < f.blocksWide fc →
        (∀ y x, y < 8 → x < 8 → P c (min ((8 * by_ + y) * (f.vmax / fc.v)) (h.toNat - 1)) (min ((8 * bx + x) * (f.hmax / fc.h)) (w.toNat - 1)) =
          P c (min (8 * by_ * (f.vmax / fc.v)) (h.toNat - 1)) (min ((8 * bx + x) * (f.hmax / fc.h)) (w.toNat - 1))) →
        (∀ k, k < 64 → 8 ≤ zigzag.getD k 0 → d.coefs c by_ bx k = 0) ∧
        ∀ y x, y < 8 → x < 8 → reconstructed table (d.coefs c by_ bx) y x = reconstructed table (d.coefs c by_ bx) 0 x := by
  refine (coefs_transform hpf hc hp hs h8 hst).mono ?_
  rintro _ d ⟨f, hf, hall⟩
  refine ⟨f, hf, fun c fc hfc => ?_⟩
  obtain ⟨table, ht, ty, b, h255, hent, hblk⟩ := hall c fc hfc
  refine ⟨table, ht, fun by_ bx hby hbx hsame => ?_⟩
  obtain ⟨samples, hsl, hsh, hsv, hco⟩ := hblk by_ bx hby hbx
  have hzero : ∀ k, k < 64 → 8 ≤ zigzag.getD k 0 → d.coefs c by_ bx k = 0 := by
    intro k hk hz8
    have hz : zigzag.getD k 0 < 64 := by rw [zigzag_eq]; exact ZIGZAG_getD_lt hk
    have h2 := hco k hk
    rw [dct_equal_lines simd (fun y x hy hx => by
      rw [List.getD_eq_getElem?_getD, hsv y x hy hx, hsame y x hy hx]
      have := hsv 0 x (by omega) hx
      rw [Nat.mul_zero, Nat.zero_add, Nat.add_zero] at this
      rw [List.getD_eq_getElem?_getD, this]) hz8 hz] at h2
    have hzl : zigzag.getD k 0 < (steps ty q.toNat b).length := by rw [steps_length]; exact hz
    rw [quantize_eq pf _ (steps_range _ _ _) _ hzl 0 (by omega)] at h2
    rw [← Except.ok.inj h2]
    exact quantOf_zero (steps_range _ _ _ _ (getD_mem hzl))
  refine ⟨hzero, fun y x hy hx => ?_⟩
  unfold reconstructed realIdct
  congr 2
  refine Finset.sum_congr rfl fun u hu => Finset.sum_congr rfl fun v hv => ?_
  have hu' := Finset.mem_range.mp hu
  have hv' := Finset.mem_range.mp hv
  by_cases h0 : u = 0
  · subst h0
    simp
  · obtain ⟨h1, h2⟩ := zigzag_idxOf (8 * u + v) (by omega)
    have : dequantized table (d.coefs c by_ bx) u v = 0 := by
      rw [dequantized, hzero _ h1 (by rw [h2]; omega)]
      simp
    rw [this]
    ring

/-- C77: horizontal stripes stay horizontal stripes. -/
theorem C77_equal_columns : Spec.Encodes p strict fun _ d => ∃ f, d.frame = some f ∧
    ∀ c fc, f.comps[c]? = some fc → ∃ table, d.qts fc.tq = some table ∧
      ∀ by_ bx, by_ < f.blocksHigh fc → bx < f.blocksWide fc →
        (∀ y x, y < 8 → x < 8 → P c (min ((8 * by_ + y) * (f.vmax / fc.v)) (h.toNat - 1)) (min ((8 * bx + x) * (f.hmax / fc.h)) (w.toNat - 1)) =
          P c (min ((8 * by_ + y) * (f.vmax / fc.v)) (h.toNat - 1)) (min (8 * bx * (f.hmax / fc.h)) (w.toNat - 1))) →
        (∀ k, k < 64 → zigzag.getD k 0 % 8 ≠ 0 → d.coefs c by_ bx k = 0) ∧
        ∀ y x, y < 8 → x < 8 → reconstructed table (d.coefs c by_ bx) y x = reconstructed table (d.coefs c by_ bx) y 0 := by
  refine (coefs_transform hpf hc hp hs h8 hst).mono ?_
  rintro _ d ⟨f, hf, hall⟩
  refine ⟨f, hf, fun c fc hfc => ?_⟩
  obtain ⟨table, ht, ty, b, h255, hent, hblk⟩ := hall c fc hfc
  refine ⟨table, ht, fun by_ bx hby hbx hsame => ?_⟩
  obtain ⟨samples, hsl, hsh, hsv, hco⟩ := hblk by_ bx hby hbx
  have hzero : ∀ k, k < 64 → zigzag.getD k 0 % 8 ≠ 0 → d.coefs c by_ bx k = 0 := by
    intro k hk hz8
    have hz : zigzag.getD k 0 < 64 := by rw [zigzag_eq]; exact ZIGZAG_getD_lt hk
    have h2 := hco k hk
    rw [dct_equal_columns simd (fun y x hy hx => by
      rw [List.getD_eq_getElem?_getD, hsv y x hy hx, hsame y x hy hx]
      have := hsv y 0 hy (by omega)
      rw [Nat.add_zero, Nat.add_zero] at this
      rw [List.getD_eq_getElem?_getD, this]) hz8 hz] at h2
    have hzl : zigzag.getD k 0 < (steps ty q.toNat b).length := by rw [steps_length]; exact hz
    rw [quantize_eq pf _ (steps_range _ _ _) _ hzl 0 (by omega)] at h2
    rw [← Except.ok.inj h2]
    exact quantOf_zero (steps_range _ _ _ _ (getD_mem hzl))
  refine ⟨hzero, fun y x hy hx => ?_⟩
  unfold reconstructed realIdct
  congr 2
  refine Finset.sum_congr rfl fun u hu => Finset.sum_congr rfl fun v hv => ?_
  have hu' := Finset.mem_range.mp hu
  have hv' := Finset.mem_range.mp hv
  by_cases h0 : v = 0
  · subst h0
    simp
  · obtain ⟨h1, h2⟩ := zigzag_idxOf (8 * u + v) (by omega)
    have : dequantized table (d.coefs c by_ bx) u v = 0 := by
      rw [dequantized, hzero _ h1 (by rw [h2]; omega)]
      simp
    rw [this]
    ring

end

/-- Eight equal lines of eight samples, 3 brighter than the same block with `δ = 0`: the hypotheses of C76 and C77 are met (the two images are not flat), and
the theorems apply. -/
def stripes (δ : Nat) : List UInt8 := (List.range 64).map fun i => UInt8.ofNat (20 * (i % 8) + δ)

example : ∃ e p p', Configured ⟨true, 8⟩ 50 [] e ∧ Spec.EncodeCall ⟨true, 8⟩ false e p .luma 8 8 (Spec.samplesOf .luma (stripes 0) 8) ∧
    Spec.EncodeCall ⟨true, 8⟩ false e p' .luma 8 8 (Spec.samplesOf .luma (stripes 3) 8) ∧ Spec.EightBit e.getQuantizationTables ∧
    (Spec.Encodes p true fun _ d => ∀ k, k < 64 → 8 ≤ zigzag.getD k 0 → d.coefs 0 0 0 k = 0) ∧
    Spec.Encodes p true fun _ d => Spec.Encodes p' true fun _ d' => ∀ k, 1 ≤ k → k < 64 → d'.coefs 0 0 0 k = d.coefs 0 0 0 k := by
  obtain ⟨e, h1, h2⟩ := reachable_exists ⟨true, 8⟩ 50 [] (by decide)
  have hq : e.getQuantizationTables = (.default, .default) := by rw [h2.quant]; rfl
  have hp : ∀ δ, Spec.EncodeCall ⟨true, 8⟩ false e _ .luma 8 8 (Spec.samplesOf .luma (stripes δ) 8) := fun δ =>
    .data (stripes δ) 8 8 .luma (by show _ ≤ (stripes δ).length; unfold stripes; rw [List.length_map, List.length_range]; decide)
      (by unfold Spec.SliceOk stripes; rw [List.length_map, List.length_range]; decide)
  have hs : ∀ δ, Spec.Supported ⟨true, 8⟩ false e .luma 8 8 (Spec.samplesOf .luma (stripes δ) 8) := fun δ =>
    ⟨by decide, by decide, Or.inl rfl, Or.inl (by rw [h2.optimized]; rfl)⟩
  have h8 : Spec.EightBit e.getQuantizationTables := by intro t ht; rw [hq] at ht; rcases ht with h | h <;> cases h
  have hst : ScansFine true e := by intro _ n hn; rw [h2.scans] at hn; cases hn
  have hfr : ∀ δ, Spec.Encodes _ true fun _ d => d.frame = some _ := fun δ => (C32_frame_header (by decide) h1 (hp δ) (hs δ) h8 hst).mono fun _ d h => h.2.2.2
  have hb : 0 < Frame.blocksHigh (Spec.frameOf e .luma 8 8) ⟨0, 1, 1, 0⟩ := by
    simp [Frame.blocksHigh, Frame.vmax, Spec.frameOf, Spec.expectedComps, _root_.Spec.ceilDiv]
  have hb' : 0 < Frame.blocksWide (Spec.frameOf e .luma 8 8) ⟨0, 1, 1, 0⟩ := by
    simp [Frame.blocksWide, Frame.hmax, Spec.frameOf, Spec.expectedComps, _root_.Spec.ceilDiv]
  have hin : ∀ a, min a (UInt16.toNat 8 - 1) < 8 := fun a => by rw [show (UInt16.toNat 8) - 1 = 7 from rfl]; omega
  refine ⟨e, _, _, h1, hp 0, hp 3, h8, ?_, ?_⟩
  · refine ((C77_equal_lines (by decide) h1 (hp 0) (hs 0) h8 hst).and (hfr 0)).mono ?_
    rintro _ d ⟨⟨f, hf, hall⟩, hf'⟩
    obtain rfl := Option.some.inj (hf.symm.trans hf')
    obtain ⟨table, -, hblk⟩ := hall 0 ⟨0, 1, 1, 0⟩ rfl
    refine (hblk 0 0 hb hb' fun y x hy hx => ?_).1
    have : ∀ a, a < 8 → ∀ a', a' < 8 → ∀ b, b < 8 → Spec.samplesOf .luma (stripes 0) 8 0 a b = Spec.samplesOf .luma (stripes 0) 8 0 a' b := by decide +kernel
    exact this _ (hin _) _ (hin _) _ (hin _)
  · refine ((C76_brightness (by decide) h1 (hp 0) (hs 0) h8 hst h1 (hp 3) (hs 3) hst rfl).and (hfr 0)).mono ?_
    rintro _ d ⟨hall, hf0⟩
    refine (hall.and (hfr 3)).mono ?_
    rintro _ d' ⟨⟨f, f', hf, hf', h⟩, hf3⟩
    obtain rfl := Option.some.inj (hf.symm.trans hf0)
    obtain rfl := Option.some.inj (hf'.symm.trans hf3)
    refine h 0 ⟨0, 1, 1, 0⟩ 0 ⟨0, 1, 1, 0⟩ rfl rfl rfl 0 0 0 0 hb hb' hb hb' 3 fun y x hy hx => ?_
    have : ∀ a, a < 8 → ∀ b, b < 8 → ((Spec.samplesOf .luma (stripes 3) 8 0 a b).toNat : Int) = (Spec.samplesOf .luma (stripes 0) 8 0 a b).toNat + 3 := by
      decide +kernel
    exact this _ (hin _) _ (hin _)

end Jpeg
