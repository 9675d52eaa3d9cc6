import Verif.Spec.Pixel
import Verif.Props.Rgb
/-! C98: the error of every single sample. -/
namespace Jpeg
open _root_.Spec Real

/-- The inverse DCT of the error of the coefficients is the error of the samples. -/
theorem idct_error (s S : Nat → Nat → ℝ) {y x : Nat} (hy : y < 8) (hx : x < 8) :
    realIdct S y x - s y x = realIdct (fun u v => S u v - realDct s u v) y x := by
  have hE : (blockMat fun u v => S u v - realDct s u v) = blockMat S - dctMat.transpose * blockMat s * dctMat := by
    rw [← blockMat_dct]; rfl
  have he : (blockMat fun y x => realIdct S y x - s y x) = blockMat (realIdct fun u v => S u v - realDct s u v) := by
    have : (blockMat fun y x => realIdct S y x - s y x) = blockMat (realIdct S) - blockMat s := rfl
    rw [this, blockMat_idct, blockMat_idct, hE, Matrix.mul_sub, Matrix.sub_mul]
    congr 1
    have : dctMat * (dctMat.transpose * blockMat s * dctMat) * dctMat.transpose =
        dctMat * dctMat.transpose * blockMat s * (dctMat * dctMat.transpose) := by
      simp only [Matrix.mul_assoc]
    rw [this, dctMat_orth, Matrix.one_mul, Matrix.mul_one]
  exact congrFun (congrFun he ⟨y, hy⟩) ⟨x, hx⟩

theorem idct_abs {D B : Nat → Nat → ℝ} (h : ∀ u v, u < 8 → v < 8 → |D u v| ≤ B u v) (y x : Nat) :
    |realIdct D y x| ≤ ∑ u ∈ Finset.range 8, ∑ v ∈ Finset.range 8, Spec.basis u v y x * B u v := by
  rw [realIdct, Finset.mul_sum]
  refine (Finset.abs_sum_le_sum_abs _ _).trans (Finset.sum_le_sum fun u hu => ?_)
  rw [Finset.mul_sum]
  refine (Finset.abs_sum_le_sum_abs _ _).trans (Finset.sum_le_sum fun v hv => ?_)
  have e : 1 / 4 * (dctC u * dctC v * D u v * cos ((2 * x + 1) * v * π / 16) * cos ((2 * y + 1) * u * π / 16)) =
      1 / 4 * dctC u * dctC v * cos ((2 * x + 1) * v * π / 16) * cos ((2 * y + 1) * u * π / 16) * D u v := by ring
  rw [e, abs_mul]
  exact mul_le_mul_of_nonneg_left (h u v (Finset.mem_range.mp hu) (Finset.mem_range.mp hv)) (abs_nonneg _)

/-- Clamping does not move a sample away from a value in the range. -/
theorem clamp_near {r p : ℝ} (h0 : 0 ≤ p) (h1 : p ≤ 255) : |max 0 (min 255 r) - p| ≤ |r - p| := by
  rcases le_total r 0 with hr | hr
  · rw [min_eq_right (by linarith), max_eq_left hr, abs_of_nonpos (by linarith), abs_of_nonpos (by linarith)]
    linarith
  · rcases le_total r 255 with hr' | hr'
    · rw [min_eq_right hr', max_eq_right hr]
    · rw [min_eq_left hr', max_eq_right (by norm_num), abs_of_nonneg (by linarith), abs_of_nonneg (by linarith)]
      linarith

theorem rounds_near {r p : ℝ} {n : Int} (hn : Spec.RoundsTo r n) (h0 : 0 ≤ p) (h1 : p ≤ 255) : |(n : ℝ) - p| ≤ |r - p| + 1 / 2 := by
  have h2 := clamp_near (r := r) h0 h1
  have h3 := abs_add_le ((n : ℝ) - max 0 (min 255 r)) (max 0 (min 255 r) - p)
  rw [sub_add_sub_cancel] at h3
  unfold Spec.RoundsTo at hn
  linarith

/-! ### The sum of the weights -/

theorem act_mod (j m : Nat) : |ct (32 * j + m)| = |ct m| := by rw [Nat.add_comm, ct_mod]
theorem act_add16 (m : Nat) : |ct (m + 16)| = |ct m| := by rw [ct_add16, abs_neg]
theorem act_sub16 (m : Nat) (h : m ≤ 16) : |ct (16 - m)| = |ct m| := by rw [ct_sub16 h, abs_neg]

/-- The class of an angle: `0..8`. -/
def fold (m : Nat) : Nat := if m % 16 ≤ 8 then m % 16 else 16 - m % 16

theorem act_fold (m : Nat) : |ct m| = |ct (fold m)| := by
  have h16 : |ct m| = |ct (m % 16)| := by
    rcases Nat.lt_or_ge (m % 32) 16 with h | h
    · conv_lhs => rw [show m = 32 * (m / 32) + m % 16 by omega]
      exact act_mod _ _
    · conv_lhs => rw [show m = 32 * (m / 32) + (m % 16 + 16) by omega]
      rw [act_mod, act_add16]
  rw [h16, fold]
  split
  · rfl
  · exact (act_sub16 _ (by omega)).symm

theorem dctM_abs0 (y : Nat) : |dctM y 0| = 1 / (2 * √2) := by
  have : dctC 0 = 1 / √2 := if_pos rfl
  simp only [dctM, this, Nat.cast_zero, mul_zero, zero_mul, zero_div, cos_zero, mul_one]
  rw [abs_of_nonneg (by positivity)]
  field_simp

theorem dctM_abs (y u : Nat) : |dctM y (u + 1)| = |ct (fold ((2 * y + 1) * (u + 1)))| / (2 * √2) := by
  have s0 : 0 < √2 := by positivity
  rw [← act_fold, dctM, dctC, if_neg (Nat.succ_ne_zero u), ct, abs_mul, abs_mul, abs_of_pos s0]
  push_cast
  rw [eq_div_iff (by positivity), abs_of_nonneg (by norm_num : (0 : ℝ) ≤ 1 / 2)]
  ring

theorem weight_sum {y : Nat} (hy : y < 8) : ∑ u ∈ Finset.range 8, |dctM y u| ≤ 2.6420 := by
  have s0 : 0 < √2 := by positivity
  obtain ⟨⟨a1, b1⟩, ⟨a2, b2⟩, ⟨a3, b3⟩, ⟨a5, b5⟩, ⟨a6, b6⟩, ⟨a7, b7⟩⟩ := ct_bounds
  have e1 : |ct 1| = ct 1 := abs_of_nonneg (by linarith)
  have e2 : |ct 2| = ct 2 := abs_of_nonneg (by linarith)
  have e3 : |ct 3| = ct 3 := abs_of_nonneg (by linarith)
  have e4 : |ct 4| = 1 := by rw [ct4]; exact abs_one
  have e5 : |ct 5| = ct 5 := abs_of_nonneg (by linarith)
  have e6 : |ct 6| = ct 6 := abs_of_nonneg (by linarith)
  have e7 : |ct 7| = ct 7 := abs_of_nonneg (by linarith)
  have key : ∑ u ∈ Finset.range 7, |ct (fold ((2 * y + 1) * (u + 1)))| ≤ 6.47236 := by
    simp only [Finset.sum_range_succ, Finset.sum_range_zero]
    interval_cases y <;> simp only [fold] <;> norm_num [e1, e2, e3, e4, e5, e6, e7] <;> linarith
  rw [Finset.sum_range_succ', dctM_abs0, Finset.sum_congr rfl fun u _ => dctM_abs y u, ← Finset.sum_div, ← add_div, div_le_iff₀ (by positivity)]
  have := sqrt2_bounds.1
  linarith

theorem basis_eq (u v y x : Nat) : Spec.basis u v y x = |dctM y u| * |dctM x v| := by
  rw [Spec.basis, ← abs_mul, dctM, dctM]
  congr 1
  ring

theorem basis_sum {y x : Nat} (hy : y < 8) (hx : x < 8) : ∑ u ∈ Finset.range 8, ∑ v ∈ Finset.range 8, Spec.basis u v y x ≤ 6.981 := by
  simp only [basis_eq, ← Finset.mul_sum, ← Finset.sum_mul]
  have h1 := weight_sum hy
  have h2 := weight_sum hx
  have h3 : 0 ≤ ∑ u ∈ Finset.range 8, |dctM x u| := Finset.sum_nonneg fun _ _ => abs_nonneg _
  have h4 : 0 ≤ ∑ u ∈ Finset.range 8, |dctM y u| := Finset.sum_nonneg fun _ _ => abs_nonneg _
  nlinarith

/-- Steps of 1. -/
theorem loss_one (simd : Bool) {table : List Nat} (hone : ∀ k, k < 64 → table.getD k 0 = 1) {y x : Nat} (hy : y < 8) (hx : x < 8) :
    Spec.pixelLoss simd table y x ≤ 6.981 * (1 / 2 + (if simd then 3.75 else 2.75) / 8) := by
  have e : Spec.pixelLoss simd table y x = (∑ u ∈ Finset.range 8, ∑ v ∈ Finset.range 8, Spec.basis u v y x) * (1 / 2 + (if simd then 3.75 else 2.75) / 8) := by
    rw [Spec.pixelLoss, Finset.sum_mul]
    refine Finset.sum_congr rfl fun u hu => ?_
    rw [Finset.sum_mul]
    refine Finset.sum_congr rfl fun v hv => ?_
    rw [Finset.mem_range] at hu hv
    rw [hone _ (zigzag_idxOf _ (by omega)).1]
    have : quantError 1 = 1 / 2 := by
      unfold quantError
      rw [if_pos ⟨0, by norm_num⟩]; norm_num
    rw [this]
  rw [e]
  exact mul_le_mul_of_nonneg_right (basis_sum hy hx) (by cases simd <;> norm_num)

/-- The tables of quality 100. -/
theorem ones_of_100 {e : Encoder} {q : UInt8} {q0 q1 : QuantizationTable} {table : List Nat} {tq : Nat} (hq : 100 ≤ q)
    (hb : ∀ t, e.getQuantizationTables.1 ≠ .custom t ∧ e.getQuantizationTables.2 ≠ .custom t)
    (hqt : Spec.AreTables e.getQuantizationTables q q0 q1) (hent : ∀ k, k < 64 → (if tq = 0 then q0 else q1).get (zigzag.getD k 0) = .ok (table.getD k 0)) :
    ∀ k, k < 64 → table.getD k 0 = 1 := by
  intro k hk
  have hz : zigzag.getD k 0 < 64 := by rw [zigzag_eq]; exact ZIGZAG_getD_lt hk
  have h0 : ∀ z, z < 64 → q0.get z = .ok 1 := by
    obtain ⟨t, h1, h2⟩ := C20_quality_100 _ (fun t => (hb t).1) q hq true
    have := hqt.1.symm.trans h1
    cases this
    exact h2
  have h1 : ∀ z, z < 64 → q1.get z = .ok 1 := by
    obtain ⟨t, h1, h2⟩ := C20_quality_100 _ (fun t => (hb t).2) q hq false
    have := hqt.2.symm.trans h1
    cases this
    exact h2
  have := hent k hk
  split at this
  · rw [h0 _ hz] at this; simp only [Except.ok.injEq] at this; exact this.symm
  · rw [h1 _ hz] at this; simp only [Except.ok.injEq] at this; exact this.symm

section
variable {pf : Platform} (hpf : pf.Valid) {q : UInt8} {calls : List Spec.Call} {e : Encoder} (hc : Configured pf q calls e)
  {simd : Bool} {p : Prog (R Unit)} {ct : JpegColorType} {w h : UInt16} {P : Nat → Nat → Nat → UInt8} (hp : Spec.EncodeCall pf simd e p ct w h P)
  (hs : Spec.Supported pf simd e ct w h P) (h8 : Spec.EightBit e.getQuantizationTables) {strict : Bool} (hst : ScansFine strict e)
include hpf hc hp hs h8 hst

/-- C98: the largest error of a single sample. A decoder that follows the standard (exact inverse DCT, then clamping and rounding) makes of every block of the
file samples `n` that differ from the sample of the image they stand for by at most `pixelLoss + 1/2`, where `pixelLoss` is a number that
depends on the table in the file and the place in the block only. -/
theorem C98_pixel_error : Spec.Encodes p strict fun _ d => ∃ f, d.frame = some f ∧
    ∀ c fc, f.comps[c]? = some fc → ∃ table, d.qts fc.tq = some table ∧ table.length = 64 ∧
      ∀ by_ bx, by_ < f.blocksHigh fc → bx < f.blocksWide fc → ∀ y x, y < 8 → x < 8 →
        let original : ℝ := (P c (min ((8 * by_ + y) * (f.vmax / fc.v)) (h.toNat - 1)) (min ((8 * bx + x) * (f.hmax / fc.h)) (w.toNat - 1))).toNat
        |reconstructed table (d.coefs c by_ bx) y x - original| ≤ Spec.pixelLoss simd table y x ∧
        ∀ n, Spec.RoundsTo (reconstructed table (d.coefs c by_ bx) y x) n → |(n : ℝ) - original| ≤ Spec.pixelLoss simd table y x + 1 / 2 := by
  refine (C41_coefficient_error hpf hc hp hs h8 hst).mono ?_
  rintro _ d ⟨f, hf, hall⟩
  refine ⟨f, hf, fun c fc hfc => ?_⟩
  obtain ⟨table, ht, hlen, herr⟩ := hall c fc hfc
  refine ⟨table, ht, hlen, fun by_ bx hby hbx y x hy hx => ?_⟩
  have herr := herr by_ bx hby hbx
  intro original
  have h1 : |reconstructed table (d.coefs c by_ bx) y x - original| ≤ Spec.pixelLoss simd table y x := by
    have e : reconstructed table (d.coefs c by_ bx) y x - original = realIdct (dequantized table (d.coefs c by_ bx)) y x - (original - 128) := by
      rw [reconstructed]
      ring
    rw [e]
    refine (le_of_eq (congrArg abs (idct_error (fun y x => ((P c (min ((8 * by_ + y) * (f.vmax / fc.v)) (h.toNat - 1)) (min ((8 * bx + x) * (f.hmax / fc.h)) (w.toNat - 1))).toNat : ℝ) - 128)
      (dequantized table (d.coefs c by_ bx)) hy hx))).trans (idct_abs (fun u v hu hv => ?_) y x)
    obtain ⟨h1, h2⟩ := zigzag_idxOf (8 * u + v) (by omega)
    have := herr _ h1
    rw [h2, show (8 * u + v) / 8 = u by omega, show (8 * u + v) % 8 = v by omega] at this
    exact this
  refine ⟨h1, fun n hn => ?_⟩
  have := UInt8.toNat_lt (P c (min ((8 * by_ + y) * (f.vmax / fc.v)) (h.toNat - 1)) (min ((8 * bx + x) * (f.hmax / fc.h)) (w.toNat - 1)))
  have hp1 : original ≤ 255 := by
    refine le_trans (b := ((255 : Nat) : ℝ)) (Nat.cast_le.mpr ?_) (by norm_num)
    omega
  exact (rounds_near hn (Nat.cast_nonneg _) hp1).trans (by linarith)

/-- C98 at quality 100 with built-in tables: every sample a decoder makes of the file differs by at most 7 from the sample of the image it stands for,
without SIMD by at most 6. -/
theorem C98_quality_100 (hq : 100 ≤ q) (hb : ∀ t, e.getQuantizationTables.1 ≠ .custom t ∧ e.getQuantizationTables.2 ≠ .custom t) :
    Spec.Encodes p strict fun _ d => ∃ f, d.frame = some f ∧
    ∀ c fc, f.comps[c]? = some fc → ∃ table, d.qts fc.tq = some table ∧
      ∀ by_ bx, by_ < f.blocksHigh fc → bx < f.blocksWide fc → ∀ y x, y < 8 → x < 8 →
        ∀ n, Spec.RoundsTo (reconstructed table (d.coefs c by_ bx) y x) n →
          |n - (P c (min ((8 * by_ + y) * (f.vmax / fc.v)) (h.toNat - 1)) (min ((8 * bx + x) * (f.hmax / fc.h)) (w.toNat - 1))).toNat| ≤
            if simd then 7 else 6 := by
  refine ((C98_pixel_error hpf hc hp hs h8 hst).and (C21_tables_in_file hpf hc hp hs h8 hst)).mono ?_
  rintro _ d ⟨⟨f, hf, hall⟩, f', q0, q1, hf', hqt, htab⟩
  rw [hf] at hf'
  cases hf'
  refine ⟨f, hf, fun c fc hfc => ?_⟩
  obtain ⟨table, ht, hlen, herr⟩ := hall c fc hfc
  refine ⟨table, ht, fun by_ bx hby hbx y x hy hx n hn => ?_⟩
  have herr := (herr by_ bx hby hbx y x hy hx).2 n hn
  obtain ⟨ht01, l, hl, -, hent⟩ := htab fc (List.mem_of_getElem? hfc)
  rw [ht] at hl
  cases hl
  have hloss := loss_one simd (ones_of_100 hq hb hqt hent) hy hx
  generalize (P c (min ((8 * by_ + y) * (f.vmax / fc.v)) (h.toNat - 1)) (min ((8 * bx + x) * (f.hmax / fc.h)) (w.toNat - 1))).toNat = o at *
  have h1 : |((n - (o : Int) : Int) : ℝ)| < if simd then 8 else 7 := by
    push_cast
    refine lt_of_le_of_lt (herr.trans (add_le_add_left hloss _)) ?_
    cases simd <;> norm_num
  cases simd
  · have : |n - (o : Int)| < 7 := by exact_mod_cast h1
    simp only [Bool.false_eq_true, if_false]
    omega
  · have : |n - (o : Int)| < 8 := by exact_mod_cast h1
    simp only [if_true]
    omega
end

/-- A colour channel, from a luma sample that is off by at most `m` and chroma samples off by at most `m'`. -/
theorem channel_int {Y Cb Cr Y' Cb' Cr' m m' : ℝ} {a b k : ℝ} {r : Nat} {n : Int} (hr : r ≤ 255) (h0 : |Y - Y'| ≤ m) (h1 : |Cb - Cb'| ≤ m') (h2 : |Cr - Cr'| ≤ m')
    (hk : |Y' + a * (Cb' - 128) + b * (Cr' - 128) - r| ≤ k) (hn : Spec.RoundsTo (Y + a * (Cb - 128) + b * (Cr - 128)) n) :
    |(n : ℝ) - r| ≤ m + m' * (|a| + |b|) + k + 1 / 2 := by
  have h := rounds_near hn (Nat.cast_nonneg r) (show (r : ℝ) ≤ 255 by exact_mod_cast hr)
  have e : Y + a * (Cb - 128) + b * (Cr - 128) - r = (Y - Y') + a * (Cb - Cb') + b * (Cr - Cr') + (Y' + a * (Cb' - 128) + b * (Cr' - 128) - r) := by ring
  have h3 := abs_add_le ((Y - Y') + a * (Cb - Cb') + b * (Cr - Cr')) (Y' + a * (Cb' - 128) + b * (Cr' - 128) - r)
  have h4 := abs_add_le ((Y - Y') + a * (Cb - Cb')) (b * (Cr - Cr'))
  have h5 := abs_add_le (Y - Y') (a * (Cb - Cb'))
  rw [abs_mul] at h4 h5
  have h6 := mul_le_mul_of_nonneg_left h1 (abs_nonneg a)
  have h7 := mul_le_mul_of_nonneg_left h2 (abs_nonneg b)
  rw [e] at h
  linarith

/-- An integer that is close to another. -/
theorem int_close {n : Int} {r : Nat} {x : ℝ} {m : Nat} (h : |(n : ℝ) - r| ≤ x) (hx : x < m + 1) : |n - (r : Int)| ≤ m := by
  have h1 : |((n - (r : Int) : Int) : ℝ)| < ((m + 1 : Nat) : Int) := by
    push_cast
    linarith
  have : |n - (r : Int)| < ((m + 1 : Nat) : Int) := by exact_mod_cast h1
  push_cast at this
  omega

/-- C98 for RGB pixels without chroma subsampling, at any quality: a decoder that rounds the samples `Y`, `Cb` and `Cr` of a pixel and then the colours that JFIF
gives for them comes as close to the colours of the image as the tables in the file say. -/
theorem C98_rgb {pf : Platform} (hpf : pf.Valid) {q : UInt8} {calls : List Spec.Call} {e : Encoder} (hc : Configured pf q calls e)
    {simd : Bool} {data : Bytes} {w h : UInt16} {ct : ColorType} (hrgb : Spec.HasRgb ct)
    (hlen : w.toNat * h.toNat * ct.bytesPerPixel ≤ data.length) (hsl : Spec.SliceOk pf data)
    (hs : Spec.Supported pf simd e .ycbcr w h (Spec.samplesOf ct data w.toNat)) {strict : Bool} (hst : ScansFine strict e)
    (h8 : Spec.EightBit e.getQuantizationTables) (hfac : e.getSamplingFactor.factors = (1, 1)) :
    Spec.Encodes (e.encode pf simd data w h ct) strict fun _ d => ∃ luma chroma, d.qts 0 = some luma ∧ d.qts 1 = some chroma ∧
      ∀ y x, y < h.toNat → x < w.toNat → ∀ Y Cb Cr R G B : Int,
        Spec.RoundsTo (reconstructed luma (d.coefs 0 (y / 8) (x / 8)) (y % 8) (x % 8)) Y →
        Spec.RoundsTo (reconstructed chroma (d.coefs 1 (y / 8) (x / 8)) (y % 8) (x % 8)) Cb →
        Spec.RoundsTo (reconstructed chroma (d.coefs 2 (y / 8) (x / 8)) (y % 8) (x % 8)) Cr →
        Spec.RoundsTo (jfifRed Y Cr) R → Spec.RoundsTo (jfifGreen Y Cb Cr) G → Spec.RoundsTo (jfifBlue Y Cb) B →
        let pixel := Spec.rgbAt ct data w.toNat y x
        let l := Spec.pixelLoss simd luma (y % 8) (x % 8) + 1 / 2
        let c := Spec.pixelLoss simd chroma (y % 8) (x % 8) + 1 / 2
        |(R : ℝ) - pixel.1.toNat| ≤ l + 1.402 * c + 1.72 ∧ |(G : ℝ) - pixel.2.1.toNat| ≤ l + 1.05828 * c + 1.54 ∧
          |(B : ℝ) - pixel.2.2.toNat| ≤ l + 1.772 * c + 1.9 := by
  have hfc : Spec.fileColor ct = .ycbcr := by rcases hrgb with rfl | rfl | rfl | rfl <;> rfl
  have hp : Spec.EncodeCall pf simd e (e.encode pf simd data w h ct) .ycbcr w h (Spec.samplesOf ct data w.toNat) := by
    rw [← hfc]; exact .data data w h ct hlen hsl
  refine ((C98_pixel_error hpf hc hp hs h8 hst).and (C32_frame_header hpf hc hp hs h8 hst)).mono ?_
  rintro _ d ⟨⟨f, hf, hall⟩, -, -, -, hframe⟩
  rw [Spec.HasFrame, hf, hfac] at hframe
  have hframe := Option.some.inj hframe
  subst hframe
  obtain ⟨t0, ht0, -, h0⟩ := hall 0 ⟨0, 1, 1, 0⟩ rfl
  obtain ⟨t1, ht1, -, h1⟩ := hall 1 ⟨1, 1, 1, 1⟩ rfl
  obtain ⟨t2, ht2, -, h2⟩ := hall 2 ⟨2, 1, 1, 1⟩ rfl
  rw [ht1] at ht2
  cases ht2
  refine ⟨t0, t1, ht0, ht1, fun y x hy hx Y Cb Cr R G B hY hCb hCr hR hG hB => ?_⟩
  have hbh : ∀ c, y / 8 < Frame.blocksHigh ⟨e.getProgressiveScans.isSome, h.toNat, w.toNat, Spec.expectedComps 1 1 .ycbcr⟩ ⟨c, 1, 1, if c = 0 then 0 else 1⟩ := by
    intro c
    simp only [Frame.blocksHigh, Frame.vmax, Spec.expectedComps, List.map_cons, List.map_nil, List.foldl_cons, List.foldl_nil, _root_.Spec.ceilDiv]
    norm_num
    omega
  have hbw : ∀ c, x / 8 < Frame.blocksWide ⟨e.getProgressiveScans.isSome, h.toNat, w.toNat, Spec.expectedComps 1 1 .ycbcr⟩ ⟨c, 1, 1, if c = 0 then 0 else 1⟩ := by
    intro c
    simp only [Frame.blocksWide, Frame.hmax, Spec.expectedComps, List.map_cons, List.map_nil, List.foldl_cons, List.foldl_nil, _root_.Spec.ceilDiv]
    norm_num
    omega
  have hv : Frame.vmax ⟨e.getProgressiveScans.isSome, h.toNat, w.toNat, Spec.expectedComps 1 1 .ycbcr⟩ = 1 := rfl
  have hh : Frame.hmax ⟨e.getProgressiveScans.isSome, h.toNat, w.toNat, Spec.expectedComps 1 1 .ycbcr⟩ = 1 := rfl
  have h0 := h0 _ _ (hbh 0) (hbw 0) (y % 8) (x % 8) (by omega) (by omega)
  have h1 := h1 _ _ (hbh 1) (hbw 1) (y % 8) (x % 8) (by omega) (by omega)
  have h2 := h2 _ _ (hbh 2) (hbw 2) (y % 8) (x % 8) (by omega) (by omega)
  simp only [hv, hh, Nat.div_self Nat.one_pos, Nat.mul_one, samplesOf_rgb hrgb, show min (8 * (y / 8) + y % 8) (h.toNat - 1) = y by omega,
    show min (8 * (x / 8) + x % 8) (w.toNat - 1) = x by omega] at h0 h1 h2
  intro pixel
  obtain ⟨i0, i1, i2⟩ := ycc_inverse pixel.1 pixel.2.1 pixel.2.2
  have h0 := h0.2 Y hY
  have h1 := h1.2 Cb hCb
  have h2 := h2.2 Cr hCr
  have b8 : ∀ o : UInt8, o.toNat ≤ 255 := fun o => by have := o.toNat_lt; omega
  have k0 := channel_int (a := 0) (b := 1.402) (k := 1.22) (n := R) (b8 pixel.1) h0 h1 h2 (by rw [jfifRed] at i0; convert i0 using 2; ring) (by rw [jfifRed] at hR; convert hR using 1; ring)
  have k1 := channel_int (a := -0.34414) (b := -0.71414) (k := 1.04) (n := G) (b8 pixel.2.1) h0 h1 h2 (by rw [jfifGreen] at i1; convert i1 using 2; ring) (by rw [jfifGreen] at hG; convert hG using 1; ring)
  have k2 := channel_int (a := 1.772) (b := 0) (k := 1.4) (n := B) (b8 pixel.2.2) h0 h1 h2 (by rw [jfifBlue] at i2; convert i2 using 2; ring) (by rw [jfifBlue] at hB; convert hB using 1; ring)
  rw [abs_zero, abs_of_nonneg (show (0 : ℝ) ≤ 1.402 by norm_num)] at k0
  rw [abs_neg, abs_neg, abs_of_nonneg (show (0 : ℝ) ≤ 0.34414 by norm_num), abs_of_nonneg (show (0 : ℝ) ≤ 0.71414 by norm_num)] at k1
  rw [abs_zero, abs_of_nonneg (show (0 : ℝ) ≤ 1.772 by norm_num)] at k2
  intro l c
  refine ⟨?_, ?_, ?_⟩
  · have : l + 1.402 * c + 1.72 = l + c * (0 + 1.402) + 1.22 + 1 / 2 := by ring
    rw [this]; exact k0
  · have : l + 1.05828 * c + 1.54 = l + c * (0.34414 + 0.71414) + 1.04 + 1 / 2 := by ring
    rw [this]; exact k1
  · have : l + 1.772 * c + 1.9 = l + c * (1.772 + 0) + 1.4 + 1 / 2 := by ring
    rw [this]; exact k2

/-- C98 for RGB pixels at quality 100, with built-in tables and without chroma subsampling: a decoder that rounds the samples `Y`, `Cb` and `Cr` of a pixel and then
the colours `R`, `G` and `B` that JFIF gives for them comes within 18, 15 and 21 of the red, green and blue the image has at that place, and within
16, 13 and 18 if the encoder did not use SIMD. -/
theorem C98_rgb_quality_100 {pf : Platform} (hpf : pf.Valid) {q : UInt8} {calls : List Spec.Call} {e : Encoder} (hc : Configured pf q calls e)
    {simd : Bool} {data : Bytes} {w h : UInt16} {ct : ColorType} (hrgb : Spec.HasRgb ct)
    (hlen : w.toNat * h.toNat * ct.bytesPerPixel ≤ data.length) (hsl : Spec.SliceOk pf data)
    (hs : Spec.Supported pf simd e .ycbcr w h (Spec.samplesOf ct data w.toNat)) {strict : Bool} (hst : ScansFine strict e)
    (hq : 100 ≤ q) (hb : ∀ t, e.getQuantizationTables.1 ≠ .custom t ∧ e.getQuantizationTables.2 ≠ .custom t)
    (hfac : e.getSamplingFactor.factors = (1, 1)) :
    Spec.Encodes (e.encode pf simd data w h ct) strict fun _ d => ∃ luma chroma, d.qts 0 = some luma ∧ d.qts 1 = some chroma ∧
      ∀ y x, y < h.toNat → x < w.toNat → ∀ Y Cb Cr R G B : Int,
        Spec.RoundsTo (reconstructed luma (d.coefs 0 (y / 8) (x / 8)) (y % 8) (x % 8)) Y →
        Spec.RoundsTo (reconstructed chroma (d.coefs 1 (y / 8) (x / 8)) (y % 8) (x % 8)) Cb →
        Spec.RoundsTo (reconstructed chroma (d.coefs 2 (y / 8) (x / 8)) (y % 8) (x % 8)) Cr →
        Spec.RoundsTo (jfifRed Y Cr) R → Spec.RoundsTo (jfifGreen Y Cb Cr) G → Spec.RoundsTo (jfifBlue Y Cb) B →
        let pixel := Spec.rgbAt ct data w.toNat y x
        |R - pixel.1.toNat| ≤ (if simd then 18 else 16) ∧ |G - pixel.2.1.toNat| ≤ (if simd then 15 else 13) ∧
          |B - pixel.2.2.toNat| ≤ (if simd then 21 else 18) := by
  have hfc : Spec.fileColor ct = .ycbcr := by rcases hrgb with rfl | rfl | rfl | rfl <;> rfl
  have hp : Spec.EncodeCall pf simd e (e.encode pf simd data w h ct) .ycbcr w h (Spec.samplesOf ct data w.toNat) := by
    rw [← hfc]; exact .data data w h ct hlen hsl
  have h8 : Spec.EightBit e.getQuantizationTables := by
    intro t ht
    rcases ht with ht | ht
    · exact absurd ht (hb t).1
    · exact absurd ht (hb t).2
  refine ((C98_quality_100 hpf hc hp hs h8 hst hq hb).and (C32_frame_header hpf hc hp hs h8 hst)).mono ?_
  rintro _ d ⟨⟨f, hf, hall⟩, -, -, -, hframe⟩
  rw [Spec.HasFrame, hf, hfac] at hframe
  have hframe := Option.some.inj hframe
  subst hframe
  obtain ⟨t0, ht0, h0⟩ := hall 0 ⟨0, 1, 1, 0⟩ rfl
  obtain ⟨t1, ht1, h1⟩ := hall 1 ⟨1, 1, 1, 1⟩ rfl
  obtain ⟨t2, ht2, h2⟩ := hall 2 ⟨2, 1, 1, 1⟩ rfl
  rw [ht1] at ht2
  cases ht2
  refine ⟨t0, t1, ht0, ht1, fun y x hy hx Y Cb Cr R G B hY hCb hCr hR hG hB => ?_⟩
  have hbh : ∀ c, y / 8 < Frame.blocksHigh ⟨e.getProgressiveScans.isSome, h.toNat, w.toNat, Spec.expectedComps 1 1 .ycbcr⟩ ⟨c, 1, 1, if c = 0 then 0 else 1⟩ := by
    intro c
    simp only [Frame.blocksHigh, Frame.vmax, Spec.expectedComps, List.map_cons, List.map_nil, List.foldl_cons, List.foldl_nil, _root_.Spec.ceilDiv]
    norm_num
    omega
  have hbw : ∀ c, x / 8 < Frame.blocksWide ⟨e.getProgressiveScans.isSome, h.toNat, w.toNat, Spec.expectedComps 1 1 .ycbcr⟩ ⟨c, 1, 1, if c = 0 then 0 else 1⟩ := by
    intro c
    simp only [Frame.blocksWide, Frame.hmax, Spec.expectedComps, List.map_cons, List.map_nil, List.foldl_cons, List.foldl_nil, _root_.Spec.ceilDiv]
    norm_num
    omega
  have hv : Frame.vmax ⟨e.getProgressiveScans.isSome, h.toNat, w.toNat, Spec.expectedComps 1 1 .ycbcr⟩ = 1 := rfl
  have hh : Frame.hmax ⟨e.getProgressiveScans.isSome, h.toNat, w.toNat, Spec.expectedComps 1 1 .ycbcr⟩ = 1 := rfl
  have h0 := h0 _ _ (hbh 0) (hbw 0) (y % 8) (x % 8) (by omega) (by omega) _ hY
  have h1 := h1 _ _ (hbh 1) (hbw 1) (y % 8) (x % 8) (by omega) (by omega) _ hCb
  have h2 := h2 _ _ (hbh 2) (hbw 2) (y % 8) (x % 8) (by omega) (by omega) _ hCr
  simp only [hv, hh, Nat.div_self Nat.one_pos, Nat.mul_one, samplesOf_rgb hrgb, show min (8 * (y / 8) + y % 8) (h.toNat - 1) = y by omega,
    show min (8 * (x / 8) + x % 8) (w.toNat - 1) = x by omega] at h0 h1 h2
  intro pixel
  obtain ⟨i0, i1, i2⟩ := ycc_inverse pixel.1 pixel.2.1 pixel.2.2
  have real : ∀ {n : Int} {o : UInt8}, |n - (o.toNat : Int)| ≤ (if simd then 7 else 6) → |(n : ℝ) - o.toNat| ≤ if simd then 7 else 6 := by
    intro n o hno
    cases simd <;> simp only [Bool.false_eq_true, if_true, if_false] at hno ⊢ <;> exact_mod_cast hno
  have h0 := real h0
  have h1 := real h1
  have h2 := real h2
  have b8 : ∀ o : UInt8, o.toNat ≤ 255 := fun o => by have := o.toNat_lt; omega
  have k0 := channel_int (a := 0) (b := 1.402) (k := 1.22) (n := R) (b8 pixel.1) h0 h1 h2 (by rw [jfifRed] at i0; convert i0 using 2; ring) (by rw [jfifRed] at hR; convert hR using 1; ring)
  have k1 := channel_int (a := -0.34414) (b := -0.71414) (k := 1.04) (n := G) (b8 pixel.2.1) h0 h1 h2 (by rw [jfifGreen] at i1; convert i1 using 2; ring) (by rw [jfifGreen] at hG; convert hG using 1; ring)
  have k2 := channel_int (a := 1.772) (b := 0) (k := 1.4) (n := B) (b8 pixel.2.2) h0 h1 h2 (by rw [jfifBlue] at i2; convert i2 using 2; ring) (by rw [jfifBlue] at hB; convert hB using 1; ring)
  rw [abs_zero, abs_of_nonneg (show (0 : ℝ) ≤ 1.402 by norm_num)] at k0
  rw [abs_neg, abs_neg, abs_of_nonneg (show (0 : ℝ) ≤ 0.34414 by norm_num), abs_of_nonneg (show (0 : ℝ) ≤ 0.71414 by norm_num)] at k1
  rw [abs_zero, abs_of_nonneg (show (0 : ℝ) ≤ 1.772 by norm_num)] at k2
  cases simd
  · simp only [Bool.false_eq_true, if_false] at k0 k1 k2 ⊢
    exact ⟨int_close (m := 16) k0 (by norm_num), int_close (m := 13) k1 (by norm_num), int_close (m := 18) k2 (by norm_num)⟩
  · simp only [if_true] at k0 k1 k2 ⊢
    exact ⟨int_close (m := 18) k0 (by norm_num), int_close (m := 15) k1 (by norm_num), int_close (m := 21) k2 (by norm_num)⟩

-- a configuration that satisfies the hypotheses of C98 at quality 100
example : ∃ e p P, Configured ⟨true, 8⟩ 100 [.setSamplingFactor .R_4_4_4] e ∧ Platform.Valid ⟨true, 8⟩ ∧ Spec.EncodeCall ⟨true, 8⟩ true e p .ycbcr 2 1 P ∧
    Spec.Supported ⟨true, 8⟩ true e .ycbcr 2 1 P ∧ Spec.EightBit e.getQuantizationTables ∧ ScansFine true e ∧
    (∀ t, e.getQuantizationTables.1 ≠ .custom t ∧ e.getQuantizationTables.2 ≠ .custom t) ∧ e.getSamplingFactor.factors = (1, 1) := by
  obtain ⟨e, h1, h2⟩ := reachable_exists ⟨true, 8⟩ 100 [.setSamplingFactor .R_4_4_4] (by decide)
  have hq : e.getQuantizationTables = (.default, .default) := by
    rw [h2.quant]; rfl
  refine ⟨e, _, _, h1, by decide, .data [1, 2, 3, 4, 5, 6] 2 1 .rgb (by decide) (by unfold Spec.SliceOk; decide), ⟨by decide, by decide, Or.inl rfl, Or.inl ?_⟩, ?_, ?_, ?_, ?_⟩
  · rw [h2.optimized]; rfl
  · intro t ht; rw [hq] at ht; rcases ht with h | h <;> cases h
  · intro _ n hn
    rw [h2.scans] at hn; cases hn
  · intro t; rw [hq]; exact ⟨fun h => (by cases h), fun h => (by cases h)⟩
  · rw [h2.sampling]; decide

-- some decoder exists: every real number rounds to something
example (r : ℝ) : ∃ n, Spec.RoundsTo r n := ⟨round (max 0 (min 255 r)), by unfold Spec.RoundsTo; rw [abs_sub_comm]; exact abs_sub_round _⟩

-- the bound of C98 is not vacuous: with steps of 1 it is below 7
example {y x : Nat} (hy : y < 8) (hx : x < 8) : Spec.pixelLoss true (List.replicate 64 1) y x < 7 := by
  have h1 : ∀ u ∈ Finset.range 8, ∀ v ∈ Finset.range 8, Spec.basis u v y x * (quantError ((List.replicate 64 1).getD (zigzag.idxOf (8 * u + v)) 0) + (if true then 3.75 else 2.75) / 8) =
      Spec.basis u v y x * 0.96875 := by
    intro u hu v hv
    rw [Finset.mem_range] at hu hv
    rw [List.getD_eq_getElem?_getD, List.getElem?_replicate, if_pos (zigzag_idxOf _ (by omega)).1]
    have : quantError 1 = 1 / 2 := by
      unfold quantError
      rw [if_pos ⟨0, by norm_num⟩]; norm_num
    rw [Option.getD_some, this]
    norm_num
  rw [Spec.pixelLoss, Finset.sum_congr rfl fun u hu => Finset.sum_congr rfl (h1 u hu)]
  simp only [← Finset.sum_mul]
  have := basis_sum hy hx
  linarith

end Jpeg
