import Verif.Proofs.Parseval
import Verif.Props.Bits
import Verif.Props.File
import Verif.Props.Quant
import Verif.Props.Independence
/-! C25, C41-C43: accuracy of the forward DCT and of the whole file. -/
namespace Jpeg
open _root_.Spec

theorem buildDct_run (simd : Bool) (block : List Int) (hl : block.length = 64) (hb : Shifted block) :
    ∀ pf, Spec.buildDct simd pf block = .ok (if simd then Avx2.fdctA block else fdctP block) := by
  intro pf
  cases simd
  · exact opOk_default.run pf block hl hb
  · exact opOk_avx2.run pf block hl hb

/-- C25: on every block of level shifted samples, every output of the forward DCT (entry `8 * u + v`, scaled by 8) is close to the exact
DCT of T.81 A.3.3: within 2.75/8 for the scalar version, within 3.75/8 for the AVX2 one. -/
theorem C25_dct_accuracy (simd : Bool) (block : List Int) (hl : block.length = 64) (hb : ∀ v ∈ block, -128 ≤ v ∧ v ≤ 127) :
    ∃ out : List Int, (∀ pf, Spec.buildDct simd pf block = .ok out) ∧ out.length = 64 ∧
      ∀ u v, u < 8 → v < 8 → |(out.getD (8 * u + v) 0 : ℝ) / 8 - realDct (fun y x => (block.getD (8 * y + x) 0 : ℝ)) u v| ≤
        (if simd then 3.75 else 2.75) / 8 := by
  refine ⟨_, buildDct_run simd block hl hb, ?_, fun u v hu hv => ?_⟩
  · cases simd
    · exact fdctP_length block
    · exact Avx2.fdctA_length block
  · have h := fdctP_accuracy hb hu hv
    generalize realDct (fun y x => (block.getD (8 * y + x) 0 : ℝ)) u v = r at *
    cases simd
    · simp only [Bool.false_eq_true, if_false]
      rw [abs_le] at h ⊢
      constructor <;> linarith [h.1, h.2]
    · simp only [if_true]
      obtain ⟨h1, h2, -⟩ := Avx2.fdctA_spec block (show 8 * u + v < 64 by omega)
      have h1' : ((Avx2.fdctA block).getD (8 * u + v) 0 : ℝ) ≤ ((fdctP block).getD (8 * u + v) 0 : ℝ) := by exact_mod_cast h1
      have h2' : ((fdctP block).getD (8 * u + v) 0 : ℝ) - 1 ≤ ((Avx2.fdctA block).getD (8 * u + v) 0 : ℝ) := by exact_mod_cast h2
      rw [abs_le] at h ⊢
      constructor <;> linarith [h.1, h.2]

/-- Two statements about the same file. -/
theorem Spec.Encodes.and {p : Prog (R Unit)} {strict : Bool} {Q Q' : Bytes → Dec → Prop} (h : Spec.Encodes p strict Q)
    (h' : Spec.Encodes p strict Q') : Spec.Encodes p strict fun b d => Q b d ∧ Q' b d := by
  obtain ⟨b, d, h1, h2, h3⟩ := h
  obtain ⟨b', d', h1', h2', h3'⟩ := h'
  have e := (h1 []).symm.trans (h1' [])
  simp only [List.nil_append, Prod.mk.injEq, and_true] at e
  subst e
  rw [h2] at h2'
  cases h2'
  exact ⟨b, d, h1, h2, h3, h3'⟩

theorem Spec.Encodes.mono {p : Prog (R Unit)} {strict : Bool} {Q Q' : Bytes → Dec → Prop} (h : Spec.Encodes p strict Q)
    (hq : ∀ b d, Q b d → Q' b d) : Spec.Encodes p strict Q' := by
  obtain ⟨b, d, h1, h2, h3⟩ := h
  exact ⟨b, d, h1, h2, hq b d h3⟩

theorem buildDct_range (simd : Bool) {block : List Int} (hl : block.length = 64) (hb : Shifted block) {i : Nat} (hi : i < 64) :
    |(if simd then Avx2.fdctA block else fdctP block).getD i 0| ≤ 8192 := by
  have h := opOk_for simd
  have e : (if simd then Avx2.fdctA block else fdctP block) = dctFn simd block := by cases simd <;> rfl
  rw [e, abs_le]
  rcases Nat.eq_zero_or_pos i with rfl | h0
  · have := h.dc block hl hb
    omega
  · have := h.ac block i hl hb h0 hi
    omega

/-- Error of quantising one coefficient. -/
theorem quant_error {type : QuantizationTableType} {quality : Nat} {luma : Bool} {pf : Platform} (h8 : ∀ v ∈ steps type quality luma, v ≤ 255)
    {z : Nat} (hz : z < 64) {x c : Int} (hrange : |x| ≤ 8192) (hcq : (mkQ (steps type quality luma)).quantize pf x z = .ok c) {step : Nat}
    (hstep : (mkQ (steps type quality luma)).get z = .ok step) : |(step : ℝ) * c - x / 8| ≤ quantError step := by
  have hzl : z < (steps type quality luma).length := by rw [steps_length]; exact hz
  have hr := steps_range type quality luma _ (getD_mem hzl)
  have h255 := h8 _ (getD_mem hzl)
  rw [mkQ_get _ hzl, Nat.mod_eq_of_lt (by omega)] at hstep
  simp only [Except.ok.injEq] at hstep
  have hx' := abs_le.mp hrange
  rw [quantize_eq pf _ (steps_range type quality luma) z hzl x (by omega), hstep] at hcq
  simp only [Except.ok.injEq] at hcq
  subst hcq
  rw [hstep] at hr h255
  unfold quantError
  by_cases hp : ∃ j, step = 2 ^ j
  · rw [if_pos hp]
    obtain ⟨j, rfl⟩ := hp
    have hj : j ≤ 7 := by
      by_contra hj
      have : 2 ^ 8 ≤ 2 ^ j := Nat.pow_le_pow_right (by omega) (by omega)
      omega
    have key := quantOf_pow2 (show j ≤ 11 by omega) x
    have key' : |8 * (2 ^ j : ℝ) * quantOf (2 ^ j) x - x| ≤ 4 * 2 ^ j := by exact_mod_cast key
    push_cast
    rw [abs_le] at key' ⊢
    constructor <;> linarith [key'.1, key'.2]
  · rw [if_neg hp]
    have key := quantOf_error hr.1 hr.2 hrange
    have key' : |3 * (8 * (step : ℝ) * quantOf step x) - 3 * x| ≤ 16 * step := by exact_mod_cast key
    rw [abs_le] at key' ⊢
    constructor <;> linarith [key'.1, key'.2]

theorem steps_le255 {ty : QuantizationTableType} {q : Nat} {b : Bool} (ht : ∀ t, ty = .custom t → ∀ v ∈ t.toList, v.toNat ≤ 255) :
    ∀ v ∈ steps ty q b, v ≤ 255 := by
  intro v hv
  by_cases hcu : isCustom ty = false
  · exact (steps_range255 ty _ b hcu v hv).2
  · cases ty with
    | custom t =>
      simp only [steps, List.mem_map] at hv
      obtain ⟨x, hx, rfl⟩ := hv
      have := ht t rfl x hx
      simp only [Spec.clamp]
      omega
    | _ => exact absurd rfl hcu

/-- Error of one coefficient. -/
theorem coef_error {type : QuantizationTableType} {quality : Nat} {luma : Bool} {pf : Platform} {simd : Bool}
    (h8 : ∀ v ∈ steps type quality luma, v ≤ 255)
    {block : List Int} (hl : block.length = 64) (hb : ∀ v ∈ block, -128 ≤ v ∧ v ≤ 127) {k : Nat} (hk : k < 64) {c : Int}
    (hc : Spec.IsCoef pf simd (mkQ (steps type quality luma)) block k c) {step : Nat}
    (hstep : (mkQ (steps type quality luma)).get (zigzag.getD k 0) = .ok step) :
    |(step : ℝ) * c - realDct (fun y x => (block.getD (8 * y + x) 0 : ℝ)) (zigzag.getD k 0 / 8) (zigzag.getD k 0 % 8)| ≤
      quantError step + (if simd then 3.75 else 2.75) / 8 := by
  have hz : zigzag.getD k 0 < 64 := by rw [zigzag_eq]; exact ZIGZAG_getD_lt hk
  unfold Spec.IsCoef at hc
  generalize zigzag.getD k 0 = z at *
  obtain ⟨freq, hf, hcq⟩ := hc
  obtain ⟨out, ho, -, hacc⟩ := C25_dct_accuracy simd block hl hb
  have e := (buildDct_run simd block hl hb pf).symm.trans (ho pf)
  rw [ho] at hf
  cases hf
  simp only [Except.ok.injEq] at e
  have hacc := hacc (z / 8) (z % 8) (by omega) (by omega)
  rw [show 8 * (z / 8) + z % 8 = z by omega] at hacc
  have hrange : |freq.getD z 0| ≤ 8192 := by
    rw [← e]; exact buildDct_range simd hl hb hz
  have hq := quant_error h8 hz hrange hcq hstep
  generalize freq.getD z 0 = x at *
  generalize realDct _ _ _ = r at *
  rw [abs_le] at hq hacc ⊢
  constructor <;> linarith [hq.1, hq.2, hacc.1, hacc.2]

theorem zigzag_idxOf : ∀ i, i < 64 → zigzag.idxOf i < 64 ∧ zigzag.getD (zigzag.idxOf i) 0 = i := by decide +kernel
theorem idxOf_zigzag : ∀ k, k < 64 → zigzag.idxOf (zigzag.getD k 0) = k := by decide +kernel

theorem sum_zigzag (f : Nat → ℝ) : ∑ u ∈ Finset.range 8, ∑ v ∈ Finset.range 8, f (zigzag.idxOf (8 * u + v)) = ∑ k ∈ Finset.range 64, f k := by
  rw [← Finset.sum_product']
  refine Finset.sum_nbij' (fun a => zigzag.idxOf (8 * a.1 + a.2)) (fun k => (zigzag.getD k 0 / 8, zigzag.getD k 0 % 8)) ?_ ?_ ?_ ?_ ?_
  · intro a ha
    simp only [Finset.mem_product, Finset.mem_range] at ha ⊢
    exact (zigzag_idxOf _ (by omega)).1
  · intro k hk
    simp only [Finset.mem_product, Finset.mem_range] at hk ⊢
    have : zigzag.getD k 0 < 64 := by rw [zigzag_eq]; exact ZIGZAG_getD_lt hk
    omega
  · rintro ⟨u, v⟩ ha
    simp only [Finset.mem_product, Finset.mem_range] at ha
    dsimp only
    rw [(zigzag_idxOf _ (by omega)).2]
    ext <;> dsimp only <;> omega
  · intro k hk
    simp only [Finset.mem_range] at hk
    dsimp only
    rw [show 8 * (zigzag.getD k 0 / 8) + zigzag.getD k 0 % 8 = zigzag.getD k 0 by omega]
    exact idxOf_zigzag k hk
  · intro a _; rfl

section
variable {pf : Platform} (hpf : pf.Valid) {q : UInt8} {calls : List Spec.Call} {e : Encoder} (hc : Configured pf q calls e)
  {simd : Bool} {p : Prog (R Unit)} {ct : JpegColorType} {w h : UInt16} {P : Nat → Nat → Nat → UInt8} (hp : Spec.EncodeCall pf simd e p ct w h P)
  (hs : Spec.Supported pf simd e ct w h P) (h8 : Spec.EightBit e.getQuantizationTables) {strict : Bool} (hst : ScansFine strict e)
include hpf hc hp hs h8 hst

/-- C41: every dequantised coefficient of the file is close to the exact DCT coefficient of the samples it stands for: the difference is at
most what quantisation by the step in the file may change, plus 0.47. -/
theorem C41_coefficient_error : Spec.Encodes p strict fun _ d => ∃ f, d.frame = some f ∧
    ∀ c fc, f.comps[c]? = some fc → ∃ table, d.qts fc.tq = some table ∧ table.length = 64 ∧
      ∀ by_ bx, by_ < f.blocksHigh fc → bx < f.blocksWide fc → ∀ k, k < 64 →
        |(table.getD k 0 : ℝ) * d.coefs c by_ bx k -
          realDct (fun y x => ((P c (min ((8 * by_ + y) * (f.vmax / fc.v)) (h.toNat - 1)) (min ((8 * bx + x) * (f.hmax / fc.h)) (w.toNat - 1))).toNat : ℝ) - 128)
            (zigzag.getD k 0 / 8) (zigzag.getD k 0 % 8)| ≤ quantError (table.getD k 0) + (if simd then 3.75 else 2.75) / 8 := by
  refine ((C29_sampling_positions hpf hc hp hs h8 hst).and (C21_tables_in_file hpf hc hp hs h8 hst)).mono ?_
  rintro _ d ⟨⟨f, q0, q1, hf, hq, hall⟩, f', q0', q1', hf', hq', htab⟩
  rw [hf] at hf'
  cases hf'
  obtain rfl : q0 = q0' := by have := hq.1.symm.trans hq'.1; cases this; rfl
  obtain rfl : q1 = q1' := by have := hq.2.symm.trans hq'.2; cases this; rfl
  refine ⟨f, hf, fun c fc hfc => ?_⟩
  obtain ⟨ht01, l, hl, hlen, hent⟩ := htab fc (List.mem_of_getElem? hfc)
  refine ⟨l, hl, hlen, fun by_ bx hby hbx k hk => ?_⟩
  obtain ⟨samples, hsl, hsv, hco⟩ := hall c fc hfc by_ bx hby hbx
  have hb : ∀ v ∈ samples, -128 ≤ v ∧ v ≤ 127 := by
    intro v hv
    obtain ⟨i, hi, rfl⟩ := List.mem_iff_getElem.mp hv
    have := hsv (i / 8) (i % 8) (by omega) (by omega)
    rw [show 8 * (i / 8) + i % 8 = i by omega, List.getElem?_eq_getElem hi] at this
    simp only [Option.some.injEq] at this
    rw [this]
    have := UInt8.toNat_lt (P c (min ((8 * by_ + i / 8) * (f.vmax / fc.v)) (h.toNat - 1)) (min ((8 * bx + i % 8) * (f.hmax / fc.h)) (w.toNat - 1)))
    omega
  have hq0 : q0 = mkQ (steps e.getQuantizationTables.1 q.toNat true) := by
    have := hq.1.symm.trans (newWithQuality_eq _ _ _); cases this; rfl
  have hq1 : q1 = mkQ (steps e.getQuantizationTables.2 q.toNat false) := by
    have := hq.2.symm.trans (newWithQuality_eq _ _ _); cases this; rfl
  have key : |(l.getD k 0 : ℝ) * d.coefs c by_ bx k - realDct (fun y x => (samples.getD (8 * y + x) 0 : ℝ)) (zigzag.getD k 0 / 8) (zigzag.getD k 0 % 8)| ≤
      quantError (l.getD k 0) + (if simd then 3.75 else 2.75) / 8 := by
    by_cases h0 : fc.tq = 0
    · simp only [if_pos h0, hq0] at hent hco
      exact coef_error (steps_le255 fun t ht => h8 t (Or.inl ht)) hsl hb hk (hco k hk) (hent k hk)
    · simp only [if_neg h0, hq1] at hent hco
      exact coef_error (steps_le255 fun t ht => h8 t (Or.inr ht)) hsl hb hk (hco k hk) (hent k hk)
  have hd : realDct (fun y x => (samples.getD (8 * y + x) 0 : ℝ)) (zigzag.getD k 0 / 8) (zigzag.getD k 0 % 8) =
      realDct (fun y x => ((P c (min ((8 * by_ + y) * (f.vmax / fc.v)) (h.toNat - 1)) (min ((8 * bx + x) * (f.hmax / fc.h)) (w.toNat - 1))).toNat : ℝ) - 128)
        (zigzag.getD k 0 / 8) (zigzag.getD k 0 % 8) := by
    unfold realDct
    congr 1
    refine Finset.sum_congr rfl fun y hy => Finset.sum_congr rfl fun x hx => ?_
    have := hsv y x (Finset.mem_range.mp hy) (Finset.mem_range.mp hx)
    simp only [List.getD, this, Option.getD_some]
    push_cast
    rfl
  rw [← hd]
  exact key

/-- C42: the samples a decoder reconstructs from the file (exact inverse DCT, before rounding and clamping) have, in every block, a squared
distance of at most `Σ (quantError step + 0.47)²` from the samples of the image the block stands for. -/
theorem C42_reconstruction_error : Spec.Encodes p strict fun _ d => ∃ f, d.frame = some f ∧
    ∀ c fc, f.comps[c]? = some fc → ∃ table, d.qts fc.tq = some table ∧ table.length = 64 ∧
      ∀ by_ bx, by_ < f.blocksHigh fc → bx < f.blocksWide fc →
        ∑ y ∈ Finset.range 8, ∑ x ∈ Finset.range 8, (reconstructed table (d.coefs c by_ bx) y x -
          (P c (min ((8 * by_ + y) * (f.vmax / fc.v)) (h.toNat - 1)) (min ((8 * bx + x) * (f.hmax / fc.h)) (w.toNat - 1))).toNat) ^ 2 ≤
        ∑ k ∈ Finset.range 64, (quantError (table.getD k 0) + (if simd then 3.75 else 2.75) / 8) ^ 2 := by
  refine (C41_coefficient_error hpf hc hp hs h8 hst).mono ?_
  rintro _ d ⟨f, hf, hall⟩
  refine ⟨f, hf, fun c fc hfc => ?_⟩
  obtain ⟨table, ht, hlen, herr⟩ := hall c fc hfc
  refine ⟨table, ht, hlen, fun by_ bx hby hbx => ?_⟩
  have herr := herr by_ bx hby hbx
  have e : ∀ y x, reconstructed table (d.coefs c by_ bx) y x -
      (P c (min ((8 * by_ + y) * (f.vmax / fc.v)) (h.toNat - 1)) (min ((8 * bx + x) * (f.hmax / fc.h)) (w.toNat - 1))).toNat =
      realIdct (dequantized table (d.coefs c by_ bx)) y x -
        (((P c (min ((8 * by_ + y) * (f.vmax / fc.v)) (h.toNat - 1)) (min ((8 * bx + x) * (f.hmax / fc.h)) (w.toNat - 1))).toNat : ℝ) - 128) := by
    intro y x
    rw [reconstructed]
    ring
  simp only [e]
  rw [parseval fun y x => ((P c (min ((8 * by_ + y) * (f.vmax / fc.v)) (h.toNat - 1)) (min ((8 * bx + x) * (f.hmax / fc.h)) (w.toNat - 1))).toNat : ℝ) - 128]
  rw [← sum_zigzag fun k => (quantError (table.getD k 0) + (if simd then 3.75 else 2.75) / 8) ^ 2]
  refine Finset.sum_le_sum fun u hu => Finset.sum_le_sum fun v hv => ?_
  rw [Finset.mem_range] at hu hv
  obtain ⟨h1, h2⟩ := zigzag_idxOf (8 * u + v) (by omega)
  have := herr _ h1
  rw [h2, show (8 * u + v) / 8 = u by omega, show (8 * u + v) % 8 = v by omega] at this
  rw [dequantized]
  exact sq_le_sq' (by linarith [(abs_le.mp this).1]) (abs_le.mp this).2

/-- C43: quality 100 with built-in tables is nearly lossless: the mean squared error of the samples reconstructed from any block is
below 0.94. -/
theorem C43_quality_100 (hq : 100 ≤ q) (hb : ∀ t, e.getQuantizationTables.1 ≠ .custom t ∧ e.getQuantizationTables.2 ≠ .custom t) :
    Spec.Encodes p strict fun _ d => ∃ f, d.frame = some f ∧
    ∀ c fc, f.comps[c]? = some fc → ∃ table, d.qts fc.tq = some table ∧
      ∀ by_ bx, by_ < f.blocksHigh fc → bx < f.blocksWide fc →
        (∑ y ∈ Finset.range 8, ∑ x ∈ Finset.range 8, (reconstructed table (d.coefs c by_ bx) y x -
          (P c (min ((8 * by_ + y) * (f.vmax / fc.v)) (h.toNat - 1)) (min ((8 * bx + x) * (f.hmax / fc.h)) (w.toNat - 1))).toNat) ^ 2) / 64 < 0.94 := by
  refine ((C42_reconstruction_error hpf hc hp hs h8 hst).and (C21_tables_in_file hpf hc hp hs h8 hst)).mono ?_
  rintro _ d ⟨⟨f, hf, hall⟩, f', q0, q1, hf', hqt, htab⟩
  rw [hf] at hf'
  cases hf'
  refine ⟨f, hf, fun c fc hfc => ?_⟩
  obtain ⟨table, ht, hlen, herr⟩ := hall c fc hfc
  refine ⟨table, ht, fun by_ bx hby hbx => ?_⟩
  have herr := herr by_ bx hby hbx
  obtain ⟨ht01, l, hl, -, hent⟩ := htab fc (List.mem_of_getElem? hfc)
  rw [ht] at hl
  cases hl
  have hone : ∀ k, k < 64 → table.getD k 0 = 1 := by
    intro k hk
    have hz : zigzag.getD k 0 < 64 := by rw [zigzag_eq]; exact ZIGZAG_getD_lt hk
    have h0 : ∀ z, z < 64 → q0.get z = .ok 1 := by
      obtain ⟨t, h1, h2⟩ := C20_quality_100 _ (fun t => (hb t).1) q hq true
      have := hqt.1.symm.trans h1
      cases this
      exact h2
    have h1 : ∀ z, z < 64 → q1.get z = .ok 1 := by
      obtain ⟨t, h1, h2⟩ := C20_quality_100 _ (fun t => (hb t).2) q hq false
      have := hqt.2.symm.trans h1
      cases this
      exact h2
    have := hent k hk
    split at this
    · rw [h0 _ hz] at this; simp only [Except.ok.injEq] at this; exact this.symm
    · rw [h1 _ hz] at this; simp only [Except.ok.injEq] at this; exact this.symm
  have hsum : ∑ k ∈ Finset.range 64, (quantError (table.getD k 0) + (if simd then 3.75 else 2.75) / 8) ^ 2 ≤ ∑ k ∈ Finset.range 64, (31 / 32 : ℝ) ^ 2 := by
    refine Finset.sum_le_sum fun k hk => ?_
    rw [hone k (Finset.mem_range.mp hk)]
    have : quantError 1 = 1 / 2 := by
      unfold quantError
      rw [if_pos ⟨0, by norm_num⟩]; norm_num
    rw [this]
    cases simd <;> norm_num
  rw [Finset.sum_const, Finset.card_range] at hsum
  rw [div_lt_iff₀ (by norm_num)]
  refine lt_of_le_of_lt (herr.trans hsum) ?_
  norm_num
end

/-! ### Concrete cases -/

-- hypotheses of C25 hold for a block that is not constant
example : let b := (List.range 64).map fun i => ((i * 37 % 256 : Nat) : Int) - 128
    b.length = 64 ∧ (∀ v ∈ b, -128 ≤ v ∧ v ≤ 127) ∧ ¬ ∃ c, b = List.replicate 64 c := by
  refine ⟨by decide, by decide, ?_⟩
  rintro ⟨c, h⟩
  have h0 := congrArg (·[0]?) h
  have h1 := congrArg (·[1]?) h
  simp [List.getElem?_replicate] at h0 h1
  omega

-- a configuration that satisfies the hypotheses of C41 - C43
example : ∃ e p P, Configured ⟨true, 8⟩ 100 [.setSamplingFactor .R_4_2_0] e ∧ Platform.Valid ⟨true, 8⟩ ∧ Spec.EncodeCall ⟨true, 8⟩ true e p .ycbcr 2 1 P ∧
    Spec.Supported ⟨true, 8⟩ true e .ycbcr 2 1 P ∧ Spec.EightBit e.getQuantizationTables ∧ ScansFine true e ∧
    (∀ t, e.getQuantizationTables.1 ≠ .custom t ∧ e.getQuantizationTables.2 ≠ .custom t) := by
  obtain ⟨e, h1, h2⟩ := reachable_exists ⟨true, 8⟩ 100 [.setSamplingFactor .R_4_2_0] (by decide)
  have hq : e.getQuantizationTables = (.default, .default) := by
    rw [h2.quant]; rfl
  refine ⟨e, _, _, h1, by decide, .data [1, 2, 3, 4, 5, 6] 2 1 .rgb (by decide) (by unfold Spec.SliceOk; decide), ⟨by decide, by decide, Or.inl rfl, Or.inl ?_⟩, ?_, ?_, ?_⟩
  · rw [h2.optimized]; rfl
  · intro t ht; rw [hq] at ht; rcases ht with h | h <;> cases h
  · intro _ n hn
    rw [h2.scans] at hn; cases hn
  · intro t; rw [hq]; exact ⟨fun h => (by cases h), fun h => (by cases h)⟩

end Jpeg
