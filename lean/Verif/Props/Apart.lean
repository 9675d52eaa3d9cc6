import Verif.Props.Pixel
/-! C97: a file determines its image up to what quantisation loses. -/
namespace Jpeg
open _root_.Spec
open scoped BigOperators

theorem Encodes.both {p p' : Prog (R Unit)} {strict : Bool} {Q Q' : Bytes → Dec → Prop} {C : Bytes → Dec → Prop} (h : Spec.Encodes p strict Q)
    (h' : Spec.Encodes p' strict Q') (hC : ∀ b d, decode strict b = some d → Q b d → Q' b d → C b d) :
    Spec.Encodes p strict fun bytes d => Spec.Encodes p' strict fun bytes' _ => bytes = bytes' → C bytes d := by
  obtain ⟨b, d, h1, h2, h3⟩ := h
  obtain ⟨b', d', h1', h2', h3'⟩ := h'
  refine ⟨b, d, h1, h2, b', d', h1', h2', ?_⟩
  rintro rfl
  rw [h2] at h2'
  cases h2'
  exact hC b d h2 h3 h3'

theorem apart_sum {A B R : ℕ → ℕ → ℝ} {S : ℝ} (hA : ∑ y ∈ Finset.range 8, ∑ x ∈ Finset.range 8, (R y x - A y x) ^ 2 ≤ S)
    (hB : ∑ y ∈ Finset.range 8, ∑ x ∈ Finset.range 8, (R y x - B y x) ^ 2 ≤ S) :
    ∑ y ∈ Finset.range 8, ∑ x ∈ Finset.range 8, (A y x - B y x) ^ 2 ≤ 4 * S := by
  have : ∑ y ∈ Finset.range 8, ∑ x ∈ Finset.range 8, (A y x - B y x) ^ 2 ≤
      ∑ y ∈ Finset.range 8, ∑ x ∈ Finset.range 8, (2 * (R y x - A y x) ^ 2 + 2 * (R y x - B y x) ^ 2) :=
    Finset.sum_le_sum fun y _ => Finset.sum_le_sum fun x _ => by nlinarith [sq_nonneg ((R y x - A y x) + (R y x - B y x))]
  simp only [Finset.sum_add_distrib, ← Finset.mul_sum] at this
  linarith

/-- What quantisation and the transform may change in a block, as a squared distance: at most `quantError step` and 0.47 per coefficient. -/
noncomputable def Spec.blockLoss (table : List Nat) : ℝ := ∑ k ∈ Finset.range 64, (quantError (table.getD k 0) + 3.75 / 8) ^ 2

theorem loss_simd (simd : Bool) (table : List Nat) :
    ∑ k ∈ Finset.range 64, (quantError (table.getD k 0) + (if simd then 3.75 else 2.75) / 8) ^ 2 ≤ Spec.blockLoss table := by
  refine Finset.sum_le_sum fun k _ => ?_
  have h0 : 0 ≤ quantError (table.getD k 0) := by
    unfold quantError
    split <;> positivity
  cases simd
  · simp only [Bool.false_eq_true, if_false]
    nlinarith
  · simp

section
variable {pf pf' : Platform} (hpf : pf.Valid) (hpf' : pf'.Valid) {q q' : UInt8} {calls calls' : List Spec.Call} {e e' : Encoder} (hc : Configured pf q calls e)
  (hc' : Configured pf' q' calls' e') {simd simd' : Bool} {p p' : Prog (R Unit)} {ct ct' : JpegColorType} {w h w' h' : UInt16} {P P' : Nat → Nat → Nat → UInt8}
  (hp : Spec.EncodeCall pf simd e p ct w h P) (hp' : Spec.EncodeCall pf' simd' e' p' ct' w' h' P')
  (hs : Spec.Supported pf simd e ct w h P) (hs' : Spec.Supported pf' simd' e' ct' w' h' P') (h8 : Spec.EightBit e.getQuantizationTables)
  (h8' : Spec.EightBit e'.getQuantizationTables) {strict : Bool} (hst : ScansFine strict e) (hst' : ScansFine strict e')
include hpf hpf' hc hc' hp hp' hs hs' h8 h8' hst hst'

/-- C97: two encodes, of any two images with any two encoders on any two machines, that give the same file are encodes of images of the same size that differ in
every block by a squared distance of at most four times what the tables in the file allow to be lost. -/
theorem C97_files_tell_images_apart : Spec.Encodes p strict fun bytes d => Spec.Encodes p' strict fun bytes' _ => bytes = bytes' →
    w = w' ∧ h = h' ∧ ∃ f, d.frame = some f ∧ f.comps.length = Spec.componentCount ct ∧ f.comps.length = Spec.componentCount ct' ∧
    ∀ c fc, f.comps[c]? = some fc → ∃ table, d.qts fc.tq = some table ∧ ∀ by_ bx, by_ < f.blocksHigh fc → bx < f.blocksWide fc →
      ∑ y ∈ Finset.range 8, ∑ x ∈ Finset.range 8,
        (((P c (min ((8 * by_ + y) * (f.vmax / fc.v)) (h.toNat - 1)) (min ((8 * bx + x) * (f.hmax / fc.h)) (w.toNat - 1))).toNat : ℝ) -
          (P' c (min ((8 * by_ + y) * (f.vmax / fc.v)) (h.toNat - 1)) (min ((8 * bx + x) * (f.hmax / fc.h)) (w.toNat - 1))).toNat) ^ 2 ≤ 4 * Spec.blockLoss table := by
  refine Encodes.both ((C42_reconstruction_error hpf hc hp hs h8 hst).and (C32_frame_header hpf hc hp hs h8 hst))
    ((C42_reconstruction_error hpf' hc' hp' hs' h8' hst').and (C32_frame_header hpf' hc' hp' hs' h8' hst')) ?_
  rintro b d - ⟨⟨f, hf, hall⟩, -, -, -, hfr⟩ ⟨⟨f', hf', hall'⟩, -, -, -, hfr'⟩
  have hcl : ∀ a b ct, (Spec.expectedComps a b ct).length = Spec.componentCount ct := by intro a b ct; cases ct <;> rfl
  unfold Spec.HasFrame at hfr hfr'
  rw [hf] at hf'
  cases hf'
  rw [hf] at hfr hfr'
  have e1 := Option.some.inj hfr
  have e2 := Option.some.inj hfr'
  have hw : w = w' := UInt16.toNat_inj.mp (by have := e1.symm.trans e2; injection this)
  have hh : h = h' := UInt16.toNat_inj.mp (by have := e1.symm.trans e2; injection this)
  subst hw hh
  refine ⟨rfl, rfl, f, hf, by rw [e1]; exact hcl _ _ _, by rw [e2]; exact hcl _ _ _, fun c fc hfc => ?_⟩
  obtain ⟨table, ht, -, herr⟩ := hall c fc hfc
  obtain ⟨table', ht', -, herr'⟩ := hall' c fc hfc
  rw [ht] at ht'
  cases ht'
  exact ⟨table, ht, fun by_ bx hby hbx => apart_sum ((herr by_ bx hby hbx).trans (loss_simd _ _)) ((herr' by_ bx hby hbx).trans (loss_simd _ _))⟩

/-- C97, sample by sample: no sample of the one image is further from that of the other than what the two encoders may lose in it (C98). -/
theorem C97_samples : Spec.Encodes p strict fun bytes d => Spec.Encodes p' strict fun bytes' _ => bytes = bytes' →
    w = w' ∧ h = h' ∧ ∃ f, d.frame = some f ∧ ∀ c fc, f.comps[c]? = some fc → ∃ table, d.qts fc.tq = some table ∧
      ∀ by_ bx, by_ < f.blocksHigh fc → bx < f.blocksWide fc → ∀ y x, y < 8 → x < 8 →
        |((P c (min ((8 * by_ + y) * (f.vmax / fc.v)) (h.toNat - 1)) (min ((8 * bx + x) * (f.hmax / fc.h)) (w.toNat - 1))).toNat : ℝ) -
          (P' c (min ((8 * by_ + y) * (f.vmax / fc.v)) (h.toNat - 1)) (min ((8 * bx + x) * (f.hmax / fc.h)) (w.toNat - 1))).toNat| ≤
        Spec.pixelLoss simd table y x + Spec.pixelLoss simd' table y x := by
  refine Encodes.both ((C98_pixel_error hpf hc hp hs h8 hst).and (C32_frame_header hpf hc hp hs h8 hst))
    ((C98_pixel_error hpf' hc' hp' hs' h8' hst').and (C32_frame_header hpf' hc' hp' hs' h8' hst')) ?_
  rintro b d - ⟨⟨f, hf, hall⟩, -, -, -, hfr⟩ ⟨⟨f', hf', hall'⟩, -, -, -, hfr'⟩
  unfold Spec.HasFrame at hfr hfr'
  rw [hf] at hf'
  cases hf'
  rw [hf] at hfr hfr'
  have e1 := Option.some.inj hfr
  have e2 := Option.some.inj hfr'
  have hw : w = w' := UInt16.toNat_inj.mp (by have := e1.symm.trans e2; injection this)
  have hh : h = h' := UInt16.toNat_inj.mp (by have := e1.symm.trans e2; injection this)
  subst hw hh
  refine ⟨rfl, rfl, f, hf, fun c fc hfc => ?_⟩
  obtain ⟨table, ht, -, herr⟩ := hall c fc hfc
  obtain ⟨table', ht', -, herr'⟩ := hall' c fc hfc
  rw [ht] at ht'
  cases ht'
  refine ⟨table, ht, fun by_ bx hby hbx y x hy hx => ?_⟩
  have h1 := (herr by_ bx hby hbx y x hy hx).1
  have h2 := (herr' by_ bx hby hbx y x hy hx).1
  rw [abs_sub_comm] at h1
  exact (abs_sub_le _ _ _).trans (add_le_add h1 h2)

omit hpf hpf' hc hc' hp hp' hs hs' h8 h8' hst hst' in
theorem full_component (prog : Bool) (s : SamplingFactor) (ct : JpegColorType) (w h : UInt16) :
    let f : Frame := ⟨prog, h.toNat, w.toNat, Spec.expectedComps s.factors.1 s.factors.2 ct⟩
    ∃ fc, f.comps[if ct = .cmyk then 3 else 0]? = some fc ∧ fc.h = f.hmax ∧ fc.v = f.vmax ∧ 0 < f.hmax ∧ 0 < f.vmax := by
  have h1 : ∀ l : List FrameComp, (⟨prog, h.toNat, w.toNat, l⟩ : Frame).hmax = (l.map (·.h)).foldl max 0 := fun _ => rfl
  have h2 : ∀ l : List FrameComp, (⟨prog, h.toNat, w.toNat, l⟩ : Frame).vmax = (l.map (·.v)).foldl max 0 := fun _ => rfl
  intro f
  simp only [f, h1, h2]
  cases ct <;> refine ⟨_, rfl, ?_⟩ <;> clear f h1 h2 <;> cases s <;> decide

omit hpf hpf' hc hc' hp hp' hs hs' h8 h8' hst hst' in
theorem covered {n m y : Nat} (hm : 0 < m) (hy : y < n) : y / 8 < _root_.Spec.ceilDiv (_root_.Spec.ceilDiv (n * m) m) 8 := by
  have : _root_.Spec.ceilDiv (n * m) m = n := by
    unfold _root_.Spec.ceilDiv
    rw [Nat.add_sub_assoc (by omega), Nat.add_comm, Nat.add_mul_div_right _ _ hm, Nat.div_eq_of_lt (by omega), Nat.zero_add]
  rw [this]
  unfold _root_.Spec.ceilDiv
  omega

/-- C97 at quality 100 with built-in tables: the files differ as soon as a sample of the component that is never subsampled (gray value, luma, or the black of CMYK)
differs by 14 or more. -/
theorem C97_quality_100 (hq : 100 ≤ q) (hb : ∀ t, e.getQuantizationTables.1 ≠ .custom t ∧ e.getQuantizationTables.2 ≠ .custom t) {c : Nat}
    (hfull : c = if ct = .cmyk then 3 else 0) (y x : Nat) (hy : y < h.toNat) (hx : x < w.toNat) (hdiff : 14 ≤ |((P c y x).toNat : Int) - (P' c y x).toNat|) :
    Spec.Encodes p strict fun bytes _ => Spec.Encodes p' strict fun bytes' _ => bytes ≠ bytes' := by
  refine Spec.Encodes.mono ((C97_samples hpf hpf' hc hc' hp hp' hs hs' h8 h8' hst hst').and
    ((C32_frame_header hpf hc hp hs h8 hst).and (C21_tables_in_file hpf hc hp hs h8 hst))) ?_
  rintro b d ⟨h1, ⟨-, -, -, hfr⟩, f, q0, q1, hf, hqt, htab⟩
  refine h1.mono fun b' _ h2 heq => ?_
  obtain ⟨-, -, f', hf', hall⟩ := h2 heq
  rw [hf] at hf'
  cases hf'
  unfold Spec.HasFrame at hfr
  rw [hf] at hfr
  obtain rfl := Option.some.inj hfr
  obtain ⟨fc, hfc, fh, fv, hp1, hp2⟩ := full_component e.getProgressiveScans.isSome e.getSamplingFactor ct w h
  rw [← hfull] at hfc
  obtain ⟨table, ht, herr⟩ := hall c fc hfc
  obtain ⟨ht01, l, hl, -, hent⟩ := htab fc (List.mem_of_getElem? hfc)
  rw [ht] at hl
  cases hl
  have hone := ones_of_100 hq hb hqt hent
  have := herr (y / 8) (x / 8)
    (by unfold Frame.blocksHigh; rw [fv]; exact covered hp2 hy) (by unfold Frame.blocksWide; rw [fh]; exact covered hp1 hx) (y % 8) (x % 8) (by omega) (by omega)
  rw [fv, fh, Nat.div_self hp1, Nat.div_self hp2, Nat.mul_one, Nat.mul_one, Nat.div_add_mod, Nat.div_add_mod, min_eq_left (by omega), min_eq_left (by omega)] at this
  have l1 := loss_one simd hone (y := y % 8) (x := x % 8) (by omega) (by omega)
  have l2 := loss_one simd' hone (y := y % 8) (x := x % 8) (by omega) (by omega)
  have h14 : (14 : ℝ) ≤ |((P c y x).toNat : ℝ) - (P' c y x).toNat| := by exact_mod_cast hdiff
  have e1 : ∀ s : Bool, 6.981 * (1 / 2 + (if s then 3.75 else 2.75) / 8) < (7 : ℝ) := by intro s; cases s <;> norm_num
  linarith [e1 simd, e1 simd']

end

-- the hypotheses are met: a black and a white image at quality 100
example : ∃ e p p' P P', Configured ⟨true, 8⟩ 100 [] e ∧ Spec.EncodeCall ⟨true, 8⟩ true e p .luma 2 1 P ∧ Spec.EncodeCall ⟨true, 8⟩ true e p' .luma 2 1 P' ∧
    Spec.Supported ⟨true, 8⟩ true e .luma 2 1 P ∧ Spec.Supported ⟨true, 8⟩ true e .luma 2 1 P' ∧ Spec.EightBit e.getQuantizationTables ∧ ScansFine true e ∧
    (∀ t, e.getQuantizationTables.1 ≠ .custom t ∧ e.getQuantizationTables.2 ≠ .custom t) ∧ 14 ≤ |((P 0 0 1).toNat : Int) - (P' 0 0 1).toNat| := by
  obtain ⟨e, h1, h2⟩ := reachable_exists ⟨true, 8⟩ 100 [] (by decide)
  have hq : e.getQuantizationTables = (.default, .default) := by
    rw [h2.quant]; rfl
  have ho : ∀ P, Spec.Supported ⟨true, 8⟩ true e .luma 2 1 P := fun P => ⟨by decide, by decide, Or.inl rfl, Or.inl (by rw [h2.optimized]; rfl)⟩
  refine ⟨e, _, _, _, _, h1, .data [7, 0] 2 1 .luma (by decide) (by unfold Spec.SliceOk; decide), .data [7, 255] 2 1 .luma (by decide) (by unfold Spec.SliceOk; decide), ho _, ho _, ?_, ?_, ?_, by decide⟩
  · intro t ht; rw [hq] at ht; rcases ht with h | h <;> cases h
  · intro _ n hn
    rw [h2.scans] at hn; cases hn
  · intro t; rw [hq]; exact ⟨fun h => (by cases h), fun h => (by cases h)⟩

end Jpeg
