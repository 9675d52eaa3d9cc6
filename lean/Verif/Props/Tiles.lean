import Verif.Props.Local
/-! C72: blocks do not depend on where they are: tiles. -/
namespace Jpeg
open _root_.Spec

/-- The part of `P` (an image with `h` lines, or `w` columns) that starts at `start` and has `len` lines ends at a multiple of `unit` or at the edge. -/
def Spec.TileRange (total start len unit : Nat) : Prop := start + len ≤ total ∧ 0 < len ∧ (unit ∣ len ∨ start + len = total)

theorem tile_index {s v m total len r by_ : Nat} (hs : 0 < s) (hr : r < 8) (hv : 0 < v)
    (ht : Spec.TileRange total (8 * (v * s) * m) len (8 * (v * s)))
    (hb : by_ < _root_.Spec.ceilDiv (_root_.Spec.ceilDiv (len * v) (v * s)) 8) :
    by_ + v * m < _root_.Spec.ceilDiv (_root_.Spec.ceilDiv (total * v) (v * s)) 8 ∧
    min ((8 * (by_ + v * m) + r) * s) (total - 1) = 8 * (v * s) * m + min ((8 * by_ + r) * s) (len - 1) ∧
    min ((8 * by_ + r) * s) (len - 1) < len := by
  obtain ⟨h1, h0, h2⟩ := ht
  have e : (8 * (by_ + v * m) + r) * s = 8 * (v * s) * m + (8 * by_ + r) * s := by ring
  rw [e]
  have hb8 : 8 * by_ < _root_.Spec.ceilDiv (len * v) (v * s) := by
    unfold _root_.Spec.ceilDiv at hb ⊢; omega
  have hvs : 0 < v * s := Nat.mul_pos hv hs
  have hb2 : 8 * by_ * (v * s) < len * v := by
    unfold _root_.Spec.ceilDiv at hb8
    have := (Nat.le_div_iff_mul_le hvs).mp (Nat.succ_le_of_lt hb8)
    rw [Nat.succ_mul] at this
    omega
  have hb3 : 8 * by_ * s < len := by
    rw [show 8 * by_ * (v * s) = (8 * by_ * s) * v by ring] at hb2
    exact Nat.lt_of_mul_lt_mul_right hb2
  refine ⟨?_, ?_, by omega⟩
  · have : 8 * (by_ + v * m) * s < total := by
      have : 8 * (by_ + v * m) * s = 8 * (v * s) * m + 8 * by_ * s := by ring
      omega
    have h3 : 8 * (by_ + v * m) * (v * s) < total * v := by
      rw [show 8 * (by_ + v * m) * (v * s) = (8 * (by_ + v * m) * s) * v by ring]
      exact Nat.mul_lt_mul_of_pos_right this hv
    have h4 : 8 * (by_ + v * m) < _root_.Spec.ceilDiv (total * v) (v * s) := by
      unfold _root_.Spec.ceilDiv
      refine Nat.lt_of_succ_le ((Nat.le_div_iff_mul_le hvs).mpr ?_)
      rw [Nat.succ_mul]; omega
    unfold _root_.Spec.ceilDiv at h4 ⊢
    omega
  · rcases h2 with ⟨n, rfl⟩ | h2
    · have hlt : (8 * by_ + r) * s < 8 * (v * s) * n := by
        have h5 : 8 * by_ * s < 8 * (v * n) * s := by
          rw [show 8 * (v * n) * s = 8 * (v * s) * n by ring]; exact hb3
        have h6 : 8 * by_ < 8 * (v * n) := Nat.lt_of_mul_lt_mul_right h5
        rw [show 8 * (v * s) * n = (8 * (v * n)) * s by ring]
        exact Nat.mul_lt_mul_of_pos_right (by omega) hs
      omega
    · omega

theorem comps_divide (fh fv : Nat) (h1 : 0 < fh) (h2 : 0 < fv) (ct : JpegColorType) (fc : FrameComp) (hfc : fc ∈ Spec.expectedComps fh fv ct) :
    (0 < fc.h ∧ ((Spec.expectedComps fh fv ct).map (·.h)).foldl max 0 = fc.h * (((Spec.expectedComps fh fv ct).map (·.h)).foldl max 0 / fc.h)) ∧
    (0 < fc.v ∧ ((Spec.expectedComps fh fv ct).map (·.v)).foldl max 0 = fc.v * (((Spec.expectedComps fh fv ct).map (·.v)).foldl max 0 / fc.v)) := by
  cases ct <;> simp only [Spec.expectedComps, List.mem_cons, List.not_mem_nil, or_false] at hfc ⊢ <;>
    simp only [List.map_cons, List.map_nil, List.foldl_cons, List.foldl_nil]
  · subst hfc; simp
  · rcases hfc with rfl | rfl | rfl <;> simp [h1, h2, Nat.max_eq_left h1, Nat.max_eq_left h2, Nat.div_self]
  · have a1 : max 1 fh = fh := Nat.max_eq_right h1
    have a2 : max 1 fv = fv := Nat.max_eq_right h2
    rcases hfc with rfl | rfl | rfl | rfl <;> simp [h1, h2, a1, a2, Nat.div_self]
  · rcases hfc with rfl | rfl | rfl | rfl <;> simp [h1, h2, Nat.max_eq_left h1, Nat.max_eq_left h2, Nat.div_self]

section
variable {pf : Platform} (hpf : pf.Valid) {q : UInt8} {calls : List Spec.Call} {e : Encoder} (hc : Configured pf q calls e)
  {simd : Bool} {p : Prog (R Unit)} {ct : JpegColorType} {w h : UInt16} {P : Nat → Nat → Nat → UInt8} (hp : Spec.EncodeCall pf simd e p ct w h P)
  (hs : Spec.Supported pf simd e ct w h P) (h8 : Spec.EightBit e.getQuantizationTables) {strict : Bool} (hst : ScansFine strict e)
  {calls' : List Spec.Call} {e' : Encoder} (hc' : Configured pf q calls' e') {p' : Prog (R Unit)} {ct' : JpegColorType} {w' h' : UInt16}
  {P' : Nat → Nat → Nat → UInt8} (hp' : Spec.EncodeCall pf simd e' p' ct' w' h' P') (hs' : Spec.Supported pf simd e' ct' w' h' P')
  (hst' : ScansFine strict e') (hq : e'.getQuantizationTables = e.getQuantizationTables)
include hpf hc hp hs h8 hst hc' hp' hs' hst' hq

/-- C72: two images, of any sizes, color types and sampling factors, encoded by encoders with the same quality and quantisation tables. Two blocks,
wherever they are, of components that use the same quantisation table have the same coefficients if they stand for the same 64 samples. -/
theorem C72_position_independent :
    Spec.Encodes p strict fun _ d => Spec.Encodes p' strict fun _ d' => ∃ f f', d.frame = some f ∧ d'.frame = some f' ∧
      ∀ c fc c' fc', f.comps[c]? = some fc → f'.comps[c']? = some fc' → fc.tq = fc'.tq →
      ∀ by_ bx by' bx', by_ < f.blocksHigh fc → bx < f.blocksWide fc → by' < f'.blocksHigh fc' → bx' < f'.blocksWide fc' →
        (∀ y x, y < 8 → x < 8 → P c (min ((8 * by_ + y) * (f.vmax / fc.v)) (h.toNat - 1)) (min ((8 * bx + x) * (f.hmax / fc.h)) (w.toNat - 1)) =
          P' c' (min ((8 * by' + y) * (f'.vmax / fc'.v)) (h'.toNat - 1)) (min ((8 * bx' + x) * (f'.hmax / fc'.h)) (w'.toNat - 1))) →
        ∀ k, k < 64 → d.coefs c by_ bx k = d'.coefs c' by' bx' k := by
  have h8' : Spec.EightBit e'.getQuantizationTables := by rw [hq]; exact h8
  refine (C29_sampling_positions hpf hc hp hs h8 hst).mono ?_
  rintro _ d ⟨f, q0, q1, hf, hqt, hall⟩
  refine (C29_sampling_positions hpf hc' hp' hs' h8' hst').mono ?_
  rintro _ d' ⟨f', q0', q1', hf', hqt', hall'⟩
  rw [hq] at hqt'
  obtain rfl : q0 = q0' := by have := hqt.1.symm.trans hqt'.1; cases this; rfl
  obtain rfl : q1 = q1' := by have := hqt.2.symm.trans hqt'.2; cases this; rfl
  refine ⟨f, f', hf, hf', fun c fc c' fc' hfc hfc' htq by_ bx by' bx' hby hbx hby' hbx' hsame k hk => ?_⟩
  obtain ⟨samples, hsl, hsv, hco⟩ := hall c fc hfc by_ bx hby hbx
  obtain ⟨samples', hsl', hsv', hco'⟩ := hall' c' fc' hfc' by' bx' hby' hbx'
  have hss : samples = samples' := by
    refine List.ext_getElem? fun i => ?_
    by_cases hi : i < 64
    · have h1 := hsv (i / 8) (i % 8) (by omega) (by omega)
      have h2 := hsv' (i / 8) (i % 8) (by omega) (by omega)
      rw [← hsame _ _ (by omega) (by omega), ← h1] at h2
      rw [show 8 * (i / 8) + i % 8 = i by omega] at h2
      exact h2.symm
    · rw [List.getElem?_eq_none (by omega), List.getElem?_eq_none (by omega)]
  subst hss
  rw [← htq] at hco'
  exact IsCoef_unique (hco k hk) (hco' k hk)

end

/-- C72, tiles: the second image is the part of the first one that starts at the MCU in line `my` and column `mx` and ends at an MCU boundary or at the
edge of the first image. Encoded with the same quality, quantisation tables and sampling factors (the other settings, like progressive mode,
Huffman tables and restart intervals, may differ), its file contains exactly the coefficients the file of the whole image contains for
this part: cropping the file without loss and encoding the cropped image give the same. -/
theorem C72_tiles {pf : Platform} (hpf : pf.Valid) {q : UInt8} {calls : List Spec.Call} {e : Encoder} (hc : Configured pf q calls e)
    {simd : Bool} {p : Prog (R Unit)} {ct : JpegColorType} {w h : UInt16} {P : Nat → Nat → Nat → UInt8} (hp : Spec.EncodeCall pf simd e p ct w h P)
    (hs : Spec.Supported pf simd e ct w h P) (h8 : Spec.EightBit e.getQuantizationTables) {strict : Bool} (hst : ScansFine strict e)
    {calls' : List Spec.Call} {e' : Encoder} (hc' : Configured pf q calls' e') {p' : Prog (R Unit)} {w' h' : UInt16}
    {P' : Nat → Nat → Nat → UInt8} (hp' : Spec.EncodeCall pf simd e' p' ct w' h' P') (hs' : Spec.Supported pf simd e' ct w' h' P')
    (hst' : ScansFine strict e') (hq : e'.getQuantizationTables = e.getQuantizationTables)
    (hfac : e'.getSamplingFactor.factors = e.getSamplingFactor.factors) :
    Spec.Encodes p strict fun _ d => Spec.Encodes p' strict fun _ d' => ∃ f f', d.frame = some f ∧ d'.frame = some f' ∧ f'.comps = f.comps ∧
      ∀ my mx, Spec.TileRange h.toNat (8 * f.vmax * my) h'.toNat (8 * f.vmax) → Spec.TileRange w.toNat (8 * f.hmax * mx) w'.toNat (8 * f.hmax) →
      ∀ c fc, f.comps[c]? = some fc →
        (∀ y x, y < h'.toNat → x < w'.toNat → P' c y x = P c (8 * f.vmax * my + y) (8 * f.hmax * mx + x)) →
        ∀ by_ bx, by_ < f'.blocksHigh fc → bx < f'.blocksWide fc →
          by_ + fc.v * my < f.blocksHigh fc ∧ bx + fc.h * mx < f.blocksWide fc ∧
          ∀ k, k < 64 → d'.coefs c by_ bx k = d.coefs c (by_ + fc.v * my) (bx + fc.h * mx) k := by
  have h8' : Spec.EightBit e'.getQuantizationTables := by rw [hq]; exact h8
  have hpos : 0 < e.getSamplingFactor.factors.1 ∧ 0 < e.getSamplingFactor.factors.2 := by
    generalize e.getSamplingFactor = s
    cases s <;> decide
  have h1 := C72_position_independent hpf hc hp hs h8 hst hc' hp' hs' hst' hq
  refine (h1.and (C32_frame_header hpf hc hp hs h8 hst)).mono ?_
  rintro _ d ⟨h2, -, -, -, hfr⟩
  refine (h2.and (C32_frame_header hpf hc' hp' hs' h8' hst')).mono ?_
  rintro _ d' ⟨⟨f, f', hf, hf', hall⟩, -, -, -, hfr'⟩
  unfold Spec.HasFrame at hfr hfr'
  rw [hf] at hfr
  rw [hf', hfac] at hfr'
  obtain rfl := Option.some.inj hfr
  obtain rfl := Option.some.inj hfr'
  refine ⟨_, _, hf, hf', rfl, fun my mx hy hx c fc hfc hsame by_ bx hby hbx => ?_⟩
  obtain ⟨⟨a1, a2⟩, ⟨b1, b2⟩⟩ := comps_divide _ _ hpos.1 hpos.2 ct fc (List.mem_of_getElem? hfc)
  simp only [Frame.blocksHigh, Frame.blocksWide, Frame.vmax, Frame.hmax] at hby hbx hall hy hx hsame ⊢
  set H := ((Spec.expectedComps e.getSamplingFactor.factors.1 e.getSamplingFactor.factors.2 ct).map (·.h)).foldl max 0
  set V := ((Spec.expectedComps e.getSamplingFactor.factors.1 e.getSamplingFactor.factors.2 ct).map (·.v)).foldl max 0
  have hpH : 0 < H / fc.h := by
    rcases Nat.eq_zero_or_pos (H / fc.h) with h0 | h0
    · exfalso
      rw [h0, Nat.mul_zero] at a2
      rw [a2] at hbx
      simp only [_root_.Spec.ceilDiv, Nat.div_zero] at hbx
      omega
    · exact h0
  have hpV : 0 < V / fc.v := by
    rcases Nat.eq_zero_or_pos (V / fc.v) with h0 | h0
    · exfalso
      rw [h0, Nat.mul_zero] at b2
      rw [b2] at hby
      simp only [_root_.Spec.ceilDiv, Nat.div_zero] at hby
      omega
    · exact h0
  have hy' := hy
  have hx' := hx
  rw [b2] at hy' hby
  rw [a2] at hx' hbx
  have iy := fun r hr => tile_index hpV (r := r) hr b1 hy' hby
  have ix := fun r hr => tile_index hpH (r := r) hr a1 hx' hbx
  rw [← b2] at iy hby
  rw [← a2] at ix hbx
  have A := (iy 0 (by omega)).1
  have B := (ix 0 (by omega)).1
  refine ⟨A, B, fun k hk => (hall c fc c fc hfc hfc rfl _ _ _ _ A B hby hbx (fun y x hy8 hx8 => ?_) k hk).symm⟩
  obtain ⟨-, i2, i3⟩ := iy y hy8
  obtain ⟨-, j2, j3⟩ := ix x hx8
  rw [i2, j2, hsame _ _ i3 j3]

-- a 40x24 image with 2x2 subsampling and its tile of 24x8 pixels that starts at MCU (1, 1): it ends at both edges of the image
example : Spec.TileRange 24 (8 * 2 * 1) 8 (8 * 2) ∧ Spec.TileRange 40 (8 * 2 * 1) 24 (8 * 2) ∧ Spec.TileRange 40 (8 * 2 * 0) 16 (8 * 2) ∧
    ¬ Spec.TileRange 40 (8 * 2 * 0) 24 (8 * 2) := by
  unfold Spec.TileRange; decide

-- two images and settings that satisfy the hypotheses: a 9x1 image and its last column, in different modes
example : ∃ e e' p p' P P', Configured ⟨true, 8⟩ 60 [.setProgressive true] e ∧ Configured ⟨true, 8⟩ 60 [.setRestartInterval 3] e' ∧
    Spec.EncodeCall ⟨true, 8⟩ true e p .luma 9 1 P ∧ Spec.EncodeCall ⟨true, 8⟩ true e' p' .luma 1 1 P' ∧
    Spec.Supported ⟨true, 8⟩ true e .luma 9 1 P ∧ Spec.Supported ⟨true, 8⟩ true e' .luma 1 1 P' ∧ Spec.EightBit e.getQuantizationTables ∧
    ScansFine true e ∧ ScansFine true e' ∧ e'.getQuantizationTables = e.getQuantizationTables ∧ e'.getSamplingFactor.factors = e.getSamplingFactor.factors ∧
    Spec.TileRange 1 (8 * 1 * 0) 1 (8 * 1) ∧ Spec.TileRange 9 (8 * 1 * 1) 1 (8 * 1) ∧
    ∀ y x, y < 1 → x < 1 → P' 0 y x = P 0 (8 * 1 * 0 + y) (8 * 1 * 1 + x) := by
  obtain ⟨e, h1, h2⟩ := reachable_exists ⟨true, 8⟩ 60 [.setProgressive true] (by decide)
  obtain ⟨e', h1', h2'⟩ := reachable_exists ⟨true, 8⟩ 60 [.setRestartInterval 3] (by decide)
  have hq : e.getQuantizationTables = (.default, .default) := by rw [h2.quant]; rfl
  have hq' : e'.getQuantizationTables = (.default, .default) := by rw [h2'.quant]; rfl
  refine ⟨e, e', _, _, _, _, h1, h1', .data [9, 9, 1, 2, 3, 4, 5, 6, 7] 9 1 .luma (by decide) (by unfold Spec.SliceOk; decide),
    .data [7] 1 1 .luma (by decide) (by unfold Spec.SliceOk; decide),
    ⟨by decide, by decide, Or.inl rfl, Or.inl ?_⟩, ⟨by decide, by decide, Or.inl rfl, Or.inl ?_⟩, ?_, ?_, ?_, by rw [hq, hq'], ?_,
    by unfold Spec.TileRange; decide, by unfold Spec.TileRange; decide, ?_⟩
  · rw [h2.optimized]; rfl
  · rw [h2'.optimized]; rfl
  · intro t ht; rw [hq] at ht; rcases ht with h | h <;> cases h
  · intro _ n hn
    rw [h2.scans] at hn; cases hn; decide
  · intro _ n hn
    rw [h2'.scans] at hn; cases hn
  · rw [h2.sampling, h2'.sampling]; decide
  · intro y x hy hx
    obtain rfl : y = 0 := by omega
    obtain rfl : x = 0 := by omega
    rfl

end Jpeg
