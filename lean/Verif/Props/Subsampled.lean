import Verif.Props.RgbAny
/-! C81: error of RGB pixels with any sampling factor. -/
namespace Spec

/-- What a decoder shows for the pixel at line `y`, column `x`, if each sample of the component stands for `sy` lines and `sx` columns: the sample is repeated. -/
noncomputable def shownSample (table : List Nat) (coefs : Nat → Nat → Nat → Int) (sy sx y x : Nat) : ℝ :=
  reconstructed table (coefs (y / (8 * sy)) (x / (8 * sx))) (y / sy % 8) (x / sx % 8)

/-- The pixels (line, column) of a `w` x `h` image in the MCU of line `my`, column `mx` of MCUs with `8 * sy` lines and `8 * sx` columns. -/
def mcuPixels (w h sy sx my mx : Nat) : Finset (Nat × Nat) :=
  (Finset.range h ×ˢ Finset.range w).filter fun p => p.1 / (8 * sy) = my ∧ p.2 / (8 * sx) = mx

end Spec

namespace Jpeg
open _root_.Spec

/-- The error of a colour channel from those of Y, Cb, Cr (`a`, `b`, `c`) and the others (`d`). -/
theorem channel_error_on {ι : Type} (S : Finset ι) {a b c d : ι → ℝ} {m n k A C N : ℝ} (hk : 0 < k) (hA : 0 < A) (hC : 0 < C) (hN : (S.card : ℝ) ≤ N)
    (ha : ∑ p ∈ S, a p ^ 2 ≤ A ^ 2 * N) (hb : ∑ p ∈ S, b p ^ 2 ≤ C ^ 2 * N) (hc : ∑ p ∈ S, c p ^ 2 ≤ C ^ 2 * N) (hd : ∀ p ∈ S, |d p| ≤ k) :
    ∑ p ∈ S, (a p + m * b p + n * c p + d p) ^ 2 ≤ (A + (|m| + |n|) * C + k) ^ 2 * N := by
  have hm := abs_nonneg m
  have hn := abs_nonneg n
  have hS : 0 ≤ A + (|m| + |n|) * C + k := by positivity
  have hpt : ∀ p ∈ S, (a p + m * b p + n * c p + d p) ^ 2 ≤
      (A + (|m| + |n|) * C + k) / A * a p ^ 2 + (A + (|m| + |n|) * C + k) * |m| / C * b p ^ 2 +
        (A + (|m| + |n|) * C + k) * |n| / C * c p ^ 2 + (A + (|m| + |n|) * C + k) * k := by
    intro p hp
    have h1 := jensen4 (|a p| / A) (|b p| / C) (|c p| / C) (|d p| / k) A (C * |m|) (C * |n|) k hA.le (by positivity) (by positivity) hk.le
    have h2 : (a p + m * b p + n * c p + d p) ^ 2 ≤ (A * (|a p| / A) + C * |m| * (|b p| / C) + C * |n| * (|c p| / C) + k * (|d p| / k)) ^ 2 := by
      have e : A * (|a p| / A) + C * |m| * (|b p| / C) + C * |n| * (|c p| / C) + k * (|d p| / k) =
          |a p| + |m| * |b p| + |n| * |c p| + |d p| := by
        field_simp
      rw [e, ← sq_abs (a p + m * b p + n * c p + d p)]
      apply pow_le_pow_left₀ (abs_nonneg _)
      have := abs_add_le (a p + m * b p + n * c p) (d p)
      have := abs_add_le (a p + m * b p) (n * c p)
      have := abs_add_le (a p) (m * b p)
      rw [abs_mul] at *
      linarith
    have h3 : k * (|d p| / k) ^ 2 ≤ k := by
      have h4 : |d p| / k ≤ 1 := by rw [div_le_one hk]; exact hd p hp
      have h5 : 0 ≤ |d p| / k := by positivity
      have h6 : (|d p| / k) ^ 2 ≤ 1 := by nlinarith
      nlinarith
    refine h2.trans (h1.trans ?_)
    have e2 : (A + C * |m| + C * |n| + k) = A + (|m| + |n|) * C + k := by ring
    rw [e2]
    have h7 := mul_le_mul_of_nonneg_left h3 hS
    simp only [div_pow, sq_abs] at h7 ⊢
    refine le_trans (le_of_eq ?_) (add_le_add_right h7 ((A + (|m| + |n|) * C + k) / A * a p ^ 2 + (A + (|m| + |n|) * C + k) * |m| / C * b p ^ 2 +
        (A + (|m| + |n|) * C + k) * |n| / C * c p ^ 2))
    field_simp
  refine (Finset.sum_le_sum hpt).trans ?_
  simp only [Finset.sum_add_distrib, ← Finset.mul_sum, Finset.sum_const, nsmul_eq_mul]
  generalize ∑ p ∈ S, a p ^ 2 = SA at *
  generalize ∑ p ∈ S, b p ^ 2 = SB at *
  generalize ∑ p ∈ S, c p ^ 2 = SC at *
  generalize hT : A + (|m| + |n|) * C + k = T at *
  have h1 : T / A * SA ≤ T / A * (A ^ 2 * N) := mul_le_mul_of_nonneg_left ha (by positivity)
  have h2 : T * |m| / C * SB ≤ T * |m| / C * (C ^ 2 * N) := mul_le_mul_of_nonneg_left hb (by positivity)
  have h3 : T * |n| / C * SC ≤ T * |n| / C * (C ^ 2 * N) := mul_le_mul_of_nonneg_left hc (by positivity)
  have h5 : (S.card : ℝ) * (T * k) ≤ N * (T * k) := mul_le_mul_of_nonneg_right hN (by positivity)
  have h4 : T / A * (A ^ 2 * N) + T * |m| / C * (C ^ 2 * N) + T * |n| / C * (C ^ 2 * N) + N * (T * k) = T ^ 2 * N := by
    rw [← hT]
    field_simp
    ring
  linarith

theorem sum_range_blocks (n : Nat) (f : Nat → ℝ) (m : Nat) : ∑ y ∈ Finset.range (n * m), f y = ∑ j ∈ Finset.range m, ∑ i ∈ Finset.range n, f (n * j + i) := by
  induction m with
  | zero => simp
  | succ m ih => rw [Nat.mul_succ, Finset.sum_range_add, ih, Finset.sum_range_succ]

/-- Sums over the pixels of an MCU. -/
theorem sum_mcu (w h sy sx my mx : Nat) (hy : 0 < sy) (hx : 0 < sx) (f : Nat → Nat → ℝ) :
    ∑ p ∈ mcuPixels w h sy sx my mx, f p.1 p.2 =
      ∑ y ∈ Finset.range (8 * sy), ∑ x ∈ Finset.range (8 * sx), if 8 * sy * my + y < h ∧ 8 * sx * mx + x < w then f (8 * sy * my + y) (8 * sx * mx + x) else 0 := by
  rw [← Finset.sum_product', ← Finset.sum_filter]
  symm
  refine Finset.sum_bij' (fun p _ => (8 * sy * my + p.1, 8 * sx * mx + p.2)) (fun p _ => (p.1 - 8 * sy * my, p.2 - 8 * sx * mx)) ?_ ?_ ?_ ?_ ?_
  · rintro ⟨y, x⟩ hp
    simp only [mcuPixels, Finset.mem_filter, Finset.mem_product, Finset.mem_range] at hp ⊢
    obtain ⟨⟨h1, h2⟩, h3, h4⟩ := hp
    refine ⟨⟨h3, h4⟩, ?_, ?_⟩
    · rw [Nat.mul_add_div (by omega), Nat.div_eq_of_lt h1, Nat.add_zero]
    · rw [Nat.mul_add_div (by omega), Nat.div_eq_of_lt h2, Nat.add_zero]
  · rintro ⟨y, x⟩ hp
    simp only [mcuPixels, Finset.mem_filter, Finset.mem_product, Finset.mem_range] at hp ⊢
    obtain ⟨⟨h1, h2⟩, rfl, rfl⟩ := hp
    have e1 := Nat.div_add_mod y (8 * sy)
    have e2 := Nat.div_add_mod x (8 * sx)
    have e3 := Nat.mod_lt y (show 8 * sy > 0 by omega)
    have e4 := Nat.mod_lt x (show 8 * sx > 0 by omega)
    omega
  · rintro ⟨y, x⟩ hp
    simp
  · rintro ⟨y, x⟩ hp
    simp only [mcuPixels, Finset.mem_filter, Finset.mem_product, Finset.mem_range] at hp ⊢
    obtain ⟨⟨h1, h2⟩, rfl, rfl⟩ := hp
    have e1 := Nat.mul_div_le y (8 * sy)
    have e2 := Nat.mul_div_le x (8 * sx)
    rw [Nat.add_sub_cancel' e1, Nat.add_sub_cancel' e2]
  · rintro ⟨y, x⟩ hp
    rfl

theorem card_mcu (w h sy sx my mx : Nat) (hy : 0 < sy) (hx : 0 < sx) : ((mcuPixels w h sy sx my mx).card : ℝ) ≤ 64 * (sy * sx) := by
  have h1 := sum_mcu w h sy sx my mx hy hx fun _ _ => 1
  rw [Finset.sum_const, nsmul_eq_mul, mul_one] at h1
  rw [h1]
  refine (Finset.sum_le_sum fun y _ => Finset.sum_le_sum fun x _ => show _ ≤ (1 : ℝ) by split <;> norm_num).trans ?_
  simp
  apply le_of_eq
  ring

/-- Squares of a component with full resolution. -/
theorem sum_mcu_full (w h sy sx my mx : Nat) (hy : 0 < sy) (hx : 0 < sx) {B : ℝ} (hB : 0 ≤ B) (g : Nat → Nat → ℝ)
    (hg : ∀ by_ bx, 8 * by_ < h → 8 * bx < w → blockSum (fun y x => if 8 * by_ + y < h ∧ 8 * bx + x < w then g (8 * by_ + y) (8 * bx + x) else 0) ≤ B * 64) :
    ∑ p ∈ mcuPixels w h sy sx my mx, g p.1 p.2 ≤ B * (64 * (sy * sx)) := by
  rw [sum_mcu w h sy sx my mx hy hx, sum_range_blocks]
  simp only [sum_range_blocks 8 _ sx]
  have key : ∀ j ∈ Finset.range sy, ∀ k ∈ Finset.range sx, ∑ i ∈ Finset.range 8, ∑ l ∈ Finset.range 8,
      (if 8 * sy * my + (8 * j + i) < h ∧ 8 * sx * mx + (8 * k + l) < w then g (8 * sy * my + (8 * j + i)) (8 * sx * mx + (8 * k + l)) else 0) ≤ B * 64 := by
    intro j _ k _
    have e1 : ∀ i, 8 * sy * my + (8 * j + i) = 8 * (sy * my + j) + i := fun i => by ring
    have e2 : ∀ i, 8 * sx * mx + (8 * k + i) = 8 * (sx * mx + k) + i := fun i => by ring
    simp only [e1, e2]
    by_cases hb : 8 * (sy * my + j) < h ∧ 8 * (sx * mx + k) < w
    · exact hg _ _ hb.1 hb.2
    · rw [Finset.sum_eq_zero]
      · positivity
      · intro i _
        rw [Finset.sum_eq_zero]
        intro l _
        rw [if_neg]
        omega
  have : ∀ j ∈ Finset.range sy, ∑ i ∈ Finset.range 8, ∑ k ∈ Finset.range sx, ∑ l ∈ Finset.range 8,
      (if 8 * sy * my + (8 * j + i) < h ∧ 8 * sx * mx + (8 * k + l) < w then g (8 * sy * my + (8 * j + i)) (8 * sx * mx + (8 * k + l)) else 0) ≤ sx * (B * 64) := by
    intro j hj
    rw [Finset.sum_comm]
    refine (Finset.sum_le_sum (key j hj)).trans ?_
    simp
  refine (Finset.sum_le_sum this).trans ?_
  simp
  apply le_of_eq
  ring

/-- Squares of a subsampled component: each sample is repeated. -/
theorem sum_mcu_sub (w h sy sx my mx : Nat) (hy : 0 < sy) (hx : 0 < sx) {B : ℝ} (g : Nat → Nat → ℝ) (G : Nat → Nat → ℝ) (hG : ∀ y x, 0 ≤ G y x)
    (hg : ∀ p ∈ mcuPixels w h sy sx my mx, g p.1 p.2 = G (p.1 / sy % 8) (p.2 / sx % 8)) (hB : blockSum G ≤ B * 64) :
    ∑ p ∈ mcuPixels w h sy sx my mx, g p.1 p.2 ≤ B * (64 * (sy * sx)) := by
  rw [Finset.sum_congr rfl hg, sum_mcu w h sy sx my mx hy hx fun y x => G (y / sy % 8) (x / sx % 8)]
  rw [Nat.mul_comm 8 sy, Nat.mul_comm 8 sx, sum_range_blocks]
  simp only [sum_range_blocks sx _ 8]
  have key : ∀ i ∈ Finset.range 8, ∀ j ∈ Finset.range sy, ∀ l ∈ Finset.range 8, ∀ k ∈ Finset.range sx,
      (if sy * 8 * my + (sy * i + j) < h ∧ sx * 8 * mx + (sx * l + k) < w then
        G ((sy * 8 * my + (sy * i + j)) / sy % 8) ((sx * 8 * mx + (sx * l + k)) / sx % 8) else 0) ≤ G i l := by
    intro i hi j hj l hl k hk
    rw [Finset.mem_range] at hi hj hl hk
    split
    · have e1 : (sy * 8 * my + (sy * i + j)) / sy % 8 = i := by
        rw [show sy * 8 * my + (sy * i + j) = sy * (8 * my + i) + j by ring, Nat.mul_add_div hy, Nat.div_eq_of_lt hj]
        omega
      have e2 : (sx * 8 * mx + (sx * l + k)) / sx % 8 = l := by
        rw [show sx * 8 * mx + (sx * l + k) = sx * (8 * mx + l) + k by ring, Nat.mul_add_div hx, Nat.div_eq_of_lt hk]
        omega
      rw [e1, e2]
    · exact hG _ _
  refine (Finset.sum_le_sum fun i hi => Finset.sum_le_sum fun j hj => Finset.sum_le_sum fun l hl => Finset.sum_le_sum fun k hk => key i hi j hj l hl k hk).trans ?_
  simp only [Finset.sum_const, Finset.card_range, nsmul_eq_mul, ← Finset.mul_sum]
  have hs : (0 : ℝ) ≤ sy * sx := by positivity
  have := mul_le_mul_of_nonneg_left hB hs
  unfold blockSum at this
  nlinarith

theorem blockSum_le' {f g : Nat → Nat → ℝ} (h : ∀ y x, y < 8 → x < 8 → f y x ≤ g y x) : blockSum f ≤ blockSum g :=
  Finset.sum_le_sum fun y hy => Finset.sum_le_sum fun x hx => h y x (Finset.mem_range.mp hy) (Finset.mem_range.mp hx)

/-- The errors of red, green and blue in an MCU from those of Y, Cb and Cr. -/
theorem rgb_mcu {A C δ : ℝ} (hA : 0 < A) (hC : 0 < C) (hδ : 0 ≤ δ) (S : Finset (Nat × Nat)) {N : ℝ} (hN : (S.card : ℝ) ≤ N) (r g b : Nat × Nat → UInt8)
    (anchor : Nat × Nat → Nat × Nat) (Y Cb Cr : Nat × Nat → ℝ)
    (h0 : ∑ p ∈ S, (Y p - (Spec.ycc (r p) (g p) (b p) 0).toNat) ^ 2 ≤ A ^ 2 * N)
    (h1 : ∑ p ∈ S, (Cb p - (Spec.ycc (r (anchor p)) (g (anchor p)) (b (anchor p)) 1).toNat) ^ 2 ≤ C ^ 2 * N)
    (h2 : ∑ p ∈ S, (Cr p - (Spec.ycc (r (anchor p)) (g (anchor p)) (b (anchor p)) 2).toNat) ^ 2 ≤ C ^ 2 * N)
    (hv : ∀ p ∈ S, ∀ c, c = 1 ∨ c = 2 → |((Spec.ycc (r (anchor p)) (g (anchor p)) (b (anchor p)) c).toNat : ℝ) - (Spec.ycc (r p) (g p) (b p) c).toNat| ≤ δ) :
    ∑ p ∈ S, (jfifRed (Y p) (Cr p) - (r p).toNat) ^ 2 ≤ (A + 1.402 * (C + δ) + 1.22) ^ 2 * N ∧
    ∑ p ∈ S, (jfifGreen (Y p) (Cb p) (Cr p) - (g p).toNat) ^ 2 ≤ (A + 1.05828 * (C + δ) + 1.04) ^ 2 * N ∧
    ∑ p ∈ S, (jfifBlue (Y p) (Cb p) - (b p).toNat) ^ 2 ≤ (A + 1.772 * (C + δ) + 1.4) ^ 2 * N := by
  have hinv := fun p => ycc_inverse (r p) (g p) (b p)
  have hv1 := fun p hp => hv p hp 1 (Or.inl rfl)
  have hv2 := fun p hp => hv p hp 2 (Or.inr rfl)
  refine ⟨?_, ?_, ?_⟩
  · refine le_trans (le_of_eq (Finset.sum_congr rfl fun p _ => ?_)) ((channel_error_on S (m := 0) (n := 1.402) (k := 1.22 + 1.402 * δ) (by positivity) hA hC hN h0 h1 h2
      (d := fun p => (jfifRed (Spec.ycc (r p) (g p) (b p) 0).toNat (Spec.ycc (r p) (g p) (b p) 2).toNat - (r p).toNat) +
        1.402 * (((Spec.ycc (r (anchor p)) (g (anchor p)) (b (anchor p)) 2).toNat : ℝ) - (Spec.ycc (r p) (g p) (b p) 2).toNat)) ?_).trans ?_)
    · simp only [jfifRed]
      congr 1
      ring
    · intro p hp
      refine (abs_add_le _ _).trans ?_
      rw [abs_mul, abs_of_nonneg (show (0 : ℝ) ≤ 1.402 by norm_num)]
      have := (hinv p).1
      have := hv2 p hp
      nlinarith
    · rw [abs_of_nonneg (show (0 : ℝ) ≤ 1.402 by norm_num), abs_zero]; apply le_of_eq; ring
  · refine le_trans (le_of_eq (Finset.sum_congr rfl fun p _ => ?_)) ((channel_error_on S (m := -0.34414) (n := -0.71414) (k := 1.04 + 1.05828 * δ) (by positivity) hA hC hN h0 h1 h2
      (d := fun p => (jfifGreen (Spec.ycc (r p) (g p) (b p) 0).toNat (Spec.ycc (r p) (g p) (b p) 1).toNat (Spec.ycc (r p) (g p) (b p) 2).toNat - (g p).toNat) +
        (-0.34414 * (((Spec.ycc (r (anchor p)) (g (anchor p)) (b (anchor p)) 1).toNat : ℝ) - (Spec.ycc (r p) (g p) (b p) 1).toNat) +
        -0.71414 * (((Spec.ycc (r (anchor p)) (g (anchor p)) (b (anchor p)) 2).toNat : ℝ) - (Spec.ycc (r p) (g p) (b p) 2).toNat))) ?_).trans ?_)
    · simp only [jfifGreen]
      congr 1
      ring
    · intro p hp
      refine (abs_add_le _ _).trans ?_
      have h3 := abs_add_le (-0.34414 * (((Spec.ycc (r (anchor p)) (g (anchor p)) (b (anchor p)) 1).toNat : ℝ) - (Spec.ycc (r p) (g p) (b p) 1).toNat))
        (-0.71414 * (((Spec.ycc (r (anchor p)) (g (anchor p)) (b (anchor p)) 2).toNat : ℝ) - (Spec.ycc (r p) (g p) (b p) 2).toNat))
      rw [abs_mul, abs_mul, abs_neg, abs_neg, abs_of_nonneg (show (0 : ℝ) ≤ 0.34414 by norm_num), abs_of_nonneg (show (0 : ℝ) ≤ 0.71414 by norm_num)] at h3
      have := (hinv p).2.1
      have := hv1 p hp
      have := hv2 p hp
      nlinarith
    · rw [abs_neg, abs_neg, abs_of_nonneg (show (0 : ℝ) ≤ 0.34414 by norm_num), abs_of_nonneg (show (0 : ℝ) ≤ 0.71414 by norm_num)]; apply le_of_eq; ring
  · refine le_trans (le_of_eq (Finset.sum_congr rfl fun p _ => ?_)) ((channel_error_on S (m := 1.772) (n := 0) (k := 1.4 + 1.772 * δ) (by positivity) hA hC hN h0 h1 h2
      (d := fun p => (jfifBlue (Spec.ycc (r p) (g p) (b p) 0).toNat (Spec.ycc (r p) (g p) (b p) 1).toNat - (b p).toNat) +
        1.772 * (((Spec.ycc (r (anchor p)) (g (anchor p)) (b (anchor p)) 1).toNat : ℝ) - (Spec.ycc (r p) (g p) (b p) 1).toNat)) ?_).trans ?_)
    · simp only [jfifBlue]
      congr 1
      ring
    · intro p hp
      refine (abs_add_le _ _).trans ?_
      rw [abs_mul, abs_of_nonneg (show (0 : ℝ) ≤ 1.772 by norm_num)]
      have := (hinv p).2.2
      have := hv1 p hp
      nlinarith
    · rw [abs_of_nonneg (show (0 : ℝ) ≤ 1.772 by norm_num), abs_zero]; apply le_of_eq; ring

theorem full_div {n s : Nat} (hn : n ≠ 0) (hs : 1 ≤ s) : (n * s + s - 1) / s = n := by
  rw [Nat.add_sub_assoc hs, Nat.add_comm, Nat.add_mul_div_right _ _ (by omega), Nat.div_eq_of_lt (by omega), Nat.zero_add]

theorem sub_div {n s m : Nat} (hs : 1 ≤ s) (h : 8 * s * m < n) : m < ((n + s - 1) / s + 8 - 1) / 8 := by
  have h1 : 8 * m + 1 ≤ (n + s - 1) / s := by
    rw [Nat.le_div_iff_mul_le (by omega)]
    have : (8 * m + 1) * s = 8 * s * m + s := by ring
    omega
  omega

/-- The top left pixel of a group is the one that is sampled. -/
theorem anchor_pos {n s m y : Nat} (hs : 1 ≤ s) (hy : y < n) (hm : y / (8 * s) = m) : min ((8 * m + y / s % 8) * s) (n - 1) = y / s * s := by
  have h1 : 8 * m + y / s % 8 = y / s := by
    rw [← hm, Nat.mul_comm 8 s, ← Nat.div_div_eq_div_mul]
    exact Nat.div_add_mod _ _
  rw [h1, Nat.min_eq_left]
  have := Nat.div_mul_le_self y s
  omega

/-- The sampling factors of a luma component. -/
theorem factors_range (s : SamplingFactor) : (1 ≤ s.factors.1 ∧ s.factors.1 ≤ 4) ∧ (1 ≤ s.factors.2 ∧ s.factors.2 ≤ 4) := by
  cases s <;> decide

/-- C81: with any sampling factor, quality and tables of 8 bit: a decoder that repeats each colour sample (exact inverse DCT, the conversion of JFIF) gives red,
green and blue whose squared errors, in every MCU of the image, are bounded by what the luma and the chroma table in the file allow plus the rounding
of the colour conversion, plus how much (at most `δ`) the colour differs from that of the top left pixel of the group of pixels with a common sample. -/
theorem C81_subsampled_rgb {pf : Platform} (hpf : pf.Valid) {q : UInt8} {calls : List Spec.Call} {e : Encoder} (hc : Configured pf q calls e)
    {simd : Bool} {data : Bytes} {w h : UInt16} {ct : ColorType} (hrgb : Spec.HasRgb ct)
    (hlen : w.toNat * h.toNat * ct.bytesPerPixel ≤ data.length) (hsl : Spec.SliceOk pf data)
    (hs : Spec.Supported pf simd e .ycbcr w h (Spec.samplesOf ct data w.toNat)) {strict : Bool} (hst : ScansFine strict e)
    (h8 : Spec.EightBit e.getQuantizationTables) {sx sy : Nat} (hfac : e.getSamplingFactor.factors = (sx, sy)) :
    Spec.Encodes (e.encode pf simd data w h ct) strict fun _ d => ∃ luma chroma, d.qts 0 = some luma ∧ d.qts 1 = some chroma ∧
      let Y := fun p : Nat × Nat => shownSample luma (d.coefs 0) 1 1 p.1 p.2
      let Cb := fun p : Nat × Nat => shownSample chroma (d.coefs 1) sy sx p.1 p.2
      let Cr := fun p : Nat × Nat => shownSample chroma (d.coefs 2) sy sx p.1 p.2
      let pixel := fun p : Nat × Nat => Spec.rgbAt ct data w.toNat p.1 p.2
      let color := fun (c : Nat) (p : Nat × Nat) => ((Spec.ycc (pixel p).1 (pixel p).2.1 (pixel p).2.2 c).toNat : ℝ)
      ∀ (my mx : Nat) (δ : ℝ), 0 ≤ δ → (∀ p ∈ mcuPixels w.toNat h.toNat sy sx my mx, ∀ c, c = 1 ∨ c = 2 → |color c (p.1 / sy * sy, p.2 / sx * sx) - color c p| ≤ δ) →
        ∑ p ∈ mcuPixels w.toNat h.toNat sy sx my mx, (jfifRed (Y p) (Cr p) - (pixel p).1.toNat) ^ 2 ≤
          (rmsBound simd luma + 1.402 * (rmsBound simd chroma + δ) + 1.22) ^ 2 * (64 * (sy * sx)) ∧
        ∑ p ∈ mcuPixels w.toNat h.toNat sy sx my mx, (jfifGreen (Y p) (Cb p) (Cr p) - (pixel p).2.1.toNat) ^ 2 ≤
          (rmsBound simd luma + 1.05828 * (rmsBound simd chroma + δ) + 1.04) ^ 2 * (64 * (sy * sx)) ∧
        ∑ p ∈ mcuPixels w.toNat h.toNat sy sx my mx, (jfifBlue (Y p) (Cb p) - (pixel p).2.2.toNat) ^ 2 ≤
          (rmsBound simd luma + 1.772 * (rmsBound simd chroma + δ) + 1.4) ^ 2 * (64 * (sy * sx)) := by
  have hfc : Spec.fileColor ct = .ycbcr := by rcases hrgb with rfl | rfl | rfl | rfl <;> rfl
  have hp : Spec.EncodeCall pf simd e (e.encode pf simd data w h ct) .ycbcr w h (Spec.samplesOf ct data w.toNat) := by
    rw [← hfc]; exact .data data w h ct hlen hsl
  have hrange := factors_range e.getSamplingFactor
  rw [hfac] at hrange
  obtain ⟨⟨hx, -⟩, hy, -⟩ := hrange
  simp only at hx hy
  refine ((C42_reconstruction_error hpf hc hp hs h8 hst).and (C32_frame_header hpf hc hp hs h8 hst)).mono ?_
  rintro _ d ⟨⟨f, hf, hall⟩, -, -, -, hframe⟩
  rw [Spec.HasFrame, hf, hfac] at hframe
  have hframe := Option.some.inj hframe
  subst hframe
  obtain ⟨t0, ht0, -, h0⟩ := hall 0 ⟨0, sx, sy, 0⟩ rfl
  obtain ⟨t1, ht1, -, h1⟩ := hall 1 ⟨1, 1, 1, 1⟩ rfl
  obtain ⟨t2, ht2, -, h2⟩ := hall 2 ⟨2, 1, 1, 1⟩ rfl
  rw [ht1] at ht2
  cases ht2
  refine ⟨t0, t1, ht0, ht1, ?_⟩
  intro Y Cb Cr pixel color my mx δ hδ hvar
  have hvm : Frame.vmax ⟨e.getProgressiveScans.isSome, h.toNat, w.toNat, Spec.expectedComps sx sy .ycbcr⟩ = sy := by
    simp [Frame.vmax, Spec.expectedComps]
    omega
  have hhm : Frame.hmax ⟨e.getProgressiveScans.isSome, h.toNat, w.toNat, Spec.expectedComps sx sy .ycbcr⟩ = sx := by
    simp [Frame.hmax, Spec.expectedComps]
    omega
  simp only [hvm, hhm, Nat.div_self hy, Nat.div_self hx, Nat.div_one, Nat.mul_one, samplesOf_rgb hrgb, ← rmsBound_sq, Frame.blocksHigh, Frame.blocksWide,
    _root_.Spec.ceilDiv] at h0 h1 h2
  have hw0 : w.toNat ≠ 0 := fun h => hs.width (by rw [← UInt16.toNat_inj]; simpa using h)
  have hh0 : h.toNat ≠ 0 := fun h' => hs.height (by rw [← UInt16.toNat_inj]; simpa using h')
  by_cases hne : (mcuPixels w.toNat h.toNat sy sx my mx).Nonempty
  swap
  · rw [Finset.not_nonempty_iff_eq_empty] at hne
    rw [hne]
    simp only [Finset.sum_empty]
    refine ⟨?_, ?_, ?_⟩ <;> positivity
  have hmy : 8 * sy * my < h.toNat ∧ 8 * sx * mx < w.toNat := by
    obtain ⟨⟨y, x⟩, hp⟩ := hne
    simp only [mcuPixels, Finset.mem_filter, Finset.mem_product, Finset.mem_range] at hp
    obtain ⟨⟨p1, p2⟩, rfl, rfl⟩ := hp
    have e1 := Nat.mul_div_le y (8 * sy)
    have e2 := Nat.mul_div_le x (8 * sx)
    omega
  refine rgb_mcu (rmsBound_pos simd t0) (rmsBound_pos simd t1) hδ (mcuPixels w.toNat h.toNat sy sx my mx) (card_mcu _ _ _ _ _ _ hy hx)
    (fun p => (pixel p).1) (fun p => (pixel p).2.1) (fun p => (pixel p).2.2) (fun p => (p.1 / sy * sy, p.2 / sx * sx)) Y Cb Cr ?_ ?_ ?_ hvar
  · refine sum_mcu_full w.toNat h.toNat sy sx my mx hy hx (sq_nonneg _) (fun y x => (Y (y, x) - color 0 (y, x)) ^ 2) fun by_ bx hby hbx => ?_
    refine le_trans (blockSum_le' fun y x hy8 hx8 => ?_) (h0 by_ bx ?_ ?_)
    · split
      · rename_i hin
        apply le_of_eq
        simp only [Y, color, pixel, shownSample, Nat.div_one]
        rw [Nat.mul_add_div (by norm_num), Nat.div_eq_of_lt hy8, Nat.mul_add_div (by norm_num), Nat.div_eq_of_lt hx8, Nat.mul_add_mod, Nat.mod_eq_of_lt hy8,
          Nat.mul_add_mod, Nat.mod_eq_of_lt hx8, Nat.min_eq_left (by omega), Nat.min_eq_left (by omega)]
        rfl
      · exact sq_nonneg _
    · rw [full_div hh0 hy]
      omega
    · rw [full_div hw0 hx]
      omega
  · refine sum_mcu_sub w.toNat h.toNat sy sx my mx hy hx (fun y x => (Cb (y, x) - color 1 (y / sy * sy, x / sx * sx)) ^ 2)
      _ (fun _ _ => sq_nonneg _) (fun p hpm => ?_) (h1 my mx (sub_div hy hmy.1) (sub_div hx hmy.2))
    simp only [mcuPixels, Finset.mem_filter, Finset.mem_product, Finset.mem_range] at hpm
    obtain ⟨⟨p1, p2⟩, p3, p4⟩ := hpm
    simp only [Cb, color, pixel, shownSample, p3, p4]
    rw [anchor_pos hy p1 p3, anchor_pos hx p2 p4]
  · refine sum_mcu_sub w.toNat h.toNat sy sx my mx hy hx (fun y x => (Cr (y, x) - color 2 (y / sy * sy, x / sx * sx)) ^ 2)
      _ (fun _ _ => sq_nonneg _) (fun p hpm => ?_) (h2 my mx (sub_div hy hmy.1) (sub_div hx hmy.2))
    simp only [mcuPixels, Finset.mem_filter, Finset.mem_product, Finset.mem_range] at hpm
    obtain ⟨⟨p1, p2⟩, p3, p4⟩ := hpm
    simp only [Cr, color, pixel, shownSample, p3, p4]
    rw [anchor_pos hy p1 p3, anchor_pos hx p2 p4]

/-- A 4x2 image of two colours, each in a group of 2x2 pixels. -/
def twoColors : Bytes := [250, 10, 10, 250, 10, 10, 10, 20, 240, 10, 20, 240, 250, 10, 10, 250, 10, 10, 10, 20, 240, 10, 20, 240]

-- the hypotheses of C81: at quality 75 the sampling is 2x2 by default; the colours of this image do not change inside the groups (`δ = 0`)
example : ∃ e, Configured ⟨true, 8⟩ 75 [] e ∧ Platform.Valid ⟨true, 8⟩ ∧ Spec.HasRgb .rgb ∧
    Spec.Supported ⟨true, 8⟩ true e .ycbcr 4 2 (Spec.samplesOf .rgb twoColors 4) ∧ ScansFine true e ∧
    Spec.SliceOk ⟨true, 8⟩ twoColors ∧ (4 : UInt16).toNat * (2 : UInt16).toNat * ColorType.rgb.bytesPerPixel ≤ twoColors.length ∧
    Spec.EightBit e.getQuantizationTables ∧ e.getSamplingFactor.factors = (2, 2) ∧ (mcuPixels 4 2 2 2 0 0).card = 8 ∧
    ∀ p ∈ mcuPixels 4 2 2 2 0 0, ∀ c, c = 1 ∨ c = 2 →
      |((Spec.ycc (Spec.rgbAt .rgb twoColors 4 (p.1 / 2 * 2) (p.2 / 2 * 2)).1 (Spec.rgbAt .rgb twoColors 4 (p.1 / 2 * 2) (p.2 / 2 * 2)).2.1
        (Spec.rgbAt .rgb twoColors 4 (p.1 / 2 * 2) (p.2 / 2 * 2)).2.2 c).toNat : ℝ) -
      (Spec.ycc (Spec.rgbAt .rgb twoColors 4 p.1 p.2).1 (Spec.rgbAt .rgb twoColors 4 p.1 p.2).2.1 (Spec.rgbAt .rgb twoColors 4 p.1 p.2).2.2 c).toNat| ≤ 0 := by
  obtain ⟨e, h1, h2⟩ := reachable_exists ⟨true, 8⟩ 75 [] (by decide)
  refine ⟨e, h1, by decide, Or.inl rfl, ⟨by decide, by decide, Or.inl rfl, Or.inl ?_⟩, ?_, by unfold Spec.SliceOk; decide, by decide, ?_, ?_, by decide, ?_⟩
  · rw [h2.optimized]; rfl
  · intro _ n hn
    rw [h2.scans] at hn; cases hn
  · intro t ht
    rw [h2.quant] at ht
    rcases ht with h | h <;> cases h
  · rw [h2.sampling]; decide
  · have key : ∀ p ∈ mcuPixels 4 2 2 2 0 0, Spec.rgbAt .rgb twoColors 4 (p.1 / 2 * 2) (p.2 / 2 * 2) = Spec.rgbAt .rgb twoColors 4 p.1 p.2 := by decide
    intro p hp c _
    rw [key p hp, sub_self, abs_zero]

end Jpeg
