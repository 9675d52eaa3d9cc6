import Verif.Proofs.Basic
import Mathlib.Algebra.Order.Field.Rat
import Mathlib.Tactic.Linarith
/-! C19: colour conversion. -/
namespace Jpeg

/-- The conversion without checks: `floor((a r + b g + c b + 128*65536 + 0x7FFF) / 65536)`. -/
def ycbcrOf (r g b : Int) : Int × Int × Int :=
  ((19595 * r + 38470 * g + 7471 * b + 32767) / 65536,
   (-11059 * r - 21709 * g + 32768 * b + 8388608 + 32767) / 65536,
   (32768 * r - 27439 * g - 5329 * b + 8388608 + 32767) / 65536)

theorem u8_nonneg_lt (r : UInt8) : (0 : Int) ≤ r.toNat ∧ (r.toNat : Int) ≤ 255 := by
  have := r.toNat_lt; omega

theorem rgbToYcbcr_eq (pf : Platform) (r g b : UInt8) :
    rgbToYcbcr pf r g b = .ok (UInt8.ofInt (ycbcrOf r.toNat g.toNat b.toNat).1,
      UInt8.ofInt (ycbcrOf r.toNat g.toNat b.toNat).2.1, UInt8.ofInt (ycbcrOf r.toNat g.toNat b.toNat).2.2) := by
  obtain ⟨hr0, hr1⟩ := u8_nonneg_lt r
  obtain ⟨hg0, hg1⟩ := u8_nonneg_lt g
  obtain ⟨hb0, hb1⟩ := u8_nonneg_lt b
  unfold rgbToYcbcr
  dsimp only
  repeat (rw [ckI32_ok (by omega) (by omega)]; simp only [ok_bind])
  have e : (128 * 65536 : Int) = 8388608 := by norm_num
  simp only [ycbcrOf, e]

theorem ycbcrOf_range (r g b : UInt8) :
    (0 ≤ (ycbcrOf r.toNat g.toNat b.toNat).1 ∧ (ycbcrOf r.toNat g.toNat b.toNat).1 ≤ 255) ∧
    (0 ≤ (ycbcrOf r.toNat g.toNat b.toNat).2.1 ∧ (ycbcrOf r.toNat g.toNat b.toNat).2.1 ≤ 255) ∧
    (0 ≤ (ycbcrOf r.toNat g.toNat b.toNat).2.2 ∧ (ycbcrOf r.toNat g.toNat b.toNat).2.2 ≤ 255) := by
  obtain ⟨hr0, hr1⟩ := u8_nonneg_lt r
  obtain ⟨hg0, hg1⟩ := u8_nonneg_lt g
  obtain ⟨hb0, hb1⟩ := u8_nonneg_lt b
  simp only [ycbcrOf]
  omega

theorem ofInt_toNat {v : Int} (h0 : 0 ≤ v) (h1 : v ≤ 255) : ((UInt8.ofInt v).toNat : Int) = v := by
  have : (UInt8.ofInt v).toNat = v.toNat := by
    have e : UInt8.ofInt v = UInt8.ofNat v.toNat := by
      simp only [UInt8.ofInt]
      congr 1
      omega
    rw [e, UInt8.toNat_ofNat']
    omega
  omega

/-- No overflow, no truncation (the 8 bit result equals the exact integer), on every platform. -/
theorem C19_no_wrap (pf : Platform) (r g b : UInt8) :
    ∃ y cb cr : UInt8, rgbToYcbcr pf r g b = .ok (y, cb, cr) ∧
      ((y.toNat : Int), (cb.toNat : Int), (cr.toNat : Int)) =
        ((19595 * (r.toNat : Int) + 38470 * g.toNat + 7471 * b.toNat + 32767) / 65536,
         (-11059 * (r.toNat : Int) - 21709 * g.toNat + 32768 * b.toNat + 8388608 + 32767) / 65536,
         (32768 * (r.toNat : Int) - 27439 * g.toNat - 5329 * b.toNat + 8388608 + 32767) / 65536) := by
  obtain ⟨⟨a1, a2⟩, ⟨b1, b2⟩, ⟨c1, c2⟩⟩ := ycbcrOf_range r g b
  refine ⟨_, _, _, rgbToYcbcr_eq pf r g b, ?_⟩
  rw [ofInt_toNat a1 a2, ofInt_toNat b1 b2, ofInt_toNat c1 c2]
  rfl

/-- Accuracy: each component is within 0.51 of the documented real-number formula
(src/image_buffer.rs:14-16), for every colour and platform. -/
theorem C19_accuracy (pf : Platform) (r g b : UInt8) :
    ∃ y cb cr : UInt8, rgbToYcbcr pf r g b = .ok (y, cb, cr) ∧
      |(y.toNat : ℚ) - (0.29900 * r.toNat + 0.58700 * g.toNat + 0.11400 * b.toNat)| ≤ 0.51 ∧
      |(cb.toNat : ℚ) - (-0.16874 * r.toNat - 0.33126 * g.toNat + 0.50000 * b.toNat + 128)| ≤ 0.51 ∧
      |(cr.toNat : ℚ) - (0.50000 * r.toNat - 0.41869 * g.toNat - 0.08131 * b.toNat + 128)| ≤ 0.51 := by
  obtain ⟨y, cb, cr, h, e⟩ := C19_no_wrap pf r g b
  refine ⟨y, cb, cr, h, ?_⟩
  simp only [Prod.mk.injEq] at e
  obtain ⟨e1, e2, e3⟩ := e
  obtain ⟨hr0, hr1⟩ := u8_nonneg_lt r
  obtain ⟨hg0, hg1⟩ := u8_nonneg_lt g
  obtain ⟨hb0, hb1⟩ := u8_nonneg_lt b
  generalize hR : (r.toNat : Int) = R at *
  generalize hG : (g.toNat : Int) = G at *
  generalize hB : (b.toNat : Int) = B at *
  generalize hY : (y.toNat : Int) = Y at *
  generalize hCb : (cb.toNat : Int) = Cb at *
  generalize hCr : (cr.toNat : Int) = Cr at *
  have q : ∀ (n : Nat) (z : Int), (n : Int) = z → (n : ℚ) = (z : ℚ) := by
    intro n z h; rw [← h]; simp
  rw [q _ _ hR, q _ _ hG, q _ _ hB, q _ _ hY, q _ _ hCb, q _ _ hCr]
  have t1 : 65536 * Y ≤ 19595 * R + 38470 * G + 7471 * B + 32767 ∧
      19595 * R + 38470 * G + 7471 * B + 32767 < 65536 * Y + 65536 := by omega
  have t2 : 65536 * Cb ≤ -11059 * R - 21709 * G + 32768 * B + 8388608 + 32767 ∧
      -11059 * R - 21709 * G + 32768 * B + 8388608 + 32767 < 65536 * Cb + 65536 := by omega
  have t3 : 65536 * Cr ≤ 32768 * R - 27439 * G - 5329 * B + 8388608 + 32767 ∧
      32768 * R - 27439 * G - 5329 * B + 8388608 + 32767 < 65536 * Cr + 65536 := by omega
  clear e1 e2 e3
  have c1 : (0 : ℚ) ≤ R := by exact_mod_cast hr0
  have c2 : (R : ℚ) ≤ 255 := by exact_mod_cast hr1
  have c3 : (0 : ℚ) ≤ G := by exact_mod_cast hg0
  have c4 : (G : ℚ) ≤ 255 := by exact_mod_cast hg1
  have c5 : (0 : ℚ) ≤ B := by exact_mod_cast hb0
  have c6 : (B : ℚ) ≤ 255 := by exact_mod_cast hb1
  have u1 : (65536 : ℚ) * Y ≤ 19595 * R + 38470 * G + 7471 * B + 32767 := by exact_mod_cast t1.1
  have u2 : (19595 : ℚ) * R + 38470 * G + 7471 * B + 32767 < 65536 * Y + 65536 := by exact_mod_cast t1.2
  have u3 : (65536 : ℚ) * Cb ≤ -11059 * R - 21709 * G + 32768 * B + 8388608 + 32767 := by exact_mod_cast t2.1
  have u4 : (-11059 : ℚ) * R - 21709 * G + 32768 * B + 8388608 + 32767 < 65536 * Cb + 65536 := by
    exact_mod_cast t2.2
  have u5 : (65536 : ℚ) * Cr ≤ 32768 * R - 27439 * G - 5329 * B + 8388608 + 32767 := by exact_mod_cast t3.1
  have u6 : (32768 : ℚ) * R - 27439 * G - 5329 * B + 8388608 + 32767 < 65536 * Cr + 65536 := by
    exact_mod_cast t3.2
  refine ⟨abs_le.mpr ⟨?_, ?_⟩, abs_le.mpr ⟨?_, ?_⟩, abs_le.mpr ⟨?_, ?_⟩⟩ <;> norm_num <;> linarith

/-- Grey stays grey: `(v, 128, 128)`. -/
theorem C19_grey (pf : Platform) (v : UInt8) : rgbToYcbcr pf v v v = .ok (v, 128, 128) := by
  rw [rgbToYcbcr_eq]
  obtain ⟨h0, h1⟩ := u8_nonneg_lt v
  have e1 : (ycbcrOf v.toNat v.toNat v.toNat).1 = v.toNat := by simp only [ycbcrOf]; omega
  have e2 : (ycbcrOf v.toNat v.toNat v.toNat).2.1 = 128 := by simp only [ycbcrOf]; omega
  have e3 : (ycbcrOf v.toNat v.toNat v.toNat).2.2 = 128 := by simp only [ycbcrOf]; omega
  rw [e1, e2, e3]
  have : UInt8.ofInt (v.toNat : Int) = v := by
    apply UInt8.toNat_inj.mp
    have := ofInt_toNat h0 h1
    omega
  rw [this]
  rfl

theorem inv8_eq (pf : Platform) (k : UInt8) : inv8 pf k = .ok (255 - k) := by
  obtain ⟨h0, h1⟩ := u8_nonneg_lt k
  unfold inv8
  rw [ckU8_ok (by omega) (by omega)]
  simp only [ok_bind, Except.ok.injEq]
  apply UInt8.toNat_inj.mp
  rw [u8_toNat (by omega), UInt8.toNat_sub_of_le]
  · simp
  · rw [UInt8.le_iff_toNat_le]; simp; omega

/-- `cmyk_to_ycck`: CMY are converted like RGB, K is inverted. -/
theorem C19_cmyk_to_ycck (pf : Platform) (c m y k : UInt8) :
    ∃ y' cb cr : UInt8, rgbToYcbcr pf c m y = .ok (y', cb, cr) ∧
      cmykToYcck pf c m y k = .ok (y', cb, cr, 255 - k) := by
  refine ⟨_, _, _, rgbToYcbcr_eq pf c m y, ?_⟩
  simp [cmykToYcck, rgbToYcbcr_eq, inv8_eq]

-- a concrete case (also in the crate's tests)
example : rgbToYcbcr ⟨true, 8⟩ 59 109 6 = .ok (82, 85, 111) := by decide

end Jpeg
