import Verif.Props.Fdct
import Verif.Proofs.Bundle
import Verif.Proofs.Markers
import Verif.Props.Quant
/-! Blocks of equal samples. -/
namespace Jpeg
open _root_.Spec

/-- A constant block has no AC coefficients, with both implementations of the transform. -/
theorem dct_constant (simd : Bool) (pf : Platform) (c : Int) (hc : -128 ≤ c ∧ c ≤ 127) :
    Spec.buildDct simd pf (List.replicate 64 c) = .ok (64 * c :: List.replicate 63 0) := by
  cases simd with
  | false => exact C24_constant c hc pf
  | true =>
    have hs : Shifted (List.replicate 64 c) := by
      intro v hv
      rw [List.eq_of_mem_replicate hv]; exact hc
    have hP : fdctP (List.replicate 64 c) = 64 * c :: List.replicate 63 0 := by
      have := C24_constant c hc pf
      rw [fdct_eq pf hs] at this
      exact Except.ok.inj this
    have h1 : Spec.buildDct true pf (List.replicate 64 c) = .ok (Avx2.fdctA (List.replicate 64 c)) := opOk_avx2.run pf _ (by simp) hs
    rw [h1, ← hP]
    congr 1
    have g : ∀ i, i < 64 → (List.replicate 64 c).getD i 0 = c := by
      intro i hi; simp only [List.getD]; rw [List.getElem?_replicate, if_pos hi]; rfl
    have hrow : ∀ y, y < 8 → rowP (List.replicate 64 c) y = [32 * c, 0, 0, 0, 0, 0, 0, 0] := by
      intro y hy
      simp only [rowP, g _ (show 8 * y < 64 by omega), g _ (show 8 * y + 1 < 64 by omega),
        g _ (show 8 * y + 2 < 64 by omega), g _ (show 8 * y + 3 < 64 by omega), g _ (show 8 * y + 4 < 64 by omega),
        g _ (show 8 * y + 5 < 64 by omega), g _ (show 8 * y + 6 < 64 by omega), g _ (show 8 * y + 7 < 64 by omega)]
      simp only [dct8P, num0, num1, num2, num3, num4, num5, num6, num7, dsc]
      norm_num
      omega
    have hz : ∀ y x, y < 8 → x % 2 = 1 → rhoP (List.replicate 64 c) y x = 0 := by
      intro y x hy hx
      unfold rhoP
      rw [hrow y hy]
      match x, hx with
      | 1, _ => rfl
      | 3, _ => rfl
      | 5, _ => rfl
      | 7, _ => rfl
      | x + 8, _ => rfl
    refine List.ext_getElem? fun i => ?_
    by_cases hi : i < 64
    · have h2 : (Avx2.fdctA (List.replicate 64 c)).getD i 0 = (fdctP (List.replicate 64 c)).getD i 0 := by
        by_cases hodd : i % 2 = 1
        · have hx : i % 8 % 2 = 1 := by omega
          have hA : Avx2.colA (List.replicate 64 c) (i % 8) = [0, 0, 0, 0, 0, 0, 0, 0] := by
            unfold Avx2.colA
            rw [hz 0 _ (by omega) hx, hz 1 _ (by omega) hx, hz 2 _ (by omega) hx, hz 3 _ (by omega) hx, hz 4 _ (by omega) hx, hz 5 _ (by omega) hx,
              hz 6 _ (by omega) hx, hz 7 _ (by omega) hx]
            simp only [hx]
            decide
          have hB : colP (List.replicate 64 c) (i % 8) = [0, 0, 0, 0, 0, 0, 0, 0] := by
            unfold colP
            rw [hz 0 _ (by omega) hx, hz 1 _ (by omega) hx, hz 2 _ (by omega) hx, hz 3 _ (by omega) hx, hz 4 _ (by omega) hx, hz 5 _ (by omega) hx,
              hz 6 _ (by omega) hx, hz 7 _ (by omega) hx]
            decide
          rw [Avx2.fdctA_getD _ hi, fdctP_getD _ hi, hA, hB]
        · exact (Avx2.fdctA_spec _ hi).2.2 (by omega)
      have e1 : i < (Avx2.fdctA (List.replicate 64 c)).length := by rw [Avx2.fdctA_length]; exact hi
      have e2 : i < (fdctP (List.replicate 64 c)).length := by rw [fdctP_length]; exact hi
      rw [List.getD_eq_getElem?_getD, List.getD_eq_getElem?_getD, List.getElem?_eq_getElem e1, List.getElem?_eq_getElem e2, Option.getD_some,
        Option.getD_some] at h2
      rw [List.getElem?_eq_getElem e1, List.getElem?_eq_getElem e2, h2]
    · rw [List.getElem?_eq_none (by rw [Avx2.fdctA_length]; omega), List.getElem?_eq_none (by rw [fdctP_length]; omega)]


theorem quantOf_zero {v : Nat} (hv : 1 ≤ v ∧ v ≤ 2048) : quantOf v 0 = 0 := by
  have := quantOf_error hv.1 hv.2 (x := 0) (by decide)
  rw [abs_le] at this
  by_contra hne
  rcases lt_or_gt_of_ne hne with h | h
  · have : (v : Int) * quantOf v 0 ≤ v * (-1) := mul_le_mul_of_nonneg_left (by omega) (by omega)
    nlinarith
  · have : (v : Int) * 1 ≤ v * quantOf v 0 := mul_le_mul_of_nonneg_left (by omega) (by omega)
    nlinarith

theorem zigzag_pos : ∀ k, k < 64 → 1 ≤ k → zigzag.getD k 0 ≠ 0 := by decide +kernel

/-- A constant block has no quantised AC coefficients. -/
theorem IsCoef_flat {pf : Platform} {simd : Bool} {ty : QuantizationTableType} {n : Nat} {b : Bool} {k : Nat} (h1 : 1 ≤ k) (hk : k < 64) {c : Int}
    (hc : -128 ≤ c ∧ c ≤ 127) {v : Int} (h : Spec.IsCoef pf simd (mkQ (steps ty n b)) (List.replicate 64 c) k v) : v = 0 := by
  obtain ⟨freq, h2, h3⟩ := h
  rw [dct_constant simd pf c hc] at h2
  cases h2
  have hz : zigzag.getD k 0 < 64 := by rw [zigzag_eq]; exact ZIGZAG_getD_lt hk
  have hz0 : (64 * c :: List.replicate 63 0).getD (zigzag.getD k 0) 0 = 0 := by
    have hne := zigzag_pos k hk h1
    generalize zigzag.getD k 0 = z at hz hne
    obtain ⟨z, rfl⟩ := Nat.exists_eq_succ_of_ne_zero hne
    rw [List.getD_cons_succ, List.getD_eq_getElem?_getD, List.getElem?_replicate, if_pos (by omega)]
    rfl
  have hzl : zigzag.getD k 0 < (steps ty n b).length := by rw [steps_length]; exact hz
  rw [hz0, quantize_eq pf _ (steps_range _ _ _) _ hzl 0 (by omega)] at h3
  rw [← Except.ok.inj h3]
  exact quantOf_zero (steps_range _ _ _ _ (getD_mem hzl))

end Jpeg
