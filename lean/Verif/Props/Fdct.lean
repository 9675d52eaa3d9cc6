import Verif.Proofs.Fdct
/-! C24: range and exactness of the scalar forward DCT. -/
namespace Jpeg

/-- For every block of 64 level-shifted 8 bit samples the forward DCT succeeds with the same result on every
platform (so no 32 or 16 bit operation overflows, debug builds would panic), the DC result is exactly the sum of the
samples, every AC result is at most 8*1020. -/
theorem C24_range_and_dc (block : List Int) (hl : block.length = 64) (hb : ∀ v ∈ block, -128 ≤ v ∧ v ≤ 127) :
    ∃ out : List Int, (∀ pf, fdct pf block = .ok out) ∧ out.length = 64 ∧ out[0]? = some block.sum ∧
      ∀ (k : Nat) (v : Int), 1 ≤ k → out[k]? = some v → |v| ≤ 8 * 1020 := by
  refine ⟨fdctP block, fun pf => fdct_eq pf hb, fdctP_length block, ?_, ?_⟩
  · rw [← fdctP_dc hl]
    have : 0 < (fdctP block).length := by rw [fdctP_length]; omega
    simp [List.getD, this]
  · intro k v hk hv
    have hk' : k < 64 := by
      have := (List.getElem?_eq_some_iff.mp hv).1
      rwa [fdctP_length] at this
    have h := (fdctP_bounds hb hk').2 (by omega)
    have : (fdctP block).getD k 0 = v := by simp [List.getD, hv]
    rw [this] at h
    simp only [Bd] at h
    rw [abs_le]
    omega

/-- A constant block has no AC. -/
theorem C24_constant (c : Int) (hc : -128 ≤ c ∧ c ≤ 127) (pf : Platform) :
    fdct pf (List.replicate 64 c) = .ok (64 * c :: List.replicate 63 0) := by
  have hs : Shifted (List.replicate 64 c) := by
    intro v hv
    rw [List.eq_of_mem_replicate hv]; exact hc
  rw [fdct_eq pf hs]
  congr 1
  have g : ∀ i, i < 64 → (List.replicate 64 c).getD i 0 = c := by
    intro i hi; simp only [List.getD]; rw [List.getElem?_replicate, if_pos hi]; rfl
  have hrow : ∀ y, y < 8 → rowP (List.replicate 64 c) y = [32 * c, 0, 0, 0, 0, 0, 0, 0] := by
    intro y hy
    simp only [rowP, g _ (show 8 * y < 64 by omega), g _ (show 8 * y + 1 < 64 by omega),
      g _ (show 8 * y + 2 < 64 by omega), g _ (show 8 * y + 3 < 64 by omega), g _ (show 8 * y + 4 < 64 by omega),
      g _ (show 8 * y + 5 < 64 by omega), g _ (show 8 * y + 6 < 64 by omega), g _ (show 8 * y + 7 < 64 by omega)]
    simp only [dct8P, num0, num1, num2, num3, num4, num5, num6, num7, dsc]
    norm_num
    omega
  have hcol : ∀ x, x < 8 → colP (List.replicate 64 c) x = if x = 0 then [64 * c, 0, 0, 0, 0, 0, 0, 0] else
      [0, 0, 0, 0, 0, 0, 0, 0] := by
    intro x hx
    simp only [colP, rhoP, hrow _ (show 0 < 8 by omega), hrow _ (show 1 < 8 by omega), hrow _ (show 2 < 8 by omega),
      hrow _ (show 3 < 8 by omega), hrow _ (show 4 < 8 by omega), hrow _ (show 5 < 8 by omega),
      hrow _ (show 6 < 8 by omega), hrow _ (show 7 < 8 by omega)]
    rcases lt8_cases hx with rfl | rfl | rfl | rfl | rfl | rfl | rfl | rfl <;>
      simp only [List.getD_cons_zero, List.getD_cons_succ, dct8P, num0, num1, num2, num3, num4, num5, num6, num7, dsc]
    · norm_num; omega
    all_goals norm_num
  have : fdctP (List.replicate 64 c) = (List.range 64).map fun i =>
      (if i % 8 = 0 then [64 * c, 0, 0, 0, 0, 0, 0, 0] else [0, 0, 0, 0, 0, 0, 0, 0]).getD (i / 8) 0 := by
    apply List.map_congr_left
    intro i _
    rw [hcol _ (Nat.mod_lt _ (by omega))]
  rw [this]
  rfl

/-- A concrete non-constant block that meets the hypotheses. -/
example : let b := (List.range 64).map fun i => ((i * 37 % 256 : Nat) : Int) - 128
    b.length = 64 ∧ (∀ v ∈ b, -128 ≤ v ∧ v ≤ 127) ∧ (fdct ⟨true, 8⟩ b).map (fun o => o.take 3) = .ok [-416, -374, -334] := by
  decide

end Jpeg
