import Verif.Proofs.Basic
import Verif.Spec.Quant
/-! Quantisation tables: closed form of `newWithQuality` and `quantize`. -/
namespace Jpeg

/-- The quantisation table for the 64 divisors `steps`. -/
def mkQ (steps : List Nat) : QuantizationTable :=
  ⟨steps.map (8 * ·), steps.map fun v => (computeReciprocal (8 * v)).1, steps.map fun v => (computeReciprocal (8 * v)).2⟩

/-- The base table of a built-in type. -/
def baseTable (luma : Bool) : QuantizationTableType → List Nat
  | .custom _ => []
  | .default => (if luma then lumaTables else chromaTables).getD 0 []
  | .flat => (if luma then lumaTables else chromaTables).getD 1 []
  | .customMsSsim => (if luma then lumaTables else chromaTables).getD 2 []
  | .customPsnrHvs => (if luma then lumaTables else chromaTables).getD 3 []
  | .imageMagick => (if luma then lumaTables else chromaTables).getD 4 []
  | .kleinSilversteinCarney => (if luma then lumaTables else chromaTables).getD 5 []
  | .dentalXRays => (if luma then lumaTables else chromaTables).getD 6 []
  | .visualDetectionModel => (if luma then lumaTables else chromaTables).getD 7 []
  | .improvedDetectionModel => (if luma then lumaTables else chromaTables).getD 8 []

def isCustom : QuantizationTableType → Bool
  | .custom _ => true
  | _ => false

/-- The 64 divisors in effect, in row order. -/
def steps (type : QuantizationTableType) (quality : Nat) (luma : Bool) : List Nat :=
  match type with
  | .custom t => t.toList.map fun v => Spec.clamp 1 2048 v.toNat
  | type => (baseTable luma type).map (Spec.ijgStep quality)

theorem clampN_eq {lo hi v : Nat} (h : lo ≤ hi) : clampN v lo hi = Spec.clamp lo hi v := by
  simp only [clampN, Spec.clamp]; split <;> [skip; split] <;> omega

theorem qualityScale_eq (q : Nat) : qualityScale q = Spec.ijgPercent q := by
  simp only [qualityScale, Spec.ijgPercent, clampN_eq (show 1 ≤ 100 by omega)]
  split <;> omega

theorem nonZeroShl3_ok {v : Nat} (h0 : 1 ≤ v) (h1 : v ≤ 2048) : nonZeroShl3 v = .ok (8 * v) := by
  have e : v * 8 % 65536 = 8 * v := by omega
  have n : ¬ 8 * v = 0 := by omega
  simp [nonZeroShl3, e, n]

theorem getWithQuality_eq (base : List Nat) (q : Nat) :
    getWithQuality base q = .ok ((base.map (Spec.ijgStep q)).map (8 * ·)) := by
  rw [List.map_map]
  apply mapR_ok
  intro v _
  rw [qualityScale_eq, clampN_eq (by omega)]
  exact nonZeroShl3_ok (by simp only [Spec.clamp]; omega) (by simp only [Spec.clamp]; omega)

theorem newWithQuality_eq (type : QuantizationTableType) (q : Nat) (luma : Bool) :
    QuantizationTable.newWithQuality type q luma = .ok (mkQ (steps type q luma)) := by
  have fin : ∀ s : List Nat, (⟨s.map (8 * ·), ((s.map (8 * ·)).map computeReciprocal).map (·.1),
      ((s.map (8 * ·)).map computeReciprocal).map (·.2)⟩ : QuantizationTable) = mkQ s := by
    intro s; simp [mkQ, List.map_map, Function.comp_def]
  cases type
  case custom t =>
    simp only [QuantizationTable.newWithQuality, getUserTable]
    rw [mapR_ok (g := fun v => 8 * Spec.clamp 1 2048 v)]
    · simp only [ok_bind]
      rw [← fin]
      simp [steps, List.map_map, Function.comp_def]
    · intro v _
      rw [clampN_eq (by omega)]
      exact nonZeroShl3_ok (by simp only [Spec.clamp]; omega) (by simp only [Spec.clamp]; omega)
  all_goals
    simp only [QuantizationTable.newWithQuality, QuantizationTableType.index, ok_bind]
    rw [idx_eq_getD [] (by cases luma <;> decide)]
    simp only [ok_bind]
    rw [getWithQuality_eq]
    simp only [ok_bind]
    exact congrArg Except.ok (fin _)

theorem baseTable_length (luma : Bool) (type : QuantizationTableType) (h : isCustom type = false) :
    (baseTable luma type).length = 64 := by
  cases type <;> cases luma <;> first | rfl | cases h

theorem steps_length (type : QuantizationTableType) (q : Nat) (luma : Bool) : (steps type q luma).length = 64 := by
  cases type
  case custom t => simp [steps]
  all_goals
    simp only [steps, List.length_map]
    exact baseTable_length _ _ rfl

theorem ijgStep_range (q b : Nat) : 1 ≤ Spec.ijgStep q b ∧ Spec.ijgStep q b ≤ 255 := by
  simp only [Spec.ijgStep, Spec.clamp]; omega

theorem steps_range (type : QuantizationTableType) (q : Nat) (luma : Bool) :
    ∀ v ∈ steps type q luma, 1 ≤ v ∧ v ≤ 2048 := by
  cases type
  case custom t =>
    simp only [steps, List.mem_map]
    rintro v ⟨x, _, rfl⟩
    simp only [Spec.clamp]; omega
  all_goals
    simp only [steps, List.mem_map]
    rintro v ⟨x, _, rfl⟩
    have := ijgStep_range q x
    omega

theorem steps_range255 (type : QuantizationTableType) (q : Nat) (luma : Bool) (hc : isCustom type = false) :
    ∀ v ∈ steps type q luma, 1 ≤ v ∧ v ≤ 255 := by
  cases type
  case custom t => cases hc
  all_goals
    simp only [steps, List.mem_map]
    rintro v ⟨x, _, rfl⟩
    exact ijgStep_range q x

/-- What `quantize` computes for divisor `v`. -/
def quantAbs (v x : Nat) : Nat := (x + (computeReciprocal (8 * v)).2) * (computeReciprocal (8 * v)).1 / 32768

def quantOf (v : Nat) (x : Int) : Int := if x < 0 then -(quantAbs v x.natAbs : Int) else quantAbs v x.natAbs

theorem reciprocal_le {v : Nat} (h1 : 1 ≤ v) (h2 : v ≤ 2048) :
    (computeReciprocal (8 * v)).1 ≤ 4096 ∧ (computeReciprocal (8 * v)).1 * (8 * v) ≤ 32768 + 8 * v ∧
    (computeReciprocal (8 * v)).2 ≤ 4 * v + 1 := by
  have h : ¬ 8 * v ≤ 1 := by omega
  simp only [computeReciprocal, h, if_false, SHIFT]
  norm_num
  have e : 8 * v * (32768 / (8 * v)) + 32768 % (8 * v) = 32768 := Nat.div_add_mod _ _
  have b : 32768 / (8 * v) ≤ 4096 := Nat.div_le_of_le_mul (by nlinarith)
  have m : 32768 % (8 * v) < 8 * v := Nat.mod_lt _ (by omega)
  have e' : 32768 / (8 * v) * (8 * v) = 8 * v * (32768 / (8 * v)) := Nat.mul_comm _ _
  have b' : 32768 % (8 * v) ≠ 0 → 32768 / (8 * v) < 4096 := by
    intro hne
    rcases Nat.lt_or_ge (32768 / (8 * v)) 4096 with h | h
    · exact h
    · exfalso
      have : 8 * v * (32768 / (8 * v)) ≥ 8 * v * 4096 := Nat.mul_le_mul_left _ h
      omega
  split <;> [skip; split] <;> dsimp only <;> (try rw [Nat.add_mul]) <;> omega

theorem quantAbs_le {v x : Nat} (h1 : 1 ≤ v) (h2 : v ≤ 2048) (hx : x ≤ 32768) : quantAbs v x ≤ 8192 := by
  obtain ⟨a, b, c⟩ := reciprocal_le h1 h2
  unfold quantAbs
  apply Nat.div_le_of_le_mul
  nlinarith

theorem quantize_eq (pf : Platform) (s : List Nat) (hs : ∀ v ∈ s, 1 ≤ v ∧ v ≤ 2048) (i : Nat) (hi : i < s.length)
    (x : Int) (hx : x.natAbs ≤ 32768) :
    (mkQ s).quantize pf x i = .ok (quantOf (s.getD i 1) x) := by
  have hv := hs _ (List.getElem_mem hi)
  have eg : s.getD i 1 = s[i] := by simp [List.getD, hi]
  obtain ⟨a, b, c⟩ := reciprocal_le hv.1 hv.2
  unfold QuantizationTable.quantize
  rw [idx_ok (by simpa [mkQ] using hi), idx_ok (by simpa [mkQ] using hi)]
  simp only [mkQ, List.getElem_map, ok_bind, eg]
  generalize hr : (computeReciprocal (8 * s[i])).1 = r at *
  generalize hc : (computeReciprocal (8 * s[i])).2 = k at *
  have ha : (if x < 0 then -x else x) = (x.natAbs : Int) := by split <;> omega
  rw [ha, ckI32_ok (by omega) (by omega)]
  simp only [ok_bind]
  rw [ckI32_ok (by omega) (by omega)]
  simp only [ok_bind]
  have hk : k ≤ 8193 := by omega
  have hp : ((x.natAbs : Int) + k) * r = (((x.natAbs + k) * r : Nat) : Int) := by push_cast; ring
  have hq : (x.natAbs + k) * r / 32768 = quantAbs s[i] x.natAbs := by rw [quantAbs, hr, hc]
  have hpb : (x.natAbs + k) * r ≤ 40961 * 4096 := Nat.mul_le_mul (by omega) a
  have hqb := quantAbs_le hv.1 hv.2 hx
  rw [hp, ckI32_ok (by omega) (by omega)]
  simp only [ok_bind]
  have hd : ((((x.natAbs + k) * r : Nat) : Int) / 2 ^ SHIFT) = (quantAbs s[i] x.natAbs : Int) := by
    rw [← hq, Int.natCast_div]; rfl
  rw [hd]
  by_cases hneg : x < 0
  · have : x ≠ (x.natAbs : Int) := by omega
    rw [if_pos this, ckI32_ok (by omega) (by omega)]
    simp only [ok_bind, quantOf, hneg, if_true]
    rw [Int.bmod_eq_of_le (by omega) (by omega), Int.mul_neg_one]
  · have : ¬ x ≠ (x.natAbs : Int) := by omega
    rw [if_neg this]
    simp only [quantOf, hneg, if_false]
    rw [Int.bmod_eq_of_le (by omega) (by omega)]

end Jpeg
