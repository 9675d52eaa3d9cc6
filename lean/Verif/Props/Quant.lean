import Verif.Proofs.Quant
import Verif.Spec.QuantTables
/-! C20-C23: quantisation tables and quantisation. -/
namespace Jpeg

theorem mkQ_get (s : List Nat) {k : Nat} (hk : k < s.length) : (mkQ s).get k = .ok (s.getD k 1 % 256) := by
  unfold QuantizationTable.get
  rw [idx_ok (by simpa [mkQ] using hk)]
  simp only [mkQ, List.getElem_map, ok_bind, List.getD, List.getElem?_eq_getElem hk, Option.getD_some]
  congr 2
  omega

theorem getD_mem {s : List Nat} {k : Nat} (hk : k < s.length) : s.getD k 1 ∈ s := by
  simp [List.getD, hk]

theorem steps_builtin {type : QuantizationTableType} (hc : isCustom type = false) (q : Nat) (luma : Bool) :
    steps type q luma = (baseTable luma type).map (Spec.ijgStep q) := by
  cases type <;> first | rfl | cases hc

theorem getD_map_lt {α β : Type} (l : List α) (f : α → β) (d : α) (d' : β) {k : Nat} (h : k < l.length) :
    (l.map f).getD k d' = f (l.getD k d) := by
  simp [List.getD, h]

theorem base_pos (luma : Bool) (type : QuantizationTableType) : ∀ b ∈ baseTable luma type, 1 ≤ b ∧ b ≤ 419 := by
  cases type <;> cases luma <;> simp only [baseTable] <;> decide

/-- The entry of the file for built-in tables: the IJG formula on the base table of that type. -/
theorem builtin_get {type : QuantizationTableType} (hc : isCustom type = false) (q : Nat) (luma : Bool) {k : Nat}
    (hk : k < 64) :
    (mkQ (steps type q luma)).get k = .ok (Spec.ijgStep q ((baseTable luma type).getD k 1)) := by
  have hl : k < (steps type q luma).length := by rw [steps_length]; exact hk
  rw [mkQ_get _ hl]
  have r := steps_range255 type q luma hc _ (getD_mem hl)
  rw [Nat.mod_eq_of_lt (by omega), steps_builtin hc, getD_map_lt _ _ 1 1 (by rw [baseTable_length _ _ hc]; exact hk)]

/-- The default table is Annex K of T.81 scaled by the IJG rule, position for position. -/
theorem C20_default_table (quality : UInt8) (luma : Bool) :
    ∃ t, QuantizationTable.newWithQuality .default quality.toNat luma = .ok t ∧
      ∀ k, k < 64 → t.get k =
        .ok (Spec.ijgStep quality.toNat ((if luma then Spec.annexKLuma else Spec.annexKChroma).getD k 0)) := by
  refine ⟨_, newWithQuality_eq _ _ _, fun k hk => ?_⟩
  rw [builtin_get rfl _ _ hk]
  have : (baseTable luma .default).getD k 1 = (if luma then Spec.annexKLuma else Spec.annexKChroma).getD k 0 := by
    have : baseTable luma .default = (if luma then Spec.annexKLuma else Spec.annexKChroma) := by cases luma <;> rfl
    rw [this]
    have hl : k < (if luma then Spec.annexKLuma else Spec.annexKChroma).length := by cases luma <;> exact hk
    simp [List.getD, hl]
  rw [this]

/-- Every built-in table is the published table the documentation names for that type, scaled by the IJG rule. -/
theorem C20_builtin_tables (type : QuantizationTableType) (hc : ∀ t, type ≠ .custom t) (luma : Bool) :
    (Spec.builtinTable luma type).length = 64 ∧ ∀ quality : UInt8, ∃ t, QuantizationTable.newWithQuality type quality.toNat luma = .ok t ∧
      ∀ k, k < 64 → t.get k = .ok (Spec.ijgStep quality.toNat ((Spec.builtinTable luma type).getD k 0)) := by
  have hc' : isCustom type = false := by cases type <;> first | rfl | exact absurd rfl (hc _)
  have e : baseTable luma type = Spec.builtinTable luma type := by
    cases type
    case custom t => cases hc'
    all_goals cases luma <;> rfl
  rw [← e]
  refine ⟨baseTable_length luma type hc', fun quality => ⟨_, newWithQuality_eq _ _ _, fun k hk => ?_⟩⟩
  rw [builtin_get hc' _ _ hk]
  have hl : k < (baseTable luma type).length := by rw [baseTable_length _ _ hc']; exact hk
  simp [List.getD, hl]

/-- Entries are in 1..255. -/
theorem C20_range (type : QuantizationTableType) (hc : ∀ t, type ≠ .custom t) (quality : UInt8) (luma : Bool) :
    ∃ t, QuantizationTable.newWithQuality type quality.toNat luma = .ok t ∧
      ∀ k, k < 64 → ∃ v, t.get k = .ok v ∧ 1 ≤ v ∧ v ≤ 255 := by
  obtain ⟨-, h⟩ := C20_builtin_tables type hc luma
  obtain ⟨t, ht, hg⟩ := h quality
  exact ⟨t, ht, fun k hk => ⟨_, hg k hk, ijgStep_range _ _⟩⟩

/-- Quality outside 1..100 behaves as clamped (for custom tables quality is ignored anyway). -/
theorem C20_clamped (type : QuantizationTableType) (quality : UInt8) (luma : Bool) :
    QuantizationTable.newWithQuality type quality.toNat luma =
      QuantizationTable.newWithQuality type (max 1 (min 100 quality.toNat)) luma := by
  rw [newWithQuality_eq, newWithQuality_eq]
  have : ∀ b, Spec.ijgStep quality.toNat b = Spec.ijgStep (max 1 (min 100 quality.toNat)) b := by
    intro b
    simp only [Spec.ijgStep, Spec.ijgPercent]
    have : Spec.clamp 1 100 (max 1 (min 100 quality.toNat)) = Spec.clamp 1 100 quality.toNat := by
      simp only [Spec.clamp]; omega
    rw [this]
  have e : steps type quality.toNat luma = steps type (max 1 (min 100 quality.toNat)) luma := by
    cases type <;> simp only [steps, funext this]
  rw [e]

theorem ijgPercent_antitone {q1 q2 : Nat} (h : q1 ≤ q2) : Spec.ijgPercent q2 ≤ Spec.ijgPercent q1 := by
  simp only [Spec.ijgPercent]
  have hc : Spec.clamp 1 100 q1 ≤ Spec.clamp 1 100 q2 := by simp only [Spec.clamp]; omega
  have r1 : 1 ≤ Spec.clamp 1 100 q1 := by simp only [Spec.clamp]; omega
  have r2 : Spec.clamp 1 100 q2 ≤ 100 := by simp only [Spec.clamp]; omega
  generalize Spec.clamp 1 100 q1 = a at *
  generalize Spec.clamp 1 100 q2 = b at *
  by_cases hb : b < 50
  · have ha : a < 50 := by omega
    rw [if_pos hb, if_pos ha]
    exact Nat.div_le_div_left hc (by omega)
  · rw [if_neg hb]
    by_cases ha : a < 50
    · rw [if_pos ha]
      have : 5000 / 50 ≤ 5000 / a := Nat.div_le_div_left (by omega) (by omega)
      omega
    · rw [if_neg ha]; omega

/-- A higher quality never increases an entry. -/
theorem C20_monotone (type : QuantizationTableType) (hc : ∀ t, type ≠ .custom t) (q1 q2 : UInt8)
    (hq : q1 ≤ q2) (luma : Bool) :
    ∃ t1 t2, QuantizationTable.newWithQuality type q1.toNat luma = .ok t1 ∧
      QuantizationTable.newWithQuality type q2.toNat luma = .ok t2 ∧
      ∀ k, k < 64 → ∃ v1 v2, t1.get k = .ok v1 ∧ t2.get k = .ok v2 ∧ v2 ≤ v1 := by
  obtain ⟨-, h⟩ := C20_builtin_tables type hc luma
  obtain ⟨t1, ht1, hg1⟩ := h q1
  obtain ⟨t2, ht2, hg2⟩ := h q2
  refine ⟨t1, t2, ht1, ht2, fun k hk => ⟨_, _, hg1 k hk, hg2 k hk, ?_⟩⟩
  have hp := ijgPercent_antitone (UInt8.le_iff_toNat_le.mp hq)
  have := Nat.mul_le_mul_left ((Spec.builtinTable luma type).getD k 0) hp
  simp only [Spec.ijgStep, Spec.clamp]
  omega

/-- Quality 100 (and above) means no quantisation: all entries are 1. -/
theorem C20_quality_100 (type : QuantizationTableType) (hc : ∀ t, type ≠ .custom t) (q : UInt8) (hq : 100 ≤ q)
    (luma : Bool) : ∃ t, QuantizationTable.newWithQuality type q.toNat luma = .ok t ∧
      ∀ k, k < 64 → t.get k = .ok 1 := by
  obtain ⟨-, h⟩ := C20_builtin_tables type hc luma
  obtain ⟨t, ht, hg⟩ := h q
  refine ⟨t, ht, fun k hk => ?_⟩
  rw [hg k hk]
  have hq' : 100 ≤ q.toNat := UInt8.le_iff_toNat_le.mp hq
  have : Spec.ijgPercent q.toNat = 0 := by
    have : Spec.clamp 1 100 q.toNat = 100 := by simp only [Spec.clamp]; omega
    simp [Spec.ijgPercent, this]
  simp [Spec.ijgStep, this, Spec.clamp]

/-- Quality 50 is the base table (limited to 255). -/
theorem C20_quality_50 (type : QuantizationTableType) (hc : ∀ t, type ≠ .custom t) (luma : Bool) :
    ∃ t, QuantizationTable.newWithQuality type 50 luma = .ok t ∧
      ∀ k, k < 64 → t.get k = .ok (min 255 ((Spec.builtinTable luma type).getD k 0)) := by
  obtain ⟨hl, h⟩ := C20_builtin_tables type hc luma
  obtain ⟨t, ht, hg⟩ := h 50
  refine ⟨t, ht, fun k hk => ?_⟩
  rw [hg k hk]
  have pos : ∀ b ∈ Spec.builtinTable luma type, 1 ≤ b := by
    cases type <;> cases luma <;> first | decide | exact absurd rfl (hc _)
  have hb1 : 1 ≤ (Spec.builtinTable luma type).getD k 0 := by
    have : (Spec.builtinTable luma type).getD k 0 ∈ Spec.builtinTable luma type := by simp [List.getD, hl, hk]
    exact pos _ this
  have e : Spec.ijgPercent (UInt8.toNat 50) = 100 := by decide
  simp only [Spec.ijgStep, e, Spec.clamp]
  congr 1
  omega

example : ∃ t, QuantizationTable.newWithQuality .default 75 true = .ok t ∧ t.get 0 = .ok 8 ∧ t.get 63 = .ok 50 := by
  refine ⟨_, newWithQuality_eq _ _ _, ?_, ?_⟩ <;> decide

/-! ### C21 -/

/-- The divisor that is used for coefficient `k` (row order): what quantising multiplies back to. For custom tables it
is the user's value limited to 1..2048. The file entry is that value if it is at most 255. -/
theorem C21_file_entry_custom (t : Vector UInt16 64) (quality : UInt8) (luma : Bool) :
    ∃ q, QuantizationTable.newWithQuality (.custom t) quality.toNat luma = .ok q ∧
      ∀ (k : Nat) (hk : k < 64), q.get k = .ok (max 1 (min 2048 (t[k].toNat)) % 256) ∧
        (t[k].toNat ≤ 255 → q.get k = .ok (max 1 t[k].toNat)) := by
  refine ⟨_, newWithQuality_eq _ _ _, fun k hk => ?_⟩
  have hl : k < (steps (.custom t) quality.toNat luma).length := by rw [steps_length]; exact hk
  have e : (steps (.custom t) quality.toNat luma).getD k 1 = max 1 (min 2048 t[k].toNat) := by
    simp [steps, List.getD, hk, Spec.clamp]
  rw [mkQ_get _ hl, e]
  refine ⟨rfl, fun h => ?_⟩
  congr 1
  omega

/-- FALSE in general: for a custom table with entry 256 the file says 0 (forbidden by T.81), although the
divisor in use is 256; for 300 it says 44. -/
theorem C21_false_above_255 :
    (∃ q, QuantizationTable.newWithQuality (.custom (Vector.replicate 64 256)) 75 true = .ok q ∧ q.get 0 = .ok 0 ∧
      q.quantize ⟨true, 8⟩ 4096 0 = .ok 2) ∧
    (∃ q, QuantizationTable.newWithQuality (.custom (Vector.replicate 64 300)) 75 true = .ok q ∧ q.get 0 = .ok 44) := by
  refine ⟨⟨_, newWithQuality_eq _ _ _, ?_, ?_⟩, ⟨_, newWithQuality_eq _ _ _, ?_⟩⟩ <;> decide

/-! ### C22, C23 -/

/-- For `v` in range, `quantAbs v x = q` confines `x`. -/
theorem quantAbs_bounds {v x : Nat} (h1 : 1 ≤ v) (h2 : v ≤ 2048) :
    quantAbs v x * 32768 ≤ (x + (computeReciprocal (8 * v)).2) * (computeReciprocal (8 * v)).1 ∧
    (x + (computeReciprocal (8 * v)).2) * (computeReciprocal (8 * v)).1 < (quantAbs v x + 1) * 32768 := by
  unfold quantAbs
  constructor
  · exact Nat.div_mul_le_self _ _
  · have := Nat.div_add_mod ((x + (computeReciprocal (8 * v)).2) * (computeReciprocal (8 * v)).1) 32768
    have := Nat.mod_lt ((x + (computeReciprocal (8 * v)).2) * (computeReciprocal (8 * v)).1) (show 32768 > 0 by omega)
    omega

/-- The check for one divisor and one quantised value: the least `x` (at least `lo`) and the greatest `x`
(at most 8192) that can be quantised to `q` are within 2/3 of a step. -/
def checkQ (v r c q : Nat) : Bool :=
  -- greatest x below which the result is < q:  x + c ≥ ceil(q * 32768 / r)
  let lo := (q * 32768 + r - 1) / r - c
  let hi := min 8192 (((q + 1) * 32768 - 1) / r - c)
  decide (8192 < lo) || (decide (3 * (8 * v * q) ≤ 16 * v + 3 * lo) && decide (3 * hi ≤ 16 * v + 3 * (8 * v * q)))

def checkV (v : Nat) : Bool :=
  let rc := computeReciprocal (8 * v)
  decide (0 < rc.1) && (List.range (1024 / v + 3)).all (checkQ v rc.1 rc.2)

def checkAll : Nat → Bool
  | 0 => true
  | n + 1 => checkV (n + 1) && checkAll n

theorem checkAll_ok : checkAll 2048 = true := by decide +kernel

theorem checkAll_spec {n v : Nat} (h : checkAll n = true) (h1 : 1 ≤ v) (h2 : v ≤ n) : checkV v = true := by
  induction n with
  | zero => omega
  | succ n ih =>
    simp only [checkAll, Bool.and_eq_true] at h
    rcases Nat.lt_or_ge v (n + 1) with hlt | hge
    · exact ih h.2 (by omega)
    · have : v = n + 1 := by omega
      rw [this]; exact h.1

theorem quantAbs_error {v x : Nat} (h1 : 1 ≤ v) (h2 : v ≤ 2048) (hx : x ≤ 8192) :
    3 * (8 * v * quantAbs v x) ≤ 16 * v + 3 * x ∧ 3 * x ≤ 16 * v + 3 * (8 * v * quantAbs v x) := by
  have hc := checkAll_spec checkAll_ok h1 h2
  simp only [checkV, Bool.and_eq_true, decide_eq_true_eq] at hc
  obtain ⟨hr, hall⟩ := hc
  obtain ⟨a, b, c⟩ := reciprocal_le h1 h2
  obtain ⟨lo, hi⟩ := quantAbs_bounds (v := v) (x := x) h1 h2
  generalize hrr : (computeReciprocal (8 * v)).1 = r at *
  generalize hcc : (computeReciprocal (8 * v)).2 = k at *
  generalize hqq : quantAbs v x = q at *
  -- q is small enough to be in the checked range
  have hq : q < 1024 / v + 3 := by
    have : q * 32768 * (8 * v) ≤ (x + k) * (32768 + 8 * v) := by
      calc q * 32768 * (8 * v) ≤ (x + k) * r * (8 * v) := Nat.mul_le_mul_right _ lo
        _ = (x + k) * (r * (8 * v)) := by ring
        _ ≤ _ := Nat.mul_le_mul_left _ b
    have hd : v * (1024 / v) + 1024 % v = 1024 := Nat.div_add_mod _ _
    have hm : 1024 % v < v := Nat.mod_lt _ (by omega)
    by_contra hcon
    have hge : 1024 / v + 3 ≤ q := by omega
    have h3 : v * (1024 / v + 3) ≤ v * q := Nat.mul_le_mul_left _ hge
    have h4 : v * q ≥ 1024 + 2 * v := by rw [Nat.mul_add] at h3; omega
    have hxk : x + k ≤ 8192 + 4 * v + 1 := by omega
    have h5 : (x + k) * (32768 + 8 * v) ≤ (8192 + 4 * v + 1) * (32768 + 8 * v) := Nat.mul_le_mul_right _ hxk
    have h6 : q * 32768 * (8 * v) = 262144 * (v * q) := by ring
    nlinarith
  have hk := List.all_eq_true.mp hall q (List.mem_range.mpr hq)
  simp only [checkQ, Bool.and_eq_true, Bool.or_eq_true, decide_eq_true_eq] at hk
  have hlo : (q * 32768 + r - 1) / r ≤ x + k := by
    apply Nat.le_of_lt_succ
    rw [Nat.div_lt_iff_lt_mul hr, Nat.succ_mul]
    omega
  have hhi : x + k ≤ ((q + 1) * 32768 - 1) / r := by
    rw [Nat.le_div_iff_mul_le hr]
    omega
  rcases hk with hk | ⟨k1, k2⟩
  · omega
  · constructor <;> omega

theorem quantOf_natAbs (v : Nat) (x : Int) : (quantOf v x).natAbs = quantAbs v x.natAbs := by
  simp only [quantOf]; split <;> omega

theorem quantOf_error {v : Nat} (h1 : 1 ≤ v) (h2 : v ≤ 2048) {x : Int} (hx : |x| ≤ 8192) :
    |3 * (8 * (v : Int) * quantOf v x) - 3 * x| ≤ 16 * v := by
  have hx' : x.natAbs ≤ 8192 := by
    have := abs_le.mp hx; omega
  obtain ⟨e1, e2⟩ := quantAbs_error h1 h2 hx'
  rw [abs_le]
  simp only [quantOf]
  generalize quantAbs v x.natAbs = qa at *
  zify at e1 e2
  split
  · rename_i hneg
    have : (x.natAbs : Int) = -x := by omega
    simp only [Int.natCast_natAbs] at e1 e2 this
    rw [this] at e1 e2
    constructor <;> nlinarith
  · rename_i hneg
    have : (x.natAbs : Int) = x := by omega
    simp only [Int.natCast_natAbs] at e1 e2 this
    rw [this] at e1 e2
    constructor <;> linarith

/-- Quantisation error. For every table, every position `k` and every coefficient the transform can produce
(`x` is 8 times the coefficient, `|x| ≤ 8192`), quantising succeeds on every platform and the value times the
divisor `v` is within 2/3 of a step of the coefficient. `v` is the entry written to the file (modulo 256), the
user's value limited to 1..2048 for custom tables. -/
theorem C22_error_bound (pf : Platform) (type : QuantizationTableType) (quality : UInt8) (luma : Bool) :
    ∃ q, QuantizationTable.newWithQuality type quality.toNat luma = .ok q ∧
      ∀ k (hk : k < 64), ∃ v : Nat, 1 ≤ v ∧ v ≤ 2048 ∧ q.get k = .ok (v % 256) ∧
        ((∀ t, type ≠ .custom t) → v ≤ 255) ∧ (∀ t, type = .custom t → v = max 1 (min 2048 t[k].toNat)) ∧
        ∀ x : Int, |x| ≤ 8192 → ∃ c : Int, q.quantize pf x k = .ok c ∧
          |(v : ℚ) * c - x / 8| ≤ 2 / 3 * v := by
  refine ⟨_, newWithQuality_eq _ _ _, fun k hk => ?_⟩
  have hl : k < (steps type quality.toNat luma).length := by rw [steps_length]; exact hk
  have hr := steps_range type quality.toNat luma _ (getD_mem hl)
  refine ⟨(steps type quality.toNat luma).getD k 1, hr.1, hr.2, mkQ_get _ hl, ?_, ?_, ?_⟩
  · intro hc
    have hc' : isCustom type = false := by cases type <;> first | rfl | exact absurd rfl (hc _)
    exact (steps_range255 type quality.toNat luma hc' _ (getD_mem hl)).2
  · rintro t rfl
    simp [steps, List.getD, hk, Spec.clamp]
  · intro x hx
    have hx' : x.natAbs ≤ 8192 := by
      have := abs_le.mp hx; omega
    refine ⟨_, quantize_eq pf _ (steps_range type quality.toNat luma) k hl x (by omega), ?_⟩
    generalize hv : (steps type quality.toNat luma).getD k 1 = v at *
    have key := quantOf_error hr.1 hr.2 hx
    have key' : |3 * (8 * (v : ℚ) * quantOf v x) - 3 * x| ≤ 16 * v := by exact_mod_cast key
    rw [abs_le] at key' ⊢
    constructor <;> linarith [key'.1, key'.2]

/-- FALSE: exact nearest rounding. With divisor 5 the coefficient 8181/8 = 1022.6 is quantised to 204 (1020), while
205 (1025) is closer. -/
theorem C22_nearest_false :
    ∃ q, QuantizationTable.newWithQuality (.custom (Vector.replicate 64 5)) 75 true = .ok q ∧ q.get 0 = .ok 5 ∧
      q.quantize ⟨true, 8⟩ 8181 0 = .ok 204 ∧ |(5 : ℚ) * 205 - 8181 / 8| < |(5 : ℚ) * 204 - 8181 / 8| := by
  refine ⟨_, newWithQuality_eq _ _ _, by decide, by decide, ?_⟩
  norm_num [abs_of_pos, abs_of_neg]

theorem quantAbs_pow2 {j x : Nat} (hj : j ≤ 11) : quantAbs (2 ^ j) x = (x + 4 * 2 ^ j) / (8 * 2 ^ j) := by
  have e : ∀ j, j ≤ 11 → computeReciprocal (8 * 2 ^ j) = (4096 / 2 ^ j, 4 * 2 ^ j) ∧
      4096 / 2 ^ j * (8 * 2 ^ j) = 32768 ∧ 0 < 4096 / 2 ^ j := by decide
  obtain ⟨h1, h2, h3⟩ := e j hj
  unfold quantAbs
  rw [h1]
  dsimp only
  rw [← h2, Nat.mul_comm (4096 / 2 ^ j) (8 * 2 ^ j)]
  exact Nat.mul_div_mul_right _ _ h3

theorem quantOf_pow2 {j : Nat} (hj : j ≤ 11) (x : Int) : |8 * (2 ^ j : Int) * quantOf (2 ^ j) x - x| ≤ 4 * 2 ^ j := by
  have hq := quantAbs_pow2 (j := j) (x := x.natAbs) (by omega)
  have hd := Nat.div_add_mod (x.natAbs + 4 * 2 ^ j) (8 * 2 ^ j)
  have hm := Nat.mod_lt (x.natAbs + 4 * 2 ^ j) (show 8 * 2 ^ j > 0 by positivity)
  rw [← hq] at hd
  rw [abs_le]
  simp only [quantOf]
  generalize quantAbs (2 ^ j) x.natAbs = qa at *
  generalize (x.natAbs + 4 * 2 ^ j) % (8 * 2 ^ j) = m at *
  zify at hd hm
  split
  · rename_i hneg
    have : (x.natAbs : Int) = -x := by omega
    simp only [Int.natCast_natAbs] at hd this
    rw [this] at hd
    constructor <;> nlinarith
  · rename_i hneg
    have : (x.natAbs : Int) = x := by omega
    simp only [Int.natCast_natAbs] at hd this
    rw [this] at hd
    constructor <;> nlinarith

/-- Exact nearest rounding when the divisor is a power of two (quality 100: divisor 1; custom tables: up to 2048): the error is at most half
a step. -/
theorem C22_nearest_power_of_two (pf : Platform) (type : QuantizationTableType) (quality : UInt8) (luma : Bool) :
    ∃ q, QuantizationTable.newWithQuality type quality.toNat luma = .ok q ∧
      ∀ k (hk : k < 64), ∃ v : Nat, 1 ≤ v ∧ v ≤ 2048 ∧ q.get k = .ok (v % 256) ∧
        ((∀ t, type ≠ .custom t) → v ≤ 255) ∧ (∀ t, type = .custom t → v = max 1 (min 2048 t[k].toNat)) ∧
        ∀ j, v = 2 ^ j → ∀ x : Int, |x| ≤ 8192 → ∃ c : Int, q.quantize pf x k = .ok c ∧ |(v : ℚ) * c - x / 8| ≤ v / 2 := by
  refine ⟨_, newWithQuality_eq _ _ _, fun k hk => ?_⟩
  have hl : k < (steps type quality.toNat luma).length := by rw [steps_length]; exact hk
  have hr := steps_range type quality.toNat luma _ (getD_mem hl)
  refine ⟨(steps type quality.toNat luma).getD k 1, hr.1, hr.2, mkQ_get _ hl, ?_, ?_, fun j hv x hx => ?_⟩
  · intro hc
    have hc' : isCustom type = false := by cases type <;> first | rfl | exact absurd rfl (hc _)
    exact (steps_range255 type quality.toNat luma hc' _ (getD_mem hl)).2
  · rintro t rfl
    simp [steps, List.getD, hk, Spec.clamp]
  have hx' : x.natAbs ≤ 8192 := by
    have := abs_le.mp hx; omega
  have hj : j ≤ 11 := by
    by_contra hj
    have h1 : 2 ^ 12 ≤ 2 ^ j := Nat.pow_le_pow_right (by omega) (by omega)
    have h2 := hr.2
    rw [hv] at h2
    omega
  refine ⟨_, quantize_eq pf _ (steps_range type quality.toNat luma) k hl x (by omega), ?_⟩
  rw [hv]
  have key := quantOf_pow2 hj x
  have key' : |8 * (2 : ℚ) ^ j * quantOf (2 ^ j) x - x| ≤ 4 * 2 ^ j := by exact_mod_cast key
  push_cast
  rw [abs_le] at key' ⊢
  constructor <;> linarith [key'.1, key'.2]

theorem quantAbs_mono (v : Nat) {x y : Nat} (h : x ≤ y) : quantAbs v x ≤ quantAbs v y :=
  Nat.div_le_div_right (Nat.mul_le_mul_right _ (by omega))

/-- Quantising is odd: `quantize (-x) = - quantize x`, for every 16 bit value, table and platform. -/
theorem C23_odd (pf : Platform) (type : QuantizationTableType) (quality : UInt8) (luma : Bool) :
    ∃ q, QuantizationTable.newWithQuality type quality.toNat luma = .ok q ∧
      ∀ k, k < 64 → ∀ x : Int, -32768 < x → x < 32768 → ∃ c,
        q.quantize pf x k = .ok c ∧ q.quantize pf (-x) k = .ok (-c) := by
  refine ⟨_, newWithQuality_eq _ _ _, fun k hk x h1 h2 => ?_⟩
  have hl : k < (steps type quality.toNat luma).length := by rw [steps_length]; exact hk
  have hr := steps_range type quality.toNat luma _ (getD_mem hl)
  refine ⟨_, quantize_eq pf _ (steps_range type quality.toNat luma) k hl x (by omega), ?_⟩
  rw [quantize_eq pf _ (steps_range type quality.toNat luma) k hl (-x) (by omega)]
  congr 1
  have z : quantAbs ((steps type quality.toNat luma).getD k 1) 0 = 0 := by
    have := (quantAbs_error hr.1 hr.2 (x := 0) (by omega)).1
    by_contra hne
    have : 1 ≤ quantAbs ((steps type quality.toNat luma).getD k 1) 0 := by omega
    nlinarith
  simp only [quantOf, Int.natAbs_neg]
  rcases lt_trichotomy x 0 with h | h | h
  · rw [if_pos h, if_neg (show ¬ -x < 0 by omega)]; omega
  · subst h; simp only [Int.natAbs_zero, z]; simp
  · rw [if_neg (show ¬ x < 0 by omega), if_pos (show -x < 0 by omega)]

/-- Quantising is monotone. -/
theorem C23_monotone (pf : Platform) (type : QuantizationTableType) (quality : UInt8) (luma : Bool) :
    ∃ q, QuantizationTable.newWithQuality type quality.toNat luma = .ok q ∧
      ∀ k, k < 64 → ∀ x y : Int, -32768 ≤ x → x ≤ y → y < 32768 → ∃ c d,
        q.quantize pf x k = .ok c ∧ q.quantize pf y k = .ok d ∧ c ≤ d := by
  refine ⟨_, newWithQuality_eq _ _ _, fun k hk x y h1 h2 h3 => ?_⟩
  have hl : k < (steps type quality.toNat luma).length := by rw [steps_length]; exact hk
  refine ⟨_, _, quantize_eq pf _ (steps_range type quality.toNat luma) k hl x (by omega),
    quantize_eq pf _ (steps_range type quality.toNat luma) k hl y (by omega), ?_⟩
  generalize (steps type quality.toNat luma).getD k 1 = v
  simp only [quantOf]
  split
  · split
    · have := quantAbs_mono v (show y.natAbs ≤ x.natAbs by omega)
      omega
    · omega
  · rw [if_neg (by omega)]
    have := quantAbs_mono v (show x.natAbs ≤ y.natAbs by omega)
    omega

example : ∃ q, QuantizationTable.newWithQuality .default 90 false = .ok q ∧
    q.quantize ⟨true, 4⟩ (-815) 9 = .ok (-25) := by
  refine ⟨_, newWithQuality_eq _ _ _, by decide⟩

end Jpeg
