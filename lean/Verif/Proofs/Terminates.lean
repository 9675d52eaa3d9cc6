import Verif.Proofs.SafeEncode
import Verif.Proofs.OptTables
/-! The blocks of any image are good blocks (for the termination of `optimize_huffman_table`). -/
namespace Jpeg
set_option maxRecDepth 10000

theorem mapR_inv {α β : Type} {f : α → R β} : ∀ {l : List α} {r : List β}, mapR l f = .ok r →
    r.length = l.length ∧ (∀ (i : Nat) (x : α), l[i]? = some x → ∃ y, r[i]? = some y ∧ f x = .ok y) ∧ ∀ y ∈ r, ∃ x ∈ l, f x = .ok y := by
  intro l
  induction l with
  | nil => rintro r h; cases h; simp
  | cons a l ih =>
    intro r h
    unfold mapR at h
    cases ha : f a with
    | error e => rw [ha] at h; cases h
    | ok b =>
      cases hl : mapR l f with
      | error e => rw [ha, hl] at h; cases h
      | ok bs =>
        rw [ha, hl] at h
        cases h
        obtain ⟨h1, h2, h3⟩ := ih hl
        refine ⟨by simp [h1], ?_, ?_⟩
        · rintro (_ | i) x hx
          · cases hx; exact ⟨b, rfl, ha⟩
          · exact h2 i x (by simpa using hx)
        · intro y hy
          rcases List.mem_cons.mp hy with rfl | hy
          · exact ⟨a, by simp, ha⟩
          · obtain ⟨x, hx, hxy⟩ := h3 y hy
            exact ⟨x, by simp [hx], hxy⟩

theorem getBlock_shifted {pf : Platform} {data : Bytes} {a b c d w : Nat} {samples : List Int} (h : getBlock pf data a b c d w = .ok samples) :
    samples.length = 64 ∧ Shifted samples := by
  obtain ⟨h1, -, h3⟩ := mapR_inv h
  refine ⟨by simpa using h1, ?_⟩
  intro v hv
  obtain ⟨x, -, hx⟩ := h3 v hv
  obtain ⟨_, -, hx⟩ := bind_inv hx
  obtain ⟨_, -, hx⟩ := bind_inv hx
  obtain ⟨_, -, hx⟩ := bind_inv hx
  obtain ⟨_, -, hx⟩ := bind_inv hx
  obtain ⟨u, -, hx⟩ := bind_inv hx
  have := u.toNat_lt
  unfold ckI at hx
  rw [if_pos (by norm_num; omega)] at hx
  cases hx
  omega

theorem processBlock_good {pf : Platform} {op : Operations} {F : List Int → List Int} (hop : OpOk op F) {s0 s1 : List Nat}
    (hl0 : s0.length = 64) (hl1 : s1.length = 64) (hs0 : ∀ v ∈ s0, 1 ≤ v ∧ v ≤ 2048) (hs1 : ∀ v ∈ s1, 1 ≤ v ∧ v ≤ 2048)
    {comp : Component} (hq : comp.quantizationTable < 2) {data : Bytes} {sx0 sy0 cs rs bw : Nat} {block : List Int}
    (h : processBlock pf op (mkQ s0, mkQ s1) comp data sx0 sy0 cs rs bw = .ok block) : GoodBlock block := by
  cases hg : getBlock pf data sx0 sy0 cs rs bw with
  | error e => unfold processBlock at h; rw [hg] at h; cases h
  | ok samples =>
    obtain ⟨h64, hsh⟩ := getBlock_shifted hg
    rw [processBlock_ok pf hop hl0 hl1 hs0 hs1 hq hg h64 hsh] at h
    cases h
    have := coef_bounds hop (steps := if comp.quantizationTable = 0 then s0 else s1) (by split <;> assumption) (by split <;> assumption) h64 hsh
    exact ⟨coefBlock_length _ _ _, this.1, this.2⟩

theorem flatten_length_eq {α : Type} {l : List (List α)} {n : Nat} (h : ∀ x ∈ l, x.length = n) : l.flatten.length = l.length * n := by
  induction l with
  | nil => simp
  | cons a l ih =>
    rw [List.flatten_cons, List.length_append, ih (fun x hx => h x (by simp [hx])), h a (by simp), List.length_cons]
    ring

theorem componentBlocks_good {pf : Platform} {op : Operations} {F : List Int → List Int} (hop : OpOk op F) {s0 s1 : List Nat}
    (hl0 : s0.length = 64) (hl1 : s1.length = 64) (hs0 : ∀ v ∈ s0, 1 ≤ v ∧ v ≤ 2048) (hs1 : ∀ v ∈ s1, 1 ≤ v ∧ v ≤ 2048)
    {rows : Rows} {mh mv numCols numRows bw : Nat} {ci : Component × Nat} (hq : ci.1.quantizationTable < 2) {bs : List (List Int)}
    (hmh : 1 ≤ ci.1.horizontalSamplingFactor ∧ ci.1.horizontalSamplingFactor ≤ mh) (hmv : 1 ≤ ci.1.verticalSamplingFactor ∧ ci.1.verticalSamplingFactor ≤ mv)
    (hc : 1 ≤ numCols) (hr : 1 ≤ numRows)
    (h : componentBlocks pf op (mkQ s0, mkQ s1) rows mh mv numCols numRows bw ci = .ok bs) :
    bs ≠ [] ∧ (∀ b ∈ bs, GoodBlock b) ∧ bs.length ≤ numRows * numCols := by
  unfold componentBlocks at h
  obtain ⟨hS, e1, h⟩ := bind_inv h
  obtain ⟨vS, e2, h⟩ := bind_inv h
  obtain ⟨cols, e3, h⟩ := bind_inv h
  obtain ⟨rws, e4, h⟩ := bind_inv h
  obtain ⟨_, -, h⟩ := bind_inv h
  obtain ⟨_, -, h⟩ := bind_inv h
  obtain ⟨bss, e5, h⟩ := bind_inv h
  cases h
  have hdiv : ∀ {a b c : Nat}, 1 ≤ b ∧ b ≤ a → divR a b = .ok c → 1 ≤ c := by
    intro a b c hb h
    unfold divR at h
    rw [if_neg (by omega)] at h
    cases h
    exact (Nat.le_div_iff_mul_le (by omega)).mpr (by omega)
  have hceil : ∀ {a b c : Nat}, 1 ≤ a → 1 ≤ b → ceilDiv a b = .ok c → 1 ≤ c ∧ c ≤ a := by
    intro a b c ha hb h
    rw [ceilDiv_eq (by omega)] at h
    cases h
    constructor
    · exact (Nat.le_div_iff_mul_le (by omega)).mpr (by omega)
    · refine Nat.le_of_lt_succ ((Nat.div_lt_iff_lt_mul (by omega)).mpr ?_)
      have := Nat.le_mul_of_pos_right a hb
      rw [Nat.succ_mul]
      omega
  have hc' := hceil hc (hdiv hmh e1) e3
  have hr' := hceil hr (hdiv hmv e2) e4
  obtain ⟨h1, h2, h3⟩ := mapR_inv e5
  have hlen : bss.flatten.length = rws * cols := by
    rw [flatten_length_eq (n := cols), h1, List.length_range]
    intro x hx
    obtain ⟨y, -, hy⟩ := h3 x hx
    rw [(mapR_inv hy).1, List.length_range]
  refine ⟨?_, ?_, ?_⟩
  · intro h
    rw [h] at hlen
    have : 1 ≤ rws * cols := Nat.mul_pos hr'.1 hc'.1
    simp at hlen
    omega
  · intro b hb
    obtain ⟨x, hx, hbx⟩ := List.mem_flatten.mp hb
    obtain ⟨y, -, hy⟩ := h3 x hx
    obtain ⟨z, -, hz⟩ := (mapR_inv hy).2.2 b hbx
    obtain ⟨row, -, hz⟩ := bind_inv hz
    exact processBlock_good hop hl0 hl1 hs0 hs1 hq hz
  · rw [hlen]
    exact Nat.mul_le_mul hr'.2 hc'.2

/-- Whatever the image buffer delivers, the blocks are good, and there are not too many of them. -/
theorem encodeBlocks_good {pf : Platform} {op : Operations} {F : List Int → List Int} (hop : OpOk op F) {s0 s1 : List Nat}
    (hl0 : s0.length = 64) (hl1 : s1.length = 64) (hs0 : ∀ v ∈ s0, 1 ≤ v ∧ v ≤ 2048) (hs1 : ∀ v ∈ s1, 1 ≤ v ∧ v ≤ 2048)
    {image : ImageBuffer} (hw : image.width ≠ 0) (hh : image.height ≠ 0) {e : Encoder} {mh mv : Nat} (hg : Grid e.components mh mv)
    (hq : ∀ c ∈ e.components, c.quantizationTable < 2) {b : Blocks} (h : encodeBlocks pf e op image (mkQ s0, mkQ s1) = .ok b) :
    ∀ ci ∈ e.components.zipIdx, ∃ bs, b[ci.2]? = some bs ∧ bs ≠ [] ∧ (∀ x ∈ bs, GoodBlock x) ∧
      bs.length ≤ _root_.Spec.ceilDiv image.height.toNat 8 * _root_.Spec.ceilDiv image.width.toNat 8 := by
  have hw' : image.width.toNat ≠ 0 := fun h => hw (UInt16.toNat_inj.mp (by simpa using h))
  have hh' : image.height.toNat ≠ 0 := fun h => hh (UInt16.toNat_inj.mp (by simpa using h))
  unfold encodeBlocks at h
  rw [hg.max] at h
  dsimp only at h
  obtain ⟨_, -, h⟩ := bind_inv h
  obtain ⟨_, -, h⟩ := bind_inv h
  obtain ⟨_, -, h⟩ := bind_inv h
  obtain ⟨_, -, h⟩ := bind_inv h
  obtain ⟨_, -, h⟩ := bind_inv h
  obtain ⟨_, -, h⟩ := bind_inv h
  obtain ⟨_, -, h⟩ := bind_inv h
  obtain ⟨_, -, h⟩ := bind_inv h
  obtain ⟨_, -, h⟩ := bind_inv h
  obtain ⟨_, -, h⟩ := bind_inv h
  obtain ⟨_, -, h⟩ := bind_inv h
  obtain ⟨_, e1, h⟩ := bind_inv h
  obtain ⟨_, e2, h⟩ := bind_inv h
  obtain ⟨_, -, h⟩ := bind_inv h
  obtain ⟨_, -, h⟩ := bind_inv h
  obtain ⟨_, -, h⟩ := bind_inv h
  rw [ceilDiv_eq (by omega)] at e1 e2
  cases e1
  cases e2
  obtain ⟨h1, h2, -⟩ := mapR_inv h
  rintro ⟨c, i⟩ hci
  have hc := List.mem_zipIdx_iff_getElem?.mp hci
  have hcm : c ∈ e.components := List.mem_of_getElem? hc
  obtain ⟨bs, hbs, hr⟩ := h2 i (c, i) (by rw [List.getElem?_zipIdx, hc]; simp)
  have k1 := hg.mh
  have k2 := hg.mv
  refine ⟨bs, hbs, componentBlocks_good hop hl0 hl1 hs0 hs1 (hq c hcm) ?_ ?_ ?_ ?_ hr⟩
  · rcases hg.h c hcm with h | h <;> dsimp only <;> omega
  · rcases hg.v c hcm with h | h <;> dsimp only <;> omega
  · show 1 ≤ (image.width.toNat + 8 - 1) / 8
    omega
  · show 1 ≤ (image.height.toNat + 8 - 1) / 8
    omega

section
variable {A : Fail → Prop} (hA : Lax A) {pf : Platform} (hpf : pf.Valid)
include hA

omit hpf in
theorem countBits_only (l b : List Nat) : ROnly A (countBits pf l b) := by
  induction l generalizing b with
  | nil => unfold countBits; only
  | cons x l ih =>
    unfold countBits
    repeat (first | with_reducible exact ih _ | with_reducible intro _ | only_step)

omit hpf in
theorem assertBind {β : Type} {c : Bool} {m : R β} (h : ROnly A m) : ROnly A (assert' c >>= fun _ => m) := (assert'_only hA c).bind fun _ => h

end

end Jpeg
