import Verif.Proofs.Decode
/-! Which scans a file has, and which data units T.81 assigns to them. -/
namespace Jpeg
open _root_.Spec

/-! ### Layout of the data units -/

theorem foldl_max_frame (cs : List Component) (prog : Bool) (w h : UInt16) :
    (mkFrame prog w h cs).hmax = (cs.map (·.horizontalSamplingFactor)).foldl Nat.max 0 ∧
      (mkFrame prog w h cs).vmax = (cs.map (·.verticalSamplingFactor)).foldl Nat.max 0 := by
  constructor
  · simp only [Frame.hmax, mkFrame, List.map_map, Function.comp_def, Component.frame]
  · simp only [Frame.vmax, mkFrame, List.map_map, Function.comp_def, Component.frame]

theorem ceil_nblk {w k m : Nat} (hm : 1 ≤ m ∧ m ≤ 4) (hk : k = 1 ∨ k = m) : Spec.ceilDiv (Spec.ceilDiv (w * k) m) 8 = nblk w (m / k) := by
  unfold nblk Spec.ceilDiv
  rcases hk with rfl | rfl
  · rcases (show m = 1 ∨ m = 2 ∨ m = 3 ∨ m = 4 by omega) with rfl | rfl | rfl | rfl <;> omega
  · rw [Nat.div_self (by omega)]
    rcases (show k = 1 ∨ k = 2 ∨ k = 3 ∨ k = 4 by omega) with rfl | rfl | rfl | rfl <;> omega

section
variable {cs : List Component} {mh mv : Nat} (hg : Grid cs mh mv) (prog : Bool) (w h : UInt16)
include hg

theorem frame_hmax : (mkFrame prog w h cs).hmax = mh := by rw [(foldl_max_frame cs prog w h).1, hg.hmax]
theorem frame_vmax : (mkFrame prog w h cs).vmax = mv := by rw [(foldl_max_frame cs prog w h).2, hg.vmax]

theorem blocksWide_eq {c : Component} (hc : c ∈ cs) :
    (mkFrame prog w h cs).blocksWide c.frame = nblk w.toNat (mh / c.horizontalSamplingFactor) := by
  unfold Frame.blocksWide
  rw [frame_hmax hg]
  exact ceil_nblk hg.mh (hg.h c hc)

theorem blocksHigh_eq {c : Component} (hc : c ∈ cs) :
    (mkFrame prog w h cs).blocksHigh c.frame = nblk h.toNat (mv / c.verticalSamplingFactor) := by
  unfold Frame.blocksHigh
  rw [frame_vmax hg]
  exact ceil_nblk hg.mv (hg.v c hc)

theorem layout_single {c : Component} (hc : c ∈ cs) :
    layout (mkFrame prog w h cs) [c.frame] = (raster (nblk h.toNat (mv / c.verticalSamplingFactor))
      (nblk w.toNat (mh / c.horizontalSamplingFactor))).map unit1 := by
  simp only [layout, layoutSingle]
  rw [blocksWide_eq hg prog w h hc, blocksHigh_eq hg prog w h hc]
  rfl

theorem layout_all (hone : cs.length = 1 → mh = 1 ∧ mv = 1) :
    layout (mkFrame prog w h cs) (cs.map Component.frame) =
      (raster (Spec.ceilDiv h.toNat (8 * mv)) (Spec.ceilDiv w.toNat (8 * mh))).map (mcuUnits cs) := by
  by_cases h1 : cs.length = 1
  · obtain ⟨c, rfl⟩ := List.length_eq_one_iff.mp h1
    obtain ⟨rfl, rfl⟩ := hone rfl
    have e1 : c.horizontalSamplingFactor = 1 := by simpa using hg.h c (by simp)
    have e2 : c.verticalSamplingFactor = 1 := by simpa using hg.v c (by simp)
    rw [List.map_singleton, layout_single hg prog w h (by simp), e1, e2]
    simp only [nblk, Nat.div_self (Nat.lt_succ_self 0), Nat.mul_one]
    have : ∀ n, Spec.ceilDiv (Spec.ceilDiv n 8) 1 = Spec.ceilDiv n 8 := fun n => by unfold Spec.ceilDiv; omega
    rw [this, this]
    apply List.map_congr_left
    intro p _
    simp [mcuUnits, unit1, e1, e2]
  · have e : layout (mkFrame prog w h cs) (cs.map Component.frame) = layoutInterleaved (mkFrame prog w h cs) (cs.map Component.frame) := by
      unfold layout
      split
      · rename_i c hc
        have := congrArg List.length hc
        simp at this
        omega
      · rfl
    rw [e, layoutInterleaved, Frame.mcusWide, Frame.mcusHigh, frame_hmax hg, frame_vmax hg]
    apply List.map_congr_left
    intro p _
    exact (mcuUnits_eq cs p).symm

end

/-! ### The scans -/

/-- The band of AC scan `s` of `m`: from the first value up to but not including the second. -/
def band (m s : Nat) : Nat × Nat := (max (s * (64 / m)) 1, if s = m - 1 then 64 else (s + 1) * (64 / m))

/-- All bands for `n` scans. -/
def bandList (n : Nat) : List (Nat × Nat) := (List.range (n - 1)).map (band (n - 1))

theorem acBands_ok {pf : Platform} (hpf : pf.Valid) {n : Nat} (h2 : 2 ≤ n) (h64 : n ≤ 64) : acBands pf n = .ok (bandList n) := by
  unfold acBands
  rw [show ckUsize pf ((n : Int) - 1) = .ok (n - 1) from ?_, ok_bind]
  · unfold divR
    rw [if_neg (by omega), ok_bind]
    rfl
  · rw [ckUsize_ok hpf (by omega) (by omega)]
    congr 1
    omega

theorem band_ok {m s : Nat} (h1 : 1 ≤ m) (h63 : m ≤ 63) (hs : s < m) :
    1 ≤ (band m s).1 ∧ (band m s).1 ≤ (band m s).2 ∧ (band m s).2 ≤ 64 ∧ (m ≤ 32 → (band m s).1 < (band m s).2) := by
  have hp : 1 ≤ 64 / m := (Nat.le_div_iff_mul_le (by omega)).mpr (by omega)
  have hle : m * (64 / m) ≤ 64 := Nat.mul_div_le 64 m
  have hp2 : m ≤ 32 → 2 ≤ 64 / m := fun h => (Nat.le_div_iff_mul_le (by omega)).mpr (by omega)
  unfold band
  generalize 64 / m = p at *
  have h3 : (s + 1) * p ≤ m * p := Nat.mul_le_mul_right p hs
  have h4 : (s + 1) * p = s * p + p := by ring
  have h5 : 1 ≤ s → p ≤ s * p := fun h => Nat.le_mul_of_pos_left p h
  refine ⟨le_max_right _ _, ?_, ?_, ?_⟩
  · dsimp only; split
    · omega
    · omega
  · dsimp only; split <;> omega
  · intro hm
    have := hp2 hm
    dsimp only
    split
    · omega
    · rcases Nat.eq_zero_or_pos s with rfl | hs0
      · simp; omega
      · have := h5 hs0; omega

/-- Bands follow one another. -/
theorem band_lt {m s s' : Nat} (h1 : 1 ≤ m) (hs : s < s') (hs' : s' < m) : (band m s).2 ≤ (band m s').1 := by
  unfold band
  dsimp only
  rw [if_neg (by omega)]
  have : (s + 1) * (64 / m) ≤ s' * (64 / m) := Nat.mul_le_mul_right _ hs
  omega

/-- Every AC coefficient is in a band. -/
theorem band_cover {m k : Nat} (h1 : 1 ≤ m) (h63 : m ≤ 63) (hk : 1 ≤ k) (hk64 : k < 64) :
    ∃ s, s < m ∧ (band m s).1 ≤ k ∧ k < (band m s).2 := by
  have hp : 1 ≤ 64 / m := (Nat.le_div_iff_mul_le (by omega)).mpr (by omega)
  unfold band
  generalize 64 / m = p at *
  by_cases h : k / p < m - 1
  · refine ⟨k / p, by omega, ?_, ?_⟩
    · have := Nat.div_mul_le_self k p
      dsimp only; omega
    · dsimp only
      rw [if_neg (by omega)]
      have := Nat.lt_div_mul_add (a := k) (b := p) (by omega)
      have h4 : (k / p + 1) * p = k / p * p + p := by ring
      omega
  · refine ⟨m - 1, by omega, ?_, ?_⟩
    · have h1 : (m - 1) * p ≤ k / p * p := Nat.mul_le_mul_right p (by omega)
      have := Nat.div_mul_le_self k p
      dsimp only; omega
    · dsimp only; rw [if_pos rfl]; exact hk64

/-- How an encoder codes the coefficients. -/
inductive Mode where
  | interleaved
  | sequential
  | progressive (scans : Nat)

def Encoder.mode (e : Encoder) : Mode :=
  match e.progressiveScans with
  | some n => .progressive n.toNat
  | none => if e.optimizeHuffmanTable || !e.samplingFactor.supportsInterleaved then .sequential else .interleaved

def Mode.isProg : Mode → Bool
  | .progressive _ => true
  | _ => false

/-- The scans of a file. -/
def Mode.scans (cs : List Component) : Mode → List ScanDesc
  | .interleaved => [⟨cs, 0, 63⟩]
  | .sequential => cs.map fun c => ⟨[c], 0, 63⟩
  | .progressive n => cs.map (fun c => ⟨[c], 0, 0⟩) ++ (bandList n).flatMap fun b => cs.map fun c => ⟨[c], b.1, b.2 - 1⟩

/-- The scan counts the decoder admits: the strict one wants non-empty bands. -/
def Mode.Ok (strict : Bool) (cs : List Component) : Mode → Prop
  | .interleaved => cs.length > 1 → (cs.map fun c => c.horizontalSamplingFactor * c.verticalSamplingFactor).sum ≤ 10
  | .sequential => True
  | .progressive n => 2 ≤ n ∧ n ≤ 64 ∧ (strict = true → n ≤ 33)

theorem scansOk_append {strict prog : Bool} {cs : List Component} (l1 l2 done : List ScanDesc)
    (h1 : ScansOk strict prog cs done l1) (h2 : ScansOk strict prog cs (done ++ l1) l2) : ScansOk strict prog cs done (l1 ++ l2) := by
  induction l1 generalizing done with
  | nil => simpa using h2
  | cons a l ih =>
    obtain ⟨x, y, z, t⟩ := h1
    exact ⟨x, y, z, ih (done ++ [a]) t (by simpa using h2)⟩

/-- Scans which code disjoint sets of coefficients. -/
def Disj (a b : ScanDesc) : Prop := ∀ c k, a.covers c k = true → b.covers c k = false

theorem scansOk_of {strict prog : Bool} {cs : List Component} (l done : List ScanDesc) (h1 : ∀ sd ∈ l, sd.Ok strict prog cs)
    (h2 : ∀ sd ∈ l, ∀ x ∈ done, Disj sd x) (h3 : l.Pairwise fun a b => Disj b a)
    (h4 : ∀ sd ∈ l, sd.ss > 0 → ∀ c ∈ sd.cs, done.any (·.covers c.id 0) = true) : ScansOk strict prog cs done l := by
  induction l generalizing done with
  | nil => trivial
  | cons a l ih =>
    rw [List.pairwise_cons] at h3
    refine ⟨h1 a (by simp), ?_, h4 a (by simp), ih (done ++ [a]) (fun s hs => h1 s (by simp [hs])) ?_ h3.2 ?_⟩
    · intro c k hck
      rw [List.any_eq_false]
      intro x hx
      rw [h2 a (by simp) x hx c k hck]
      simp
    · intro s hs x hx
      rcases List.mem_append.mp hx with hx | hx
      · exact h2 s (by simp [hs]) x hx
      · rw [List.mem_singleton] at hx
        subst hx
        exact h3.1 s hs
    · intro s hs h0 c hc
      rw [List.any_append, h4 s (by simp [hs]) h0 c hc]
      rfl

theorem covers_single (c : Component) (ss se i k : Nat) : (ScanDesc.mk [c] ss se).covers i k = true ↔ c.id = i ∧ ss ≤ k ∧ k ≤ se := by
  simp [ScanDesc.covers]

theorem disj_single {c c' : Component} {a b a' b' : Nat} (h : c.id ≠ c'.id ∨ b < a' ∨ b' < a) :
    Disj ⟨[c], a, b⟩ ⟨[c'], a', b'⟩ := by
  intro i k h1
  rw [← Bool.not_eq_true, covers_single]
  rw [covers_single] at h1
  omega

theorem CompsOk.ids_pairwise {cs : List Component} (h : CompsOk cs) : cs.Pairwise fun a b => a.id < b.id := by
  have := h.map_id
  rw [← List.pairwise_map (f := fun c : Component => c.id) (R := (· < ·)), this]
  exact List.pairwise_lt_range

theorem Mode.scansOk {strict : Bool} {cs : List Component} (hcs : CompsOk cs) {m : Mode} (hm : m.Ok strict cs) :
    ScansOk strict m.isProg cs [] (m.scans cs) := by
  have hpw := hcs.ids_pairwise
  have single : ∀ prog c ss se, c ∈ cs → (if prog then ((ss = 0 ∧ se = 0) ∨
      (1 ≤ ss ∧ (ss ≤ se ∨ (strict = false ∧ ss = se + 1)) ∧ se ≤ 63)) else ss = 0 ∧ se = 63) →
      (ScanDesc.mk [c] ss se).Ok strict prog cs := by
    intro prog c ss se hc hb
    refine ⟨by simpa using hc, by simp, by simp, by simp, by simp, ?_⟩
    cases prog
    · simpa using hb
    · simpa using hb
  cases m with
  | interleaved =>
    refine ⟨⟨fun _ h => h, hcs.one, hcs.four, ?_, hm, ?_⟩, by simp, by simp, trivial⟩
    · dsimp only
      rw [hcs.map_id]; exact List.pairwise_lt_range
    · simp [Mode.isProg]
  | sequential =>
    refine scansOk_of _ _ ?_ (by simp) ?_ ?_
    · intro sd hsd
      obtain ⟨c, hc, rfl⟩ := List.mem_map.mp hsd
      exact single false c 0 63 hc (by simp)
    · simp only [Mode.scans]
      rw [List.pairwise_map]
      exact hpw.imp fun h => disj_single (by omega)
    · intro sd hsd
      obtain ⟨c, hc, rfl⟩ := List.mem_map.mp hsd
      intro h; exact absurd h (by simp)
  | progressive n =>
    obtain ⟨h2, h64, hst⟩ := hm
    have hmemb : ∀ b ∈ bandList n, ∃ s, s < n - 1 ∧ b = band (n - 1) s := by
      intro b hb
      obtain ⟨s, hs, rfl⟩ := List.mem_map.mp hb
      exact ⟨s, List.mem_range.mp hs, rfl⟩
    refine scansOk_append _ _ _ ?_ ?_
    · refine scansOk_of _ _ ?_ (by simp) ?_ ?_
      · intro sd hsd
        obtain ⟨c, hc, rfl⟩ := List.mem_map.mp hsd
        exact single true c 0 0 hc (by simp)
      · rw [List.pairwise_map]
        exact hpw.imp fun h => disj_single (by omega)
      · intro sd hsd
        obtain ⟨c, hc, rfl⟩ := List.mem_map.mp hsd
        intro h; exact absurd h (by simp)
    · have hac : ∀ sd ∈ (bandList n).flatMap fun b => cs.map fun c => (⟨[c], b.1, b.2 - 1⟩ : ScanDesc),
          ∃ s c, s < n - 1 ∧ c ∈ cs ∧ sd = ⟨[c], (band (n - 1) s).1, (band (n - 1) s).2 - 1⟩ := by
        intro sd hsd
        obtain ⟨b, hb, hx⟩ := List.mem_flatMap.mp hsd
        obtain ⟨c, hc, rfl⟩ := List.mem_map.mp hx
        obtain ⟨s, hs, rfl⟩ := hmemb b hb
        exact ⟨s, c, hs, hc, rfl⟩
      refine scansOk_of _ _ ?_ ?_ ?_ ?_
      · intro sd hsd
        obtain ⟨s, c, hs, hc, rfl⟩ := hac sd hsd
        obtain ⟨b1, b2, b3, b4⟩ := band_ok (m := n - 1) (by omega) (by omega) hs
        refine single true c _ _ hc ?_
        rw [if_pos rfl]
        refine Or.inr ⟨b1, ?_, by omega⟩
        cases strict
        · by_cases he : (band (n - 1) s).1 < (band (n - 1) s).2
          · left; omega
          · right; exact ⟨rfl, by omega⟩
        · have := b4 (by have := hst rfl; omega)
          left; omega
      · intro sd hsd x hx
        obtain ⟨s, c, hs, hc, rfl⟩ := hac sd hsd
        obtain ⟨b1, b2, b3, b4⟩ := band_ok (m := n - 1) (by omega) (by omega) hs
        simp only [List.nil_append, List.mem_map] at hx
        obtain ⟨c', hc', rfl⟩ := hx
        exact disj_single (by omega)
      · rw [List.pairwise_flatMap]
        constructor
        · intro b _
          rw [List.pairwise_map]
          exact hpw.imp fun h => disj_single (by omega)
        · rw [bandList, List.pairwise_map]
          refine (List.pairwise_lt_range (n := n - 1)).imp_of_mem ?_
          intro s s' hs hs' hlt x hx y hy
          obtain ⟨c, hc, rfl⟩ := List.mem_map.mp hx
          obtain ⟨c', hc', rfl⟩ := List.mem_map.mp hy
          have h1 := band_lt (m := n - 1) (by omega) hlt (List.mem_range.mp hs')
          obtain ⟨b1, b2, _, _⟩ := band_ok (m := n - 1) (by omega) (by omega) (List.mem_range.mp hs)
          exact disj_single (by omega)
      · intro sd hsd _ c hc
        obtain ⟨s, c', hs, hc', rfl⟩ := hac sd hsd
        simp only [List.mem_singleton] at hc
        subst hc
        rw [List.any_eq_true]
        refine ⟨⟨[c], 0, 0⟩, ?_, ?_⟩
        · simp only [List.nil_append, List.mem_map]
          exact ⟨c, hc', rfl⟩
        · rw [covers_single]; simp

/-- A scan for every coefficient. -/
theorem Mode.scans_cover {strict : Bool} {cs : List Component} {m : Mode} (hm : m.Ok strict cs) {c : Component}
    (hc : c ∈ cs) {k : Nat} (hk : k < 64) : ∃ sd ∈ m.scans cs, c ∈ sd.cs ∧ sd.ss ≤ k ∧ k ≤ sd.se ∧ (sd.cs = [c] ∨ sd.cs = cs) := by
  cases m with
  | interleaved => exact ⟨_, List.mem_singleton.mpr rfl, hc, by simp, by simp; omega, Or.inr rfl⟩
  | sequential => exact ⟨_, List.mem_map.mpr ⟨c, hc, rfl⟩, by simp, by simp, by simp; omega, Or.inl rfl⟩
  | progressive n =>
    obtain ⟨h2, h64, _⟩ := hm
    simp only [Mode.scans, List.mem_append]
    rcases Nat.eq_zero_or_pos k with rfl | hk0
    · exact ⟨_, Or.inl (List.mem_map.mpr ⟨c, hc, rfl⟩), by simp, by simp, by simp, Or.inl rfl⟩
    · obtain ⟨s, hs, h1, h3⟩ := band_cover (m := n - 1) (by omega) (by omega) hk0 hk
      refine ⟨⟨[c], (band (n - 1) s).1, (band (n - 1) s).2 - 1⟩, Or.inr ?_, by simp, h1, by simp; omega, Or.inl rfl⟩
      exact List.mem_flatMap.mpr ⟨_, List.mem_map.mpr ⟨s, List.mem_range.mpr hs, rfl⟩, List.mem_map.mpr ⟨c, hc, rfl⟩⟩

theorem scans_se {strict : Bool} {cs : List Component} (hcs : CompsOk cs) {m : Mode} (hm : m.Ok strict cs) :
    ∀ sd ∈ m.scans cs, sd.se ≤ 63 := by
  have key : ∀ l done, ScansOk strict m.isProg cs done l → ∀ sd ∈ l, sd.se ≤ 63 := by
    intro l
    induction l with
    | nil => simp
    | cons a l ih =>
      rintro done ⟨h1, _, _, h4⟩ sd hsd
      rcases List.mem_cons.mp hsd with rfl | h
      · have := h1.band
        split at this
        · omega
        · omega
      · exact ih _ h4 sd h
  exact key _ _ (Mode.scansOk hcs hm)

end Jpeg
