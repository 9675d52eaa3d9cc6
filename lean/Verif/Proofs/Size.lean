import Verif.Proofs.Final
import Verif.Proofs.Markers
import Verif.Proofs.Stats
/-! The size of a file. -/
namespace Jpeg
open _root_.Spec

theorem toBits_len (n v : Nat) : (toBits n v).length = n := by
  simp [toBits]

theorem codeBits_len {t : HuffmanTable} (h : TableOk t) (v : Nat) : (t.codeBits v).length ≤ 16 := by
  unfold HuffmanTable.codeBits
  cases hl : t.lookup[v]? with
  | none => simp
  | some p =>
    obtain ⟨s, c⟩ := p
    simp only [toBits_len]
    by_cases hv : v ∈ t.values
    · obtain ⟨j, hj⟩ := List.mem_iff_getElem?.mp hv
      rw [h.code j v hj] at hl
      exact (h.wf.code_bounds _ (List.mem_of_getElem? hl)).2.1
    · have hv256 : v < 256 := by
        have := (List.getElem?_eq_some_iff.mp hl).1
        rw [h.len] at this
        exact this
      rw [h.none v hv256 hv] at hl
      cases hl
      omega

theorem tok_len {t : HuffmanTable} (h : TableOk t) (k : Tok) : (k.bits t).length ≤ 16 + k.size := by
  unfold Tok.bits
  rw [List.length_append, toBits_len]
  have := codeBits_len h k.sym
  omega

theorem acToks_len {t : HuffmanTable} (h : TableOk t) (l : List Int) (hl : ∀ v ∈ l, v.natAbs ≤ 1023) (z : Nat) :
    (toksBits t (acToks l z)).length ≤ 26 * l.length + 16 * (z / 16) + (if z > 0 then 16 else 0) := by
  induction l generalizing z with
  | nil =>
    unfold acToks
    split
    · have := tok_len h EOB
      rw [toksBits_cons, toksBits_nil, List.append_nil]
      simp only [EOB] at *
      omega
    · simp
  | cons v vs ih =>
    have ih := ih fun v hv => hl v (by simp [hv])
    unfold acToks
    rw [List.length_cons]
    split
    · have := ih (z + 1)
      rw [if_pos (by omega)] at this
      split <;> omega
    · rw [toksBits_append, toksBits_cons, List.length_append, List.length_append]
      have h1 := ih 0
      rw [if_neg (by omega)] at h1
      have h2 : ∀ n, (toksBits t (List.replicate n ZRL)).length ≤ 16 * n := by
        intro n
        induction n with
        | zero => simp
        | succ n ihn =>
          rw [List.replicate_succ, toksBits_cons, List.length_append]
          have := tok_len h ZRL
          simp only [ZRL] at *
          omega
      have h3 := h2 (z / 16)
      have h4 := tok_len h (coefTok (z % 16) v)
      have h5 : catOf v ≤ 10 := catOf_le (by have := hl v (by simp); omega)
      simp only [coefTok] at *
      omega

namespace Coder
variable (C : Coder)

/-- The most bits of a data unit. -/
def width : Nat := (if C.ss = 0 then 27 else 0) + 26 * C.n

theorem unitBits_len {u : DataUnit} {p : Nat → Int} (h : C.UnitOk u p) : (C.unitBits u p).length ≤ C.width := by
  unfold unitBits width
  rw [List.length_append]
  have h1 : (toksBits (C.acT u.1) (acToks (C.band u) 0)).length ≤ 26 * C.n := by
    have hb : (C.band u).length = C.n := by simp [band]
    by_cases hn : C.n = 0
    · rw [hn] at hb
      rw [List.eq_nil_of_length_eq_zero hb]
      simp [acToks]
    · have := acToks_len (h.acOk hn) (C.band u) h.bandLe 0
      rw [hb] at this
      simpa using this
  split
  · rename_i hs
    have h2 := tok_len (h.dcOk hs) (dcTok (C.dc u - p u.1))
    have h3 : catOf (C.dc u - p u.1) ≤ 11 := catOf_le (by have := h.diff hs; omega)
    simp only [dcTok] at *
    omega
  · simp only [List.length_nil]; omega

theorem unitsBits_len (us : List DataUnit) (p : Nat → Int) (h : C.UnitsOk us p) : (C.unitsBits us p).length ≤ C.width * us.length := by
  induction us generalizing p with
  | nil => simp [unitsBits]
  | cons u us ih =>
    obtain ⟨h1, h2⟩ := h
    rw [unitsBits, List.length_append, List.length_cons]
    have := C.unitBits_len h1
    have := ih _ h2
    nlinarith

end Coder

theorem packBits_len (b : Bits) : 8 * (packBits b).length ≤ b.length + 7 := by
  induction b using packBits.induct with
  | case1 b7 b6 b5 b4 b3 b2 b1 b0 rest ih =>
    rw [packBits]
    simp only [List.length_cons]
    omega
  | case2 => simp [packBits]
  | case3 rest h1 h2 =>
    have hne : rest ≠ [] := h2
    rw [packBits]
    · have : 1 ≤ rest.length := List.length_pos_iff.mpr hne
      simp only [List.length_cons, List.length_nil]
      omega
    · exact h1
    · exact h2

theorem stuff_len (l : List UInt8) : (stuff l).length ≤ 2 * l.length := by
  induction l with
  | nil => simp [stuff]
  | cons a l ih =>
    unfold stuff at *
    rw [List.flatMap_cons, List.length_append, List.length_cons]
    split <;> simp only [List.length_cons, List.length_nil] <;> omega

theorem intervalsBytes_len (C : Coder) (gs : List (List DataUnit)) (k : Nat) (h : ∀ g ∈ gs, C.UnitsOk g fun _ => 0) :
    4 * (C.intervalsBytes gs k).length ≤ C.width * gs.flatten.length + 15 * gs.length := by
  have one : ∀ g, C.UnitsOk g (fun _ => 0) → 4 * (stuff (packBits (C.unitsBits g fun _ => 0))).length ≤ C.width * g.length + 7 := by
    intro g hg
    have h1 := stuff_len (packBits (C.unitsBits g fun _ => 0))
    have h2 := packBits_len (C.unitsBits g fun _ => 0)
    have h3 := C.unitsBits_len g _ hg
    omega
  induction gs generalizing k with
  | nil => simp [Coder.intervalsBytes]
  | cons g gs ih =>
    have h1 := one g (h g (by simp))
    cases gs with
    | nil =>
      rw [Coder.intervalsBytes]
      simp only [List.flatten_cons, List.flatten_nil, List.append_nil, List.length_cons, List.length_nil]
      omega
    | cons g' gs =>
      have h2 := ih (k + 1) fun x hx => h x (by simp [hx])
      rw [Coder.intervalsBytes, List.length_append, List.length_append, List.flatten_cons, List.length_append, List.length_cons (a := g), Nat.mul_add C.width]
      have h3 : (Coder.rstMarker k).length = 2 := rfl
      rw [h3]
      omega

/-- The size of the entropy coded data of a scan. -/
theorem scanBytes_len (C : Coder) (ri : Nat) (mcus : List (List DataUnit)) (h : ∀ g ∈ intervals ri mcus, C.UnitsOk g.flatten fun _ => 0) :
    4 * (C.scanBytes ri mcus).length ≤ C.width * mcus.flatten.length + 15 * (Spec.restartCount ri mcus.length + 1) := by
  have h1 := intervalsBytes_len C ((intervals ri mcus).map List.flatten) 0 (by
    intro g hg
    rw [List.mem_map] at hg
    obtain ⟨g', hg', rfl⟩ := hg
    exact h g' hg')
  have h2 := intervals_length ri mcus
  have h3 := intervals_ne_nil ri mcus
  have h4 : 0 < (intervals ri mcus).length := List.length_pos_iff.mpr h3
  have h5 : ((intervals ri mcus).map List.flatten).flatten = mcus.flatten := by
    rw [← List.flatten_flatten, intervals_flatten]
  rw [List.length_map, h5] at h1
  rw [Coder.scanBytes]
  omega


/-! ### Number of units -/

/-- Blocks in the area of the image, padded for every kind of subsampling. -/
def area (w h : UInt16) : Nat := (w.toNat + 31) / 8 * ((h.toNat + 31) / 8)

section
variable {cs : List Component} {mh mv : Nat} (hg : Grid cs mh mv) (hone : cs.length = 1 → mh = 1 ∧ mv = 1) (prog : Bool) (w h : UInt16)
include hg

theorem units_single {c : Component} (hc : c ∈ cs) (ss se : Nat) :
    ((ScanDesc.mk [c] ss se).mcus (mkFrame prog w h cs)).length ≤ area w h ∧
    ((ScanDesc.mk [c] ss se).mcus (mkFrame prog w h cs)).flatten.length ≤ area w h := by
  have e : (ScanDesc.mk [c] ss se).mcus (mkFrame prog w h cs) = (raster (nblk h.toNat (mv / c.verticalSamplingFactor))
      (nblk w.toNat (mh / c.horizontalSamplingFactor))).map unit1 := by
    rw [ScanDesc.mcus, List.map_singleton, layout_single hg prog w h hc]
  have hb : ∀ x s : Nat, nblk x s ≤ (x + 31) / 8 := by
    intro x s
    have h1 : nblk x s ≤ _root_.Spec.ceilDiv x 8 := by
      unfold nblk
      generalize _root_.Spec.ceilDiv x 8 = y
      unfold _root_.Spec.ceilDiv
      rcases Nat.eq_zero_or_pos s with rfl | hs
      · simp
      · rw [Nat.div_le_iff_le_mul_add_pred hs]
        have : y ≤ s * y := Nat.le_mul_of_pos_left y hs
        rw [Nat.mul_comm] at this ⊢
        omega
    unfold _root_.Spec.ceilDiv at h1
    omega
  have hl : (raster (nblk h.toNat (mv / c.verticalSamplingFactor)) (nblk w.toNat (mh / c.horizontalSamplingFactor))).length ≤ area w h := by
    rw [raster_length, area, Nat.mul_comm ((w.toNat + 31) / 8)]
    exact Nat.mul_le_mul (hb _ _) (hb _ _)
  rw [e]
  refine ⟨by rw [List.length_map]; exact hl, ?_⟩
  have : ∀ l : List (Nat × Nat), (l.map unit1).flatten.length = l.length := by
    intro l
    induction l with
    | nil => rfl
    | cons a l ih => rw [List.map_cons, List.flatten_cons, List.length_append, ih]; simp [unit1]; omega
  rw [this]
  exact hl

include hone in
theorem units_all (ss se : Nat) :
    ((ScanDesc.mk cs ss se).mcus (mkFrame prog w h cs)).length ≤ area w h ∧
    ((ScanDesc.mk cs ss se).mcus (mkFrame prog w h cs)).flatten.length ≤ cs.length * area w h := by
  have e : (ScanDesc.mk cs ss se).mcus (mkFrame prog w h cs) =
      (raster (_root_.Spec.ceilDiv h.toNat (8 * mv)) (_root_.Spec.ceilDiv w.toNat (8 * mh))).map (mcuUnits cs) := by
    rw [ScanDesc.mcus, layout_all hg prog w h hone]
  have hmv := hg.mv
  have hmh := hg.mh
  have hb : ∀ x m : Nat, 1 ≤ m → m ≤ 4 → _root_.Spec.ceilDiv x (8 * m) * m ≤ (x + 31) / 8 := by
    intro x m h1 h4
    unfold _root_.Spec.ceilDiv
    rcases (show m = 1 ∨ m = 2 ∨ m = 3 ∨ m = 4 by omega) with rfl | rfl | rfl | rfl <;> omega
  have hlen : ∀ p, (mcuUnits cs p).length ≤ cs.length * (mv * mh) := by
    intro p
    unfold mcuUnits
    rw [List.length_flatMap]
    have h1 : ∀ x ∈ cs.zipIdx.map (fun cj => ((List.range cj.1.verticalSamplingFactor).flatMap fun v =>
        (List.range cj.1.horizontalSamplingFactor).flatMap fun h =>
          [(cj.2, p.1 * cj.1.verticalSamplingFactor + v, p.2 * cj.1.horizontalSamplingFactor + h)]).length), x ≤ mv * mh := by
      intro x hx
      rw [List.mem_map] at hx
      obtain ⟨cj, hcj, rfl⟩ := hx
      have hcm : cj.1 ∈ cs := List.mem_of_getElem? (List.mem_zipIdx_iff_getElem?.mp hcj)
      rw [List.length_flatMap]
      simp only [List.length_flatMap, List.length_cons, List.length_nil, List.map_const', List.sum_replicate, List.length_range, smul_eq_mul, Nat.mul_one]
      have h1 := hg.h _ hcm
      have h2 := hg.v _ hcm
      refine Nat.mul_le_mul ?_ ?_ <;> omega
    have h2 := List.sum_le_card_nsmul _ _ h1
    rw [List.length_map, List.length_zipIdx, smul_eq_mul] at h2
    exact h2
  have hl : (raster (_root_.Spec.ceilDiv h.toNat (8 * mv)) (_root_.Spec.ceilDiv w.toNat (8 * mh))).length * (mv * mh) ≤ area w h := by
    rw [raster_length, area]
    have h1 := hb h.toNat mv (by omega) (by omega)
    have h2 := hb w.toNat mh (by omega) (by omega)
    calc _ = (_root_.Spec.ceilDiv w.toNat (8 * mh) * mh) * (_root_.Spec.ceilDiv h.toNat (8 * mv) * mv) := by ring
      _ ≤ _ := Nat.mul_le_mul h2 h1
  rw [e]
  constructor
  · rw [List.length_map]
    exact le_trans (Nat.le_mul_of_pos_right _ (Nat.mul_pos (by omega) (by omega))) hl
  · generalize raster (_root_.Spec.ceilDiv h.toNat (8 * mv)) (_root_.Spec.ceilDiv w.toNat (8 * mh)) = l at *
    have h1 : (l.map (mcuUnits cs)).flatten.length ≤ l.length * (cs.length * (mv * mh)) := by
      rw [List.length_flatten, List.map_map]
      have := List.sum_le_card_nsmul (l.map (List.length ∘ mcuUnits cs)) (cs.length * (mv * mh)) (by
        intro x hx
        rw [List.mem_map] at hx
        obtain ⟨p, -, rfl⟩ := hx
        exact hlen p)
      rw [List.length_map, smul_eq_mul] at this
      exact this
    calc _ ≤ _ := h1
      _ = cs.length * (l.length * (mv * mh)) := by ring
      _ ≤ _ := Nat.mul_le_mul_left _ hl

end

/-- Scans per component. -/
def Mode.perComponent : Mode → Nat
  | .progressive n => n
  | _ => 1

/-- Bound for the number of restart intervals. -/
def intervalBound (ri : Nat) (w h : UInt16) : Nat := if ri = 0 then 1 else area w h

theorem area_pos (w h : UInt16) : 1 ≤ area w h := Nat.mul_pos (by omega) (by omega)

theorem restartCount_le (ri m : Nat) (w h : UInt16) (hm : m ≤ area w h) : Spec.restartCount ri m + 1 ≤ intervalBound ri w h := by
  unfold Spec.restartCount intervalBound
  split
  · omega
  · rename_i h0
    have h1 : _root_.Spec.ceilDiv m ri ≤ m := by
      unfold _root_.Spec.ceilDiv
      rw [Nat.div_le_iff_le_mul_add_pred (by omega)]
      have : m ≤ ri * m := Nat.le_mul_of_pos_left m (by omega)
      omega
    have := area_pos w h
    omega

theorem sum_le_mul {α : Type} (l : List α) (f : α → Nat) (n : Nat) (h : ∀ a ∈ l, f a ≤ n) : (l.map f).sum ≤ l.length * n := by
  have := List.sum_le_card_nsmul (l.map f) n (by
    intro x hx
    rw [List.mem_map] at hx
    obtain ⟨a, ha, rfl⟩ := hx
    exact h a ha)
  rw [List.length_map, smul_eq_mul] at this
  exact this

section
variable {cs : List Component} {mh mv : Nat} (hg : Grid cs mh mv) (hone : cs.length = 1 → mh = 1 ∧ mv = 1) {w h : UInt16} {t : HuffPair × HuffPair}
  {ri : Nat} {E : Coefs} {m : Mode}
include hg

omit hg in
theorem scan_part_len (f : Frame) (sd : ScanDesc) (hcs : sd.cs.length ≤ 4) (hu : ∀ g ∈ intervals ri (sd.mcus f), (sd.coder t E).UnitsOk g.flatten fun _ => 0)
    {a : Nat} (h1 : (sd.mcus f).length ≤ area w h) (h2 : (sd.mcus f).flatten.length ≤ a) :
    4 * (sd.bytes f t E ri).length ≤ 64 + ((if sd.ss = 0 then 27 else 0) + 26 * (sd.se + 1 - max sd.ss 1)) * a + 15 * intervalBound ri w h := by
  have hs := scanBytes_len (sd.coder t E) ri (sd.mcus f) hu
  have hr := restartCount_le ri _ w h h1
  have hw : (sd.coder t E).width = (if sd.ss = 0 then 27 else 0) + 26 * (sd.se + 1 - max sd.ss 1) := rfl
  rw [hw] at hs
  have hb : (sd.bytes f t E ri).length = 4 + (1 + (2 * sd.cs.length + 3)) + ((sd.coder t E).scanBytes ri (sd.mcus f)).length := by
    change (seg 0xDA (sosPayload sd.cs sd.ss sd.se) ++ (sd.coder t E).scanBytes ri (sd.mcus f)).length = _
    rw [List.length_append]
    simp only [seg, sosPayload, List.length_cons, List.length_append, flatten_const_length sd.cs scanCompBytes 2 (fun x => rfl), List.length_nil]
    omega
  have h3 := Nat.mul_le_mul_left ((if sd.ss = 0 then 27 else 0) + 26 * (sd.se + 1 - max sd.ss 1)) h2
  omega

include hone in
/-- The size of all scans. -/
theorem scans_len (hu : AllUnitsOk m w h cs t ri E) (hm : ∀ n, m = .progressive n → 2 ≤ n ∧ n ≤ 64) :
    4 * ((m.scans cs).map fun sd => sd.bytes (mkFrame m.isProg w h cs) t E ri).flatten.length ≤
      cs.length * (64 * m.perComponent + 1665 * area w h + 15 * intervalBound ri w h * m.perComponent) := by
  have h4 := hg.ok.four
  rw [List.length_flatten, List.map_map]
  have hsum : ∀ l : List ScanDesc, 4 * (l.map (List.length ∘ fun sd => sd.bytes (mkFrame m.isProg w h cs) t E ri)).sum =
      (l.map fun sd => 4 * (sd.bytes (mkFrame m.isProg w h cs) t E ri).length).sum := by
    intro l
    induction l with
    | nil => rfl
    | cons a l ih => simp only [List.map_cons, List.sum_cons, Nat.mul_add, ih, Function.comp]
  rw [hsum]
  have single : ∀ c ∈ cs, ∀ ss se, (ScanDesc.mk [c] ss se) ∈ m.scans cs → 4 * ((ScanDesc.mk [c] ss se).bytes (mkFrame m.isProg w h cs) t E ri).length ≤
      64 + ((if ss = 0 then 27 else 0) + 26 * (se + 1 - max ss 1)) * area w h + 15 * intervalBound ri w h := by
    intro c hc ss se hsd
    obtain ⟨h1, h2⟩ := units_single hg m.isProg w h hc ss se
    exact scan_part_len _ (ScanDesc.mk [c] ss se) (by simp) (hu _ hsd) h1 h2
  cases m with
  | interleaved =>
    obtain ⟨h1, h2⟩ := units_all hg hone false w h 0 63
    have := scan_part_len (ri := ri) (t := t) (E := E) (mkFrame false w h cs) (ScanDesc.mk cs 0 63) h4 (hu _ (by simp [Mode.scans])) h1 h2
    simp only [Mode.scans, List.map_cons, List.map_nil, List.sum_cons, List.sum_nil, Mode.perComponent, Mode.isProg]
    have h1 := hg.ok.one
    refine this.trans ?_
    simp only [if_true]
    norm_num
    nlinarith [Nat.zero_le (area w h), Nat.zero_le (intervalBound ri w h)]
  | sequential =>
    simp only [Mode.scans, Mode.perComponent]
    rw [List.map_map]
    refine (sum_le_mul cs _ _ fun c hc => ?_)
    refine (single c hc 0 63 (by simp [Mode.scans]; exact hc)).trans ?_
    simp only [if_true]
    norm_num
  | progressive n =>
    obtain ⟨hn2, hn64⟩ := hm n rfl
    obtain ⟨hbs, -⟩ := bandList_sum n (by omega) hn2
    have hbl := (bandList_chained n (by omega) hn2)
    have hpos : ∀ b ∈ bandList n, 1 ≤ b.1 ∧ b.1 ≤ b.2 := by
      have hch := hbl.1
      have key : ∀ (l : List (Nat × Nat)) s, 1 ≤ s → Chained s l → ∀ b ∈ l, 1 ≤ b.1 ∧ b.1 ≤ b.2 := by
        intro l
        induction l with
        | nil => intro s _ _ b hb; simp at hb
        | cons r rs ih =>
          intro s hs hc b hb
          obtain ⟨c1, c2, -, c4⟩ := hc
          rcases List.mem_cons.mp hb with rfl | hb
          · exact ⟨by omega, c2⟩
          · exact ih r.2 (by omega) c4 b hb
      exact key _ 1 (by omega) hch
    simp only [Mode.scans, Mode.perComponent, List.map_append, List.sum_append]
    have hdc : ((cs.map fun c => ScanDesc.mk [c] 0 0).map fun sd => 4 * (sd.bytes (mkFrame (Mode.progressive n).isProg w h cs) t E ri).length).sum ≤
        cs.length * (64 + 27 * area w h + 15 * intervalBound ri w h) := by
      rw [List.map_map]
      refine (sum_le_mul cs _ _ fun c hc => ?_)
      refine (single c hc 0 0 (by simp only [Mode.scans, List.mem_append, List.mem_map]; exact Or.inl ⟨c, hc, rfl⟩)).trans ?_
      simp only [if_true]
      norm_num
    have hac : ∀ bs : List (Nat × Nat), (∀ b ∈ bs, b ∈ bandList n) →
        ((bs.flatMap fun b => cs.map fun c => ScanDesc.mk [c] b.1 (b.2 - 1)).map fun sd => 4 * (sd.bytes (mkFrame (Mode.progressive n).isProg w h cs) t E ri).length).sum ≤
        cs.length * (64 * bs.length + 26 * ((bs.map fun b => b.2 - b.1).sum) * area w h + 15 * intervalBound ri w h * bs.length) := by
      intro bs
      induction bs with
      | nil => intro _; simp
      | cons b bs ih =>
        intro hmem
        have ih := ih fun b hb => hmem b (by simp [hb])
        have hb := hmem b (by simp)
        obtain ⟨hb1, hb2⟩ := hpos b hb
        rw [List.flatMap_cons, List.map_append, List.sum_append, List.map_map]
        have h1 := sum_le_mul cs ((fun sd => 4 * (ScanDesc.bytes (mkFrame (Mode.progressive n).isProg w h cs) t E ri sd).length) ∘ fun c => ScanDesc.mk [c] b.1 (b.2 - 1))
          (64 + 26 * (b.2 - b.1) * area w h + 15 * intervalBound ri w h) (by
            intro c hc
            refine (single c hc b.1 (b.2 - 1) ?_).trans ?_
            · simp only [Mode.scans, List.mem_append, List.mem_flatMap, List.mem_map]
              exact Or.inr ⟨b, hb, c, hc, rfl⟩
            · rw [if_neg (by omega), show b.2 - 1 + 1 - max b.1 1 = b.2 - b.1 by omega, Nat.zero_add])
        refine (Nat.add_le_add h1 ih).trans (le_of_eq ?_)
        simp only [List.map_cons, List.sum_cons, List.length_cons]
        ring
    have hac := hac (bandList n) fun b hb => hb
    refine (Nat.add_le_add hdc hac).trans ?_
    rw [hbl.2, ← Nat.mul_add]
    refine Nat.mul_le_mul_left _ ?_
    have h1 : 26 * ((bandList n).map fun b => b.2 - b.1).sum * area w h ≤ 26 * 63 * area w h := Nat.mul_le_mul_right _ (by omega)
    obtain ⟨k, rfl⟩ : ∃ k, n = k + 1 := ⟨n - 1, by omega⟩
    rw [Nat.add_sub_cancel]
    nlinarith

end

/-- The size of the file, given the size of the scans. -/
theorem file_len_of {den : Density} {ct : JpegColorType} {apps : List (UInt8 × Bytes)} {m : Mode} {w h : UInt16} {cs : List Component} {mh mv : Nat}
    (hg : Grid cs mh mv) {s0 s1 : List Nat} {t : HuffPair × HuffPair} (ht : TabsOk cs.length t) {ri : Option UInt16} {E : Coefs} {X : Nat}
    (h1 : 4 * ((m.scans cs).map fun sd => sd.bytes (mkFrame m.isProg w h cs) t E ((ri.map UInt16.toNat).getD 0)).flatten.length ≤ X) :
    4 * (fileBytes den ct apps m w h cs s0 s1 t ri E).length ≤ 5248 + 4 * (apps.map fun a => a.2.length + 4).sum + X := by
  have hzz : ZIGZAG.length = 64 := by decide
  have hseg : ∀ mk p, (seg mk p).length = 4 + p.length := by intro mk p; simp only [seg, List.length_cons]; omega
  have hpre : (preBytes den ct apps).length ≤ 34 + (apps.map fun a => a.2.length + 4).sum := by
    unfold preBytes
    rw [List.length_append, List.length_append, hseg]
    have a1 : (jfifPayload den).length = 14 := by cases den <;> rfl
    have a2 : (adobeSeg ct).length ≤ 16 := by cases ct <;> simp [adobeSeg, seg]
    have a3 : (appsBytes apps).length = (apps.map fun a => a.2.length + 4).sum := by
      unfold appsBytes
      rw [List.length_flatten, List.map_map]
      refine congrArg List.sum ?_
      refine List.map_congr_left fun a _ => ?_
      rw [Function.comp, hseg]
      omega
    omega
  have hdht : ∀ cls dest (tb : HuffmanTable), TableFile tb → (seg 0xC4 (dhtPayload cls dest tb)).length ≤ 277 := by
    intro cls dest tb htb
    have h1 := htb.len16
    have h2 := htb.vals
    rw [hseg]
    simp only [dhtPayload, List.length_cons, List.length_append, List.length_map]
    omega
  have hframe : (frameBytes m.isProg w h cs s0 s1 t ri).length ≤ 22 + 138 + 4 * 277 + 6 := by
    unfold frameBytes
    have hfour := hg.ok.four
    have b1 := hdht 0 0 _ ht.dc0
    have b2 := hdht 1 0 _ ht.ac0
    have b3 : (if cs.length ≥ 3 then seg 0xC4 (dhtPayload 0 1 t.2.dc) ++ seg 0xC4 (dhtPayload 1 1 t.2.ac) else []).length ≤ 2 * 277 := by
      split
      · rename_i h3
        have := hdht 0 1 _ (ht.dc1 h3)
        have := hdht 1 1 _ (ht.ac1 h3)
        rw [List.length_append]
        omega
      · simp
    have b5 : ∀ mk, (seg mk (sofPayload w h cs)).length ≤ 22 := by
      intro mk
      rw [hseg, sofPayload, List.length_append, flatten_const_length cs frameCompBytes 3 (fun x => rfl)]
      simp only [List.length_cons, List.length_nil]
      omega
    have b6 : ∀ d s, (seg 0xDB (dqtPayload d s)).length = 69 := by
      intro d s
      rw [hseg]
      simp [dqtPayload, hzz]
    simp only [List.length_append, b6]
    have := b5 (if m.isProg then 0xC2 else 0xC0)
    cases ri with
    | none => simp only [List.length_nil]; omega
    | some n => simp only [seg, List.length_cons, List.length_nil] at *; omega
  unfold fileBytes
  simp only [List.length_append, List.length_cons, List.length_nil]
  omega

/-- The size of the file. -/
theorem file_len {den : Density} {ct : JpegColorType} {apps : List (UInt8 × Bytes)} {m : Mode} {w h : UInt16} {cs : List Component} {mh mv : Nat}
    (hg : Grid cs mh mv) (hone : cs.length = 1 → mh = 1 ∧ mv = 1) {s0 s1 : List Nat} {t : HuffPair × HuffPair} (ht : TabsOk cs.length t)
    {ri : Option UInt16} {E : Coefs} (hu : AllUnitsOk m w h cs t ((ri.map UInt16.toNat).getD 0) E) (hm : ∀ n, m = .progressive n → 2 ≤ n ∧ n ≤ 64) :
    4 * (fileBytes den ct apps m w h cs s0 s1 t ri E).length ≤ 5248 + 4 * (apps.map fun a => a.2.length + 4).sum +
      cs.length * (64 * m.perComponent + 1665 * area w h + 15 * intervalBound ((ri.map UInt16.toNat).getD 0) w h * m.perComponent) := by
  exact file_len_of hg ht (scans_len hg hone hu hm)

end Jpeg
