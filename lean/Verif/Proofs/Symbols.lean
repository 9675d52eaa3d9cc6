import Verif.Spec.Symbols
import Verif.Proofs.Bundle
/-! The symbols counted by the encoder are the symbols of the file. -/
namespace Jpeg
open _root_.Spec

theorem eq_append_of_nil {α : Type} {a b c : List α} (h : b = []) (h2 : a = c) : a = c ++ b := by rw [h, h2, List.append_nil]

theorem perm_append_of_nil {α : Type} {a b c : List α} (h : b = []) (h2 : a.Perm c) : a.Perm (b ++ c) := by rw [h, List.nil_append]; exact h2

theorem flatMap_swap {α β γ : Type} (l : List α) (m : List β) (f : α → β → List γ) :
    (l.flatMap fun a => m.flatMap fun b => f a b).Perm (m.flatMap fun b => l.flatMap fun a => f a b) := by
  induction l with
  | nil => simp
  | cons a l ih =>
    rw [List.flatMap_cons]
    refine ((List.Perm.refl _).append ih).trans ((List.flatMap_append_perm m (f a) _).trans ?_)
    simp only [List.flatMap_cons]
    exact List.Perm.refl _

theorem zipIdx_flatMap_congr {α β : Type} (l : List α) (f : α × Nat → List β) (g : α → List β) (h : ∀ p ∈ l.zipIdx, f p = g p.1) :
    l.zipIdx.flatMap f = l.flatMap g := by
  have : ∀ (l : List α) (k : Nat), (∀ p ∈ l.zipIdx k, f p = g p.1) → (l.zipIdx k).flatMap f = l.flatMap g := by
    intro l
    induction l with
    | nil => intros; rfl
    | cons a l ih =>
      intro k h
      rw [List.zipIdx_cons, List.flatMap_cons, List.flatMap_cons, h (a, k) (by simp [List.zipIdx_cons]), ih (k + 1) fun p hp => h p (by simp [List.zipIdx_cons, hp])]
  exact this l 0 h

theorem dcSymbolsOf_sub {d : Dec} {f : Frame} {slot : Nat} (h : ∀ s ∈ d.scans, s.scan.ss = 0 → ∀ sc ∈ s.scan.comps, sc.td = slot → d.ri ≠ 0 → ∀ j v,
    (dcValues d f sc.comp)[j * d.ri]? = some v → category v ∈ dcSymbolsUninterrupted d f slot) :
    ∀ v ∈ dcSymbolsOf d f slot, v ∈ dcSymbolsUninterrupted d f slot := by
  intro v hv
  obtain ⟨s, hs, hv⟩ := List.mem_flatMap.mp hv
  split at hv
  · rename_i h0
    obtain ⟨sc, hsc, hv⟩ := List.mem_flatMap.mp hv
    split at hv
    · rename_i htd
      obtain ⟨g, hg, hv⟩ := List.mem_flatMap.mp hv
      refine dcSymbols_interval hg id ?_ (h s hs h0 sc hsc htd) v (by rwa [List.map_id])
      intro x hx
      rw [List.map_id] at hx
      refine List.mem_flatMap.mpr ⟨s, hs, ?_⟩
      rw [if_pos h0]
      refine List.mem_flatMap.mpr ⟨sc, hsc, ?_⟩
      rwa [if_pos htd]
    · cases hv
  · cases hv

theorem dcSymbolsOf_eq {d : Dec} {f : Frame} {slot : Nat} (h : d.ri = 0 ∨ ∀ s ∈ d.scans, ∀ sc ∈ s.scan.comps, (dcValues d f sc.comp).length ≤ d.ri) :
    dcSymbolsOf d f slot = dcSymbolsUninterrupted d f slot := by
  unfold dcSymbolsOf dcSymbolsUninterrupted
  refine List.flatMap_congr fun s hs => ?_
  split
  · refine List.flatMap_congr fun sc hsc => ?_
    split
    · rw [intervals_one (h.imp id fun h => h s hs sc hsc)]
      simp
    · rfl
  · rfl

section
variable {F : List Int → List Int} {op : Operations} (hop : OpOk op F) {e : Encoder} (hwf : e.Wf) {image : ImageBuffer} (P : Nat → Nat → Nat → UInt8)
  (hw : image.width ≠ 0) (hh : image.height ≠ 0) (ho : e.optimizeHuffmanTable = true) (t : HuffPair × HuffPair)

include hop hwf hw hh in
/-- The blocks of a component of the decoded file. -/
theorem blocks_decoded {c : Component} {i : Nat} (hz : (c, i) ∈ (initComponents e.samplingFactor image.colorType).zipIdx) :
    ∃ f : Nat × Nat → List Int, (e.blocks F image P).getD i [] = (blockPositions (mkFrame e.mode.isProg image.width image.height
        (initComponents e.samplingFactor image.colorType)) c.id).map f ∧
      ∀ p ∈ blockPositions (mkFrame e.mode.isProg image.width image.height (initComponents e.samplingFactor image.colorType)) c.id,
        (f p).length = 64 ∧ ∀ k, k < 64 → (f p).getD k 0 = (e.decoded F image P t).coefs c.id p.1 p.2 k := by
  obtain ⟨hg, hnc⟩ := initComponents_grid e.samplingFactor image.colorType
  have hci := List.mem_zipIdx_iff_getElem?.mp hz
  dsimp only at hci
  have hcm : c ∈ initComponents e.samplingFactor image.colorType := List.mem_of_getElem? hci
  have hid : c.id = i := hg.ok.ids i c hci
  obtain ⟨bs, h1, h2, h3, h4, h5⟩ := blocks_good hop P hw hh (e := e) (image := image) (c, i) hz
  have hpos : blockPositions (mkFrame e.mode.isProg image.width image.height (initComponents e.samplingFactor image.colorType)) c.id =
      raster ((mkFrame e.mode.isProg image.width image.height (initComponents e.samplingFactor image.colorType)).blocksHigh c.frame)
        ((mkFrame e.mode.isProg image.width image.height (initComponents e.samplingFactor image.colorType)).blocksWide c.frame) := by
    unfold blockPositions
    rw [show (mkFrame e.mode.isProg image.width image.height (initComponents e.samplingFactor image.colorType)).comps[c.id]? = some c.frame from by
      show ((initComponents e.samplingFactor image.colorType).map Component.frame)[c.id]? = _
      rw [List.getElem?_map, hid, hci]; rfl]
  refine ⟨fun p => blockAt F e.steps0 e.steps1 image.width.toNat image.height.toNat P (maxSamplingSize (initComponents e.samplingFactor image.colorType)).1
            (maxSamplingSize (initComponents e.samplingFactor image.colorType)).2 i c p.1 p.2, ?_, ?_⟩
  · rw [hpos, List.getD_eq_getElem?_getD, h1, Option.getD_some, h5, blocksWide_eq hg _ _ _ hcm, blocksHigh_eq hg _ _ _ hcm]
  · intro p hp
    rw [hpos] at hp
    have hb := isBlock_coefsOf F e.steps0 e.steps1 image.width.toNat image.height.toNat P (maxSamplingSize (initComponents e.samplingFactor image.colorType)).1
      (maxSamplingSize (initComponents e.samplingFactor image.colorType)).2 hci p.1 p.2
    refine ⟨hb.1, fun k hk => ?_⟩
    have hp' : p.1 < (mkFrame e.mode.isProg image.width image.height (initComponents e.samplingFactor image.colorType)).blocksHigh c.frame ∧
        p.2 < (mkFrame e.mode.isProg image.width image.height (initComponents e.samplingFactor image.colorType)).blocksWide c.frame := by
      simp only [raster, List.mem_flatMap, List.mem_map, List.mem_range] at hp
      obtain ⟨y, hy, x, hx, rfl⟩ := hp
      exact ⟨hy, hx⟩
    rw [hb.2 k hk, ← hid]
    exact (fileDec_coefs e.density image.colorType e.appSegments (hwf.mode_ok false (by simp) _) image.width image.height hg
        (init_one e.samplingFactor image.colorType) _ _ t _ _ hcm hp'.1 hp'.2 hk).symm

include ho in
theorem mode_opt : (e.mode = .sequential ∧ e.progressiveScans = none) ∨ ∃ n, e.mode = .progressive n.toNat ∧ e.progressiveScans = some n := by
  unfold Encoder.mode
  cases hps : e.progressiveScans with
  | none => left; simp [ho]
  | some n => right; exact ⟨n, rfl, rfl⟩

include hop hwf hw hh ho in
theorem dcSymbols_decoded (slot : Nat) :
    (initComponents e.samplingFactor image.colorType).zipIdx.flatMap (dcOf slot (e.blocks F image P)) =
      dcSymbolsUninterrupted (e.decoded F image P t) (mkFrame e.mode.isProg image.width image.height (initComponents e.samplingFactor image.colorType)) slot := by
  rw [zipIdx_flatMap_congr _ _ fun c => if c.dcHuffmanTable = slot then _root_.Spec.dcSymbols ((blockPositions
    (mkFrame e.mode.isProg image.width image.height (initComponents e.samplingFactor image.colorType)) c.id).map fun p =>
      (e.decoded F image P t).coefs c.id p.1 p.2 0) 0 else []]
  · have hscans : (e.decoded F image P t).scans = (e.mode.scans (initComponents e.samplingFactor image.colorType)).map
        (·.log (mkFrame e.mode.isProg image.width image.height (initComponents e.samplingFactor image.colorType)) t (e.coefs F image P) e.interval) := rfl
    unfold dcSymbolsUninterrupted dcValues
    rw [hscans, List.flatMap_map]
    rcases mode_opt ho with ⟨hm, -⟩ | ⟨n, hm, hps⟩
    · rw [hm, Mode.scans, List.flatMap_map]
      refine List.flatMap_congr fun c _ => ?_
      simp only [ScanDesc.log, ScanDesc.scan, List.map_cons, List.map_nil, List.flatMap_cons, List.flatMap_nil, List.append_nil, if_pos]
      rfl
    · rw [hm, Mode.scans, List.flatMap_append, List.flatMap_map]
      refine eq_append_of_nil (List.flatMap_eq_nil_iff.mpr ?_) ?_
      rotate_left
      · refine List.flatMap_congr fun c _ => ?_
        simp only [ScanDesc.log, ScanDesc.scan, List.map_cons, List.map_nil, List.flatMap_cons, List.flatMap_nil, List.append_nil, if_pos]
        rfl
      · intro sd hsd
        obtain ⟨b, hb, hsd⟩ := List.mem_flatMap.mp hsd
        obtain ⟨c, hc, rfl⟩ := List.mem_map.mp hsd
        have hp : ∀ n, e.progressiveScans = some n → 2 ≤ n.toNat ∧ n.toNat ≤ 64 := by
          intro n hn
          have := hwf.mode_ok false (by simp) image.colorType
          simp only [Encoder.mode, hn, Mode.Ok] at this
          exact ⟨this.1, this.2.1⟩
        obtain ⟨r1, r2, r3⟩ := (acRanges_ok hp).1 b (by rw [hps]; exact hb)
        rw [if_neg]
        show ¬ b.1 = 0
        omega
  · rintro ⟨c, i⟩ hz
    unfold dcOf
    dsimp only
    split
    · obtain ⟨f, h1, h2⟩ := blocks_decoded hop hwf P hw hh t hz
      rw [h1]
      exact dcSyms_eq _ _ _ (fun p hp => (h2 p hp).2 0 (by omega)) 0
    · rfl

include hop hwf hw hh ho in
theorem acSymbols_decoded (slot : Nat) :
    ((initComponents e.samplingFactor image.colorType).zipIdx.flatMap (acOf e.progressiveScans slot (e.blocks F image P))).Perm
      (acSymbolsOf (e.decoded F image P t) (mkFrame e.mode.isProg image.width image.height (initComponents e.samplingFactor image.colorType)) slot) := by
  have hp : ∀ n, e.progressiveScans = some n → 2 ≤ n.toNat ∧ n.toNat ≤ 64 := by
    intro n hn
    have := hwf.mode_ok false (by simp) image.colorType
    simp only [Encoder.mode, hn, Mode.Ok] at this
    exact ⟨this.1, this.2.1⟩
  rw [zipIdx_flatMap_congr _ _ fun c => (acRanges e.progressiveScans).flatMap fun r => if c.acHuffmanTable = slot then (blockPositions
    (mkFrame e.mode.isProg image.width image.height (initComponents e.samplingFactor image.colorType)) c.id).flatMap fun p =>
      _root_.Spec.acSymbols (bandOf ((e.decoded F image P t).coefs c.id p.1 p.2) r.1 (r.2 - 1)) 0 else []]
  · have hscans : (e.decoded F image P t).scans = (e.mode.scans (initComponents e.samplingFactor image.colorType)).map
        (·.log (mkFrame e.mode.isProg image.width image.height (initComponents e.samplingFactor image.colorType)) t (e.coefs F image P) e.interval) := rfl
    unfold acSymbolsOf
    rw [hscans, List.flatMap_map]
    rcases mode_opt ho with ⟨hm, hps⟩ | ⟨n, hm, hps⟩
    · rw [hm, Mode.scans, List.flatMap_map, hps]
      refine List.Perm.of_eq (List.flatMap_congr fun c _ => ?_)
      simp only [acRanges, ScanDesc.log, ScanDesc.scan, List.map_cons, List.map_nil, List.flatMap_cons, List.flatMap_nil, List.append_nil]
      rfl
    · rw [hm, Mode.scans, List.flatMap_append, List.flatMap_map, hps]
      refine perm_append_of_nil (List.flatMap_eq_nil_iff.mpr ?_) ?_
      rotate_left
      · refine (flatMap_swap _ _ _).trans (List.Perm.of_eq ?_)
        rw [List.flatMap_assoc]
        refine List.flatMap_congr fun b _ => ?_
        rw [List.flatMap_map]
        refine List.flatMap_congr fun c _ => ?_
        simp only [ScanDesc.log, ScanDesc.scan, List.map_cons, List.map_nil, List.flatMap_cons, List.flatMap_nil, List.append_nil]
        rfl
      · intro c hc
        simp only [ScanDesc.log, ScanDesc.scan, List.map_cons, List.map_nil, List.flatMap_cons, List.flatMap_nil, List.append_nil]
        simp [bandOf, _root_.Spec.acSymbols]
  · rintro ⟨c, i⟩ hz
    unfold acOf acAll
    dsimp only
    split
    · obtain ⟨f, h1, h2⟩ := blocks_decoded hop hwf P hw hh t hz
      refine List.flatMap_congr fun r hr => ?_
      obtain ⟨r1, r2, r3⟩ := (acRanges_ok hp).1 r hr
      rw [h1, List.flatMap_map]
      refine List.flatMap_congr fun p hp => ?_
      obtain ⟨h3, h4⟩ := h2 p hp
      unfold acSyms
      rw [acToks_symbols]
      congr 1
      have hb : IsBlock (e.decoded F image P t).coefs c.id p.1 p.2 (f p) := ⟨h3, h4⟩
      have hsl := slice_band hb (start := r.1) (stop := r.2) r2 r3
      unfold slice at hsl
      rw [if_pos ⟨r2, by rw [h3]; exact r3⟩] at hsl
      rw [Except.ok.inj hsl, bandOf]
      have e1 : max r.1 1 = r.1 := by omega
      have e2 : r.2 - 1 + 1 - r.1 = r.2 - r.1 := by omega
      rw [e1, e2]
    · rw [List.flatMap_eq_nil_iff.mpr]
      intro r _
      rfl

include ho in
theorem scans_single {s : ScanLog} (hs : s ∈ (e.decoded F image P t).scans) : ∃ c ∈ initComponents e.samplingFactor image.colorType,
    s.scan.comps = [c.scanComp] ∧ s.mcus = (layout (mkFrame e.mode.isProg image.width image.height (initComponents e.samplingFactor image.colorType)) [c.frame]).length := by
  obtain ⟨sd, hsd, rfl⟩ := List.mem_map.mp (show s ∈ (e.mode.scans (initComponents e.samplingFactor image.colorType)).map
      (·.log (mkFrame e.mode.isProg image.width image.height (initComponents e.samplingFactor image.colorType)) t (e.coefs F image P) e.interval) from hs)
  rcases mode_opt ho with ⟨hm, -⟩ | ⟨n, hm, -⟩
  · rw [hm, Mode.scans] at hsd
    obtain ⟨c, hc, rfl⟩ := List.mem_map.mp hsd
    exact ⟨c, hc, rfl, rfl⟩
  · rw [hm, Mode.scans] at hsd
    rcases List.mem_append.mp hsd with hsd | hsd
    · obtain ⟨c, hc, rfl⟩ := List.mem_map.mp hsd
      exact ⟨c, hc, rfl, rfl⟩
    · obtain ⟨b, -, hsd⟩ := List.mem_flatMap.mp hsd
      obtain ⟨c, hc, rfl⟩ := List.mem_map.mp hsd
      exact ⟨c, hc, rfl, rfl⟩

theorem dcValues_decoded {c : Component} (hc : c ∈ initComponents e.samplingFactor image.colorType) :
    (mkFrame e.mode.isProg image.width image.height (initComponents e.samplingFactor image.colorType)).comps[c.id]? = some c.frame ∧
    dcValues (e.decoded F image P t) (mkFrame e.mode.isProg image.width image.height (initComponents e.samplingFactor image.colorType)) c.id =
      (raster ((mkFrame e.mode.isProg image.width image.height (initComponents e.samplingFactor image.colorType)).blocksHigh c.frame)
        ((mkFrame e.mode.isProg image.width image.height (initComponents e.samplingFactor image.colorType)).blocksWide c.frame)).map fun p =>
        (e.decoded F image P t).coefs c.id p.1 p.2 0 := by
  obtain ⟨hg, hnc⟩ := initComponents_grid e.samplingFactor image.colorType
  obtain ⟨i, hi, hic⟩ := List.getElem_of_mem hc
  have hci : (initComponents e.samplingFactor image.colorType)[i]? = some c := by rw [List.getElem?_eq_getElem hi, hic]
  have hid : c.id = i := hg.ok.ids i c hci
  have hf : (mkFrame e.mode.isProg image.width image.height (initComponents e.samplingFactor image.colorType)).comps[c.id]? = some c.frame := by
    show ((initComponents e.samplingFactor image.colorType).map Component.frame)[c.id]? = _
    rw [List.getElem?_map, hid, hci]; rfl
  refine ⟨hf, ?_⟩
  unfold dcValues blockPositions
  rw [hf]

include ho in
/-- Without restart markers nothing is interrupted. -/
theorem dcSymbols_noRestarts (h : NoRestarts (e.decoded F image P t)) (slot : Nat) :
    dcSymbolsOf (e.decoded F image P t) (mkFrame e.mode.isProg image.width image.height (initComponents e.samplingFactor image.colorType)) slot =
      dcSymbolsUninterrupted (e.decoded F image P t) (mkFrame e.mode.isProg image.width image.height (initComponents e.samplingFactor image.colorType)) slot := by
  refine dcSymbolsOf_eq (h.imp id fun h s hs sc hsc => ?_)
  obtain ⟨c, hc, h1, h2⟩ := scans_single P ho t hs
  rw [h1, List.mem_singleton] at hsc
  subst hsc
  have h3 : s.mcus ≤ (e.decoded F image P t).ri := h s hs
  rw [h2] at h3
  show (dcValues _ _ c.id).length ≤ _
  rw [(dcValues_decoded P t hc).2, List.length_map]
  simp only [layout, layoutSingle, List.length_map] at h3
  exact h3

end

theorem dcSymbols_restarts {simd : Bool} {e : Encoder} (hwf : e.Wf) {image : ImageBuffer} (P : Nat → Nat → Nat → UInt8)
    (hw : image.width ≠ 0) (hh : image.height ≠ 0) (ho : e.optimizeHuffmanTable = true) (t : HuffPair × HuffPair) {pf : Platform}
    (h : Spec.CanOptimize pf simd e image.colorType image.width image.height P) (slot : Nat) :
    ∀ v ∈ dcSymbolsOf (e.decoded (dctFn simd) image P t) (mkFrame e.mode.isProg image.width image.height (initComponents e.samplingFactor image.colorType)) slot,
      v ∈ dcSymbolsUninterrupted (e.decoded (dctFn simd) image P t) (mkFrame e.mode.isProg image.width image.height (initComponents e.samplingFactor image.colorType)) slot := by
  refine dcSymbolsOf_sub fun s hs _ sc hsc htd hri j v hv => ?_
  obtain ⟨c, hc, h1, -⟩ := scans_single P ho t hs
  rw [h1, List.mem_singleton] at hsc
  subst hsc
  obtain ⟨h2, h3⟩ := dcValues_decoded (F := dctFn simd) P t hc
  have hv' : (dcValues (e.decoded (dctFn simd) image P t) (mkFrame e.mode.isProg image.width image.height (initComponents e.samplingFactor image.colorType))
    c.id)[j * (e.restartInterval.map UInt16.toNat).getD 0]? = some v := hv
  have hri' : (e.restartInterval.map UInt16.toNat).getD 0 ≠ 0 := hri
  rw [h3, List.getElem?_map] at hv'
  cases hr : e.restartInterval with
  | none => rw [hr] at hri'; exact absurd rfl hri'
  | some n =>
    rw [hr] at hv'
    cases hp : (raster ((mkFrame e.mode.isProg image.width image.height (initComponents e.samplingFactor image.colorType)).blocksHigh c.frame)
        ((mkFrame e.mode.isProg image.width image.height (initComponents e.samplingFactor image.colorType)).blocksWide c.frame))[j * n.toNat]? with
    | none => simp [hp] at hv'
    | some p =>
      have hv2 : v = (e.decoded (dctFn simd) image P t).coefs c.id p.1 p.2 0 := by
        have := hv'
        simp only [Option.map_some, Option.getD_some, hp, Option.some.injEq] at this
        exact this.symm
      have hm := mem_raster.mp (List.mem_of_getElem? hp)
      have := h.restartSymbols hwf n hr c.id c.frame h2 j p hp
      rw [dcCounted_eq (opOk_for simd) P hw hh, dcSymbols_decoded (opOk_for simd) hwf P hw hh ho t] at this
      rw [hv2, decoded_coefs hwf t h2 hm.1 hm.2 (by omega)]
      have hslot : c.frame.tq = slot := by
        show c.quantizationTable = slot
        rw [← (init_tables e.samplingFactor image.colorType c hc).1]
        exact htd
      rwa [hslot] at this

end Jpeg
