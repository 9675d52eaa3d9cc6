import Verif.Spec.Content
import Verif.Proofs.Content
import Verif.Props.Local
/-! C92: the size of the output and its contents. -/
namespace Jpeg
open _root_.Spec

theorem allSum_zipIdx {cs : List Component} {mh mv : Nat} (hg : Grid cs mh mv) (mr mc : Nat) (g : Nat → Nat → Nat → Nat) :
    allSum cs mr mc g = (cs.zipIdx.map fun cj => gridSum (mr * cj.1.verticalSamplingFactor) (mc * cj.1.horizontalSamplingFactor) (g cj.2)).sum := by
  unfold allSum
  refine congrArg List.sum (List.ext_getElem? fun i => ?_)
  rw [List.getElem?_map, List.getElem?_map, List.getElem?_zipIdx]
  cases hci : cs[i]? with
  | none => rfl
  | some c => simp [hg.ok.ids i c hci]

theorem sum_countP {α : Type} (l : List α) (p : α → Prop) [DecidablePred p] (k : Nat) : (l.map fun a => if p a then 0 else k).sum = k * l.countP fun a => ¬ p a := by
  induction l with
  | nil => simp
  | cons a l ih =>
    rw [List.map_cons, List.sum_cons, ih]
    by_cases h : p a
    · rw [if_pos h, List.countP_cons_of_neg (by simp [h]), Nat.zero_add]
    · rw [if_neg h, List.countP_cons_of_pos (by simp [h])]; ring

theorem allSum_content {cs : List Component} {mh mv : Nat} (hg : Grid cs mh mv) (prog : Bool) (w h : UInt16) (D : Coefs) :
    allSum cs (_root_.Spec.ceilDiv h.toNat (8 * mv)) (_root_.Spec.ceilDiv w.toNat (8 * mh)) (fun c y x => bandCost D c y x 1 63) =
      26 * Spec.nonzeroCoefs (mkFrame prog w h cs) D + 63 * Spec.busyBlocks (mkFrame prog w h cs) D := by
  rw [allSum_zipIdx hg]
  unfold Spec.nonzeroCoefs Spec.busyBlocks Spec.mcuBlocks Frame.mcusHigh Frame.mcusWide
  rw [frame_vmax hg, frame_hmax hg]
  have hc : (mkFrame prog w h cs).comps.zipIdx = cs.zipIdx.map fun cj => (cj.1.frame, cj.2) := by
    show (cs.map Component.frame).zipIdx = _
    rw [List.zipIdx_map]
    rfl
  rw [hc, List.map_map, List.map_map]
  show _ = 26 * (cs.zipIdx.map _).sum + 63 * (cs.zipIdx.map _).sum
  rw [← List.sum_map_mul_left, ← List.sum_map_mul_left, ← List.sum_map_add]
  refine congrArg List.sum (List.map_congr_left fun cj _ => ?_)
  show gridSum _ _ _ = 26 * ((raster (_root_.Spec.ceilDiv h.toNat (8 * mv) * cj.1.verticalSamplingFactor) (_root_.Spec.ceilDiv w.toNat (8 * mh) * cj.1.horizontalSamplingFactor)).map
    fun p => Spec.acNonzero D cj.2 p.1 p.2).sum + 63 * ((raster (_root_.Spec.ceilDiv h.toNat (8 * mv) * cj.1.verticalSamplingFactor)
      (_root_.Spec.ceilDiv w.toNat (8 * mh) * cj.1.horizontalSamplingFactor)).countP fun p => Spec.acNonzero D cj.2 p.1 p.2 ≠ 0)
  rw [← sum_countP, ← List.sum_map_mul_left, ← List.sum_map_add]
  rfl

/-- The coefficients of a flat plane. -/
theorem coefs_flat (simd : Bool) (e : Encoder) (image : ImageBuffer) (P : Nat → Nat → Nat → UInt8) (hw : image.width ≠ 0) (hh : image.height ≠ 0) {c : Nat} {v : UInt8}
    (hv : ∀ y x, y < image.height.toNat → x < image.width.toNat → P c y x = v) (y x : Nat) {k : Nat} (h1 : 1 ≤ k) (hk : k < 64) :
    e.coefs (dctFn simd) image P c y x k = 0 := by
  unfold Encoder.coefs coefsOf
  split
  · rename_i co _
    have hs : Spec.blockSamples image.width.toNat image.height.toNat P c
        ((maxSamplingSize (initComponents e.samplingFactor image.colorType)).2 / co.verticalSamplingFactor)
        ((maxSamplingSize (initComponents e.samplingFactor image.colorType)).1 / co.horizontalSamplingFactor) y x = List.replicate 64 ((v.toNat : Int) - 128) := by
      have h0 : image.width.toNat ≠ 0 := fun h0 => hw (UInt16.toNat_inj.mp h0)
      have h00 : image.height.toNat ≠ 0 := fun h0 => hh (UInt16.toNat_inj.mp h0)
      refine List.ext_getElem? fun i => ?_
      by_cases hi : i < 64
      · rw [Spec.blockSamples, List.getElem?_map, List.getElem?_range hi, List.getElem?_replicate, if_pos hi]
        simp only [Option.map_some, Spec.sampleAt]
        rw [hv _ _ (by omega) (by omega)]
      · rw [List.getElem?_eq_none (by rw [blockSamples_length]; omega), List.getElem?_eq_none (by simp; omega)]
    have hb : -128 ≤ (v.toNat : Int) - 128 ∧ (v.toNat : Int) - 128 ≤ 127 := by have := v.toNat_lt; omega
    have hd := dct_constant simd ⟨true, 8⟩ _ hb
    have hop := opOk_for simd
    have hrun : Spec.buildDct simd ⟨true, 8⟩ (List.replicate 64 ((v.toNat : Int) - 128)) = .ok (dctFn simd (List.replicate 64 ((v.toNat : Int) - 128))) := by
      have := hop.run ⟨true, 8⟩ (List.replicate 64 ((v.toNat : Int) - 128)) (by simp) (by intro z hz; rw [List.eq_of_mem_replicate hz]; exact hb)
      cases simd <;> exact this
    rw [hd] at hrun
    rw [blockAt, hs, coefBlock_getD _ _ _ hk, ← Except.ok.inj hrun]
    have hz := ZIGZAG_getD_lt hk
    have hne := zigzag_pos k hk h1
    rw [zigzag_eq] at hne
    have hz0 : (64 * ((v.toNat : Int) - 128) :: List.replicate 63 0).getD (ZIGZAG.getD k 0) 0 = 0 := by
      generalize ZIGZAG.getD k 0 = z at hz hne
      obtain ⟨z, rfl⟩ := Nat.exists_eq_succ_of_ne_zero hne
      rw [List.getD_cons_succ, List.getD_eq_getElem?_getD, List.getElem?_replicate, if_pos (by omega)]
      rfl
    rw [hz0]
    refine quantOf_zero ?_
    split
    · exact steps_range _ _ _ _ (getD_mem (by rw [steps_length]; exact hz))
    · exact steps_range _ _ _ _ (getD_mem (by rw [steps_length]; exact hz))
  · rfl

section
variable {pf : Platform} (hpf : pf.Valid) {q : UInt8} {calls : List Spec.Call} {e : Encoder} (hc : Configured pf q calls e)
  {simd : Bool} {p : Prog (R Unit)} {ct : JpegColorType} {w h : UInt16} {P : Nat → Nat → Nat → UInt8} (hp : Spec.EncodeCall pf simd e p ct w h P)
  (hs : Spec.Supported pf simd e ct w h P) (h8 : Spec.EightBit e.getQuantizationTables) {strict : Bool} (hst : ScansFine strict e)
include hpf hc hp hs h8 hst

/-- C92: the size of a file in terms of the number of nonzero AC coefficients a decoder finds in it, and of the number of blocks that have such coefficients. -/
theorem C92_content : Spec.Encodes p strict fun bytes d => ∃ f, d.frame = some f ∧
    bytes.length ≤ Spec.contentBytes (calls.flatMap Spec.Call.segments) (Spec.componentCount ct) w.toNat h.toNat
      ((e.getProgressiveScans.map UInt8.toNat).getD 1) e.getRestartInterval.isSome (Spec.busyBlocks f d.coefs) (Spec.nonzeroCoefs f d.coefs) := by
  refine encodes_of hpf hc hp hs h8 hst fun image t hct hw hh ht => ?_
  subst hct hw hh
  refine ⟨mkFrame e.mode.isProg image.width image.height (initComponents e.samplingFactor image.colorType), rfl, ?_⟩
  have hgrid := (initComponents_grid e.samplingFactor image.colorType).1
  have hlen : (initComponents e.samplingFactor image.colorType).length = Spec.componentCount image.colorType := by
    cases image.colorType <;> rfl
  have hone := init_one e.samplingFactor image.colorType
  have hm : ∀ n, e.mode = .progressive n → 2 ≤ n ∧ n ≤ 64 := by
    intro n hn
    have := hc.wf.mode_ok false (by simp) image.colorType
    rw [hn] at this
    exact ⟨this.1, this.2.1⟩
  have hper : e.mode.perComponent = (e.getProgressiveScans.map UInt8.toNat).getD 1 := by
    unfold Encoder.mode Encoder.getProgressiveScans
    cases e.progressiveScans with
    | some n => rfl
    | none => simp only [Option.map_none, Option.getD_none]; split <;> rfl
  have hS : e.mode.perComponent ≤ 64 := by
    cases hmm : e.mode with
    | progressive n => exact (hm n hmm).2
    | interleaved => decide
    | sequential => decide
  have hscans := scans_cost (D := (e.decoded (dctFn simd) image P t).coefs) hgrid hone ht.cod.units hm fun sd hsd u hu k h1 h2 => by
    refine coefsAfter_mem _ _ (Or.inl ⟨sd, hsd, List.mem_map.mpr ⟨u, hu, rfl⟩, h1, h2⟩)
  rw [allSum_content hgrid e.mode.isProg] at hscans
  have hfile := file_len_of (den := e.density) (ct := image.colorType) (apps := e.appSegments) (s0 := e.steps0) (s1 := e.steps1) hgrid ht.cod.tabs (ri := e.restartInterval) hscans
  have happs : e.appSegments = calls.flatMap Spec.Call.segments := hc.apps
  have hn4 : Spec.componentCount image.colorType ≤ 4 := by cases image.colorType <;> decide
  rw [hlen, happs, hper] at hfile
  rw [hper] at hS
  unfold Encoder.file Spec.contentBytes
  rw [happs]
  generalize Spec.nonzeroCoefs _ _ = N at *
  generalize Spec.busyBlocks _ _ = M at *
  generalize fileBytes e.density image.colorType (calls.flatMap Spec.Call.segments) e.mode image.width image.height
    (initComponents e.samplingFactor image.colorType) e.steps0 e.steps1 t e.restartInterval (e.coefs (dctFn simd) image P) = f at *
  generalize Spec.componentCount image.colorType = n at *
  generalize (e.getProgressiveScans.map UInt8.toNat).getD 1 = S at *
  generalize ((calls.flatMap Spec.Call.segments).map fun s => s.2.length + 4).sum = A at *
  change _ ≤ 6400 + A + n * area image.width image.height * _ + _ + _
  have hri : e.getRestartInterval = e.restartInterval := rfl
  rw [hri]
  have hnS : n * S ≤ 4 * 64 := Nat.mul_le_mul hn4 hS
  have hint : e.interval = (e.restartInterval.map UInt16.toNat).getD 0 := rfl
  generalize hB : area image.width image.height = B at *
  cases hr : e.restartInterval with
  | none =>
    rw [hint, hr] at hfile
    simp only [Option.map_none, Option.getD_none, intervalBound, if_true, Option.isSome_none, Bool.false_eq_true, if_false] at hfile ⊢
    have e1 : n * (64 * S + (27 + 16 * S) * B + 15 * 1 * S) = 79 * (n * S) + 27 * (n * B) + 16 * (n * B * S) := by ring
    rw [e1] at hfile
    have e2 : n * B * (7 + S * 4) = 7 * (n * B) + 4 * (n * B * S) := by ring
    rw [e2]
    omega
  | some r =>
    rw [hint, hr] at hfile
    have hib : intervalBound (((some r).map UInt16.toNat).getD 0) image.width image.height ≤ B := by
      unfold intervalBound
      rw [← hB]
      split
      · exact area_pos _ _
      · exact Nat.le_refl _
    have h5 : n * (64 * S + (27 + 16 * S) * B + 15 * intervalBound (((some r).map UInt16.toNat).getD 0) image.width image.height * S) ≤
        n * (64 * S + (27 + 16 * S) * B + 15 * B * S) :=
      Nat.mul_le_mul_left _ (Nat.add_le_add_left (Nat.mul_le_mul_right _ (Nat.mul_le_mul_left _ hib)) _)
    have e1 : n * (64 * S + (27 + 16 * S) * B + 15 * B * S) = 64 * (n * S) + 27 * (n * B) + 31 * (n * B * S) := by ring
    rw [e1] at h5
    simp only [Option.isSome_some, if_true]
    have e2 : n * B * (7 + S * 8) = 7 * (n * B) + 8 * (n * B * S) := by ring
    rw [e2]
    omega

/-- C92: images in which every plane has only one value: no block has nonzero AC coefficients, and the file has at most 7 bytes per block and 4 (8) bytes per block and scan besides the
headers. -/
theorem C92_flat (v : Nat → UInt8) (hflat : ∀ c y x, c < Spec.componentCount ct → y < h.toNat → x < w.toNat → P c y x = v c) : Spec.Encodes p strict fun bytes _ =>
    bytes.length ≤ 6400 + ((calls.flatMap Spec.Call.segments).map fun s => s.2.length + 4).sum + Spec.componentCount ct * ((w.toNat + 31) / 8 * ((h.toNat + 31) / 8)) *
      (7 + (e.getProgressiveScans.map UInt8.toNat).getD 1 * if e.getRestartInterval.isSome then 8 else 4) := by
  refine ((C92_content hpf hc hp hs h8 hst).and (Q' := fun _ d => ∃ f, d.frame = some f ∧ f.comps.length = Spec.componentCount ct ∧
    ∀ c y x k, c < Spec.componentCount ct → 1 ≤ k → k < 64 → d.coefs c y x k = 0) ?_).mono ?_
  · refine encodes_of hpf hc hp hs h8 hst fun image t hct hw hh ht => ?_
    subst hct hw hh
    refine ⟨_, rfl, ?_, fun c y x k hcc h1 hk => ?_⟩
    · show ((initComponents e.samplingFactor image.colorType).map _).length = _
      rw [List.length_map]
      cases image.colorType <;> rfl
    · rcases coefsAfter_or (f := mkFrame e.mode.isProg image.width image.height (initComponents e.samplingFactor image.colorType)) (t := t)
        (E := e.coefs (dctFn simd) image P) (e.mode.scans (initComponents e.samplingFactor image.colorType)) (fun _ _ _ _ => 0) c y x k with h | h
      · exact h.trans (coefs_flat simd e image P hs.width hs.height (fun y x hy hx => hflat c y x hcc hy hx) y x h1 hk)
      · exact h
  · rintro bytes d ⟨⟨f, hf, hlen⟩, f', hf', hn, hz⟩
    obtain rfl : f = f' := Option.some.inj (hf.symm.trans hf')
    have hac : ∀ c y x, c < Spec.componentCount ct → Spec.acNonzero d.coefs c y x = 0 := by
      intro c y x hcc
      refine List.countP_eq_zero.mpr fun i hi => ?_
      have := List.mem_range.mp hi
      simp [hz c y x (1 + i) hcc (by omega) (by omega)]
    have hidx : ∀ ci ∈ f.comps.zipIdx, ci.2 < Spec.componentCount ct := by
      intro ci hci
      have := (List.getElem?_eq_some_iff.mp (List.mem_zipIdx_iff_getElem?.mp hci)).1
      omega
    have h1 : Spec.nonzeroCoefs f d.coefs = 0 := by
      refine List.sum_eq_zero fun n hn => ?_
      obtain ⟨ci, hci, rfl⟩ := List.mem_map.mp hn
      refine List.sum_eq_zero fun n hn => ?_
      obtain ⟨p, -, rfl⟩ := List.mem_map.mp hn
      exact hac _ _ _ (hidx ci hci)
    have h2 : Spec.busyBlocks f d.coefs = 0 := by
      refine List.sum_eq_zero fun n hn => ?_
      obtain ⟨ci, hci, rfl⟩ := List.mem_map.mp hn
      refine List.countP_eq_zero.mpr fun p _ => ?_
      simp [hac _ _ _ (hidx ci hci)]
    rw [h1, h2] at hlen
    exact hlen

end

-- the bound for a grey image of 1000x1000 pixels: without contents, with 2000 nonzero coefficients in 500 blocks, and for any contents
example : Spec.contentBytes [] 1 1000 1000 1 false 0 0 = 186624 ∧ Spec.contentBytes [] 1 1000 1000 1 false 500 2000 = 208624 ∧
    Spec.enoughBytes [] 1 1000 1000 1 false = 6838528 := by decide

-- a flat progressive color image with restart intervals
example : ∃ e, Configured ⟨true, 8⟩ 60 [.setProgressive true, .setRestartInterval 7] e ∧ Spec.EightBit e.getQuantizationTables ∧ ScansFine true e ∧
    (∀ P, Spec.Supported ⟨true, 8⟩ true e .ycbcr 123 45 P) ∧ ∃ P : Nat → Nat → Nat → UInt8, ∃ v : Nat → UInt8, v 0 ≠ v 1 ∧
      ∀ c y x, c < Spec.componentCount .ycbcr → y < (45 : UInt16).toNat → x < (123 : UInt16).toNat → P c y x = v c := by
  obtain ⟨e, h1, h2⟩ := reachable_exists ⟨true, 8⟩ 60 [.setProgressive true, .setRestartInterval 7] (by decide)
  refine ⟨e, h1, ?_, ?_, fun P => ⟨by decide, by decide, Or.inl rfl, Or.inl (by rw [h2.optimized]; rfl)⟩, fun c _ _ => if c = 0 then 7 else 200,
    fun c => if c = 0 then 7 else 200, by decide, fun _ _ _ _ _ _ => rfl⟩
  · rw [h2.quant]; rintro t (h | h) <;> cases h
  · intro _; rw [h2.scans]; decide

end Jpeg
