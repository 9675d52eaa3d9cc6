import Verif.Proofs.Checked
import Verif.Props.Memory
/-! Debug builds: success shows that the image could be coded. -/
namespace Jpeg

section
variable {pf : Platform} (hpf : pf.Valid) (hck : pf.checked = true) {image : ImageBuffer} {P : Nat → Nat → Nat → UInt8} (hd : Delivers image P)
  (hw : image.width ≠ 0) (hh : image.height ≠ 0)
include hpf hck hd hw hh

/-- A debug build that has read the whole image had enough memory. -/
theorem encodeBlocks_fits (op : Operations) (q : QuantizationTable × QuantizationTable) {e : Encoder} {mh mv : Nat} (hg : Grid e.components mh mv)
    (hnc : image.colorType.numComponents = e.components.length) {b : Blocks} (h : encodeBlocks pf e op image q = .ok b) :
    Fits pf mh mv image.width.toNat image.height.toNat := by
  have hw' : image.width.toNat ≠ 0 := fun h0 => hw (UInt16.toNat_inj.mp h0)
  have hh' : image.height.toNat ≠ 0 := fun h0 => hh (UInt16.toNat_inj.mp h0)
  rcases hpf with h4 | h8
  · by_contra hn
    rw [encodeBlocks_capacity hd hw' hh' h4 op q hg hn (.inr hck) hnc] at h
    cases h
  · exact Fits.of64 h8 image.width.toNat_lt image.height.toNat_lt hw' hh' hg.mh hg.mv

/-- A debug build that succeeds shows that the image fits into memory and that the tables code it. -/
theorem works_checked {simd : Bool} {e : Encoder} (hwf : e.Wf) {o : Bytes} {a : Unit} {s : BitState}
    (h : Emits (e.encodeImageInternal pf (opsFor simd) image) (BitState.init pf) o a s) :
    (Fits pf (maxSamplingSize (initComponents e.samplingFactor image.colorType)).1 (maxSamplingSize (initComponents e.samplingFactor image.colorType)).2
      image.width.toNat image.height.toNat ∨ e.mode = .interleaved) ∧ ∃ t, Works simd e image P t := by
  have hw' : image.width.toNat ≠ 0 := fun h0 => hw (UInt16.toNat_inj.mp h0)
  have hh' : image.height.toNat ≠ 0 := fun h0 => hh (UInt16.toNat_inj.mp h0)
  obtain ⟨hg, hnc⟩ := initComponents_grid e.samplingFactor image.colorType
  have hl0 := steps_length e.quantizationTables.1 e.quality.toNat true
  have hl1 := steps_length e.quantizationTables.2 e.quality.toNat false
  have hs0 := steps_range e.quantizationTables.1 e.quality.toNat true
  have hs1 := steps_range e.quantizationTables.2 e.quality.toNat false
  have hbl := encodeBlocks_ok hd hw' hh' hpf (opOk_for simd) hl0 hl1 hs0 hs1 (e := e.atWork image.colorType) hg hnc.symm
  have hfits := fun b => encodeBlocks_fits hpf hck hd hw hh (opsFor simd) (mkQ e.steps0, mkQ e.steps1) (e := e.atWork image.colorType) hg hnc.symm (b := b)
  unfold Encoder.encodeImageInternal at h
  rw [if_neg (by simp [hw, hh])] at h
  obtain ⟨q0, e0, h⟩ := Emits.lift_bind_inv h
  obtain ⟨q1, e1, h⟩ := Emits.lift_bind_inv h
  rw [newWithQuality_eq] at e0 e1
  obtain rfl := Except.ok.inj e0
  obtain rfl := Except.ok.inj e1
  dsimp only at h
  obtain ⟨_, _, _, _, -, h, -⟩ := Emits.bind_inv h
  obtain ⟨_, _, _, _, -, h, -⟩ := Emits.bind_inv h
  obtain ⟨_, _, _, _, -, h, -⟩ := Emits.bind_inv h
  obtain ⟨_, _, _, _, -, h, -⟩ := Emits.bind_inv h
  obtain ⟨_, _, _, _, h, -, -⟩ := Emits.bind_inv h
  -- the result for the modes that keep the image
  have concl : Fits pf (maxSamplingSize (initComponents e.samplingFactor image.colorType)).1 (maxSamplingSize (initComponents e.samplingFactor image.colorType)).2
      image.width.toNat image.height.toNat → ∀ e', (e.atWork image.colorType).optimizeIf pf (e.blocks (dctFn simd) image P) = .ok e' →
      (∀ t, e' = (e.atWork image.colorType).withTables t → DcWritten pf e image.colorType (e.blocks (dctFn simd) image P) t) →
      ∃ t, Works simd e image P t := by
    intro hfit e' he' hdc
    cases ho : e.optimizeHuffmanTable with
    | false => exact ⟨e.huffmanTables, fun _ _ => optimizeIf_off ho _ _, codable_default (opOk_for simd) hwf⟩
    | true =>
      have hE := coefsOf_bounds (opOk_for simd) hl0 hl1 hs0 hs1 image.width.toNat image.height.toNat P
        (maxSamplingSize (initComponents e.samplingFactor image.colorType)).1 (maxSamplingSize (initComponents e.samplingFactor image.colorType)).2
        (initComponents e.samplingFactor image.colorType)
      have hbo := allBlocks_of (dctFn simd) e.steps0 e.steps1 image.width.toNat image.height.toNat P
        (maxSamplingSize (initComponents e.samplingFactor image.colorType)).1 (maxSamplingSize (initComponents e.samplingFactor image.colorType)).2
        (initComponents e.samplingFactor image.colorType)
      have hsz := countsOk_made hpf hwf ho hw hh hE hbo he' fun t p hp => optimizeTable_total hck hpf hwf.scans hp
      obtain ⟨t, h1, -, -⟩ := optimized_of hwf hE hbo hw hh ho hsz
      obtain ⟨t', h2, -, h3⟩ := optimizesWell_checked hpf hck hwf ho hw hh _ _ hE hbo e' he'
      have h4 := hdc t' h2
      have he2 := he'
      have h5 := h1 pf hpf
      rw [show allBlocks (dctFn simd) e.steps0 e.steps1 image.width.toNat image.height.toNat P
        (maxSamplingSize (initComponents e.samplingFactor image.colorType)).1 (maxSamplingSize (initComponents e.samplingFactor image.colorType)).2
        (initComponents e.samplingFactor image.colorType) = e.blocks (dctFn simd) image P from rfl, he'] at h5
      have h6 := Except.ok.inj h5
      rw [h2] at h6
      have htt : t' = t := congrArg Encoder.huffmanTables h6
      subst htt
      exact ⟨t', h1, ⟨(h3 h4).tabs, (h3 h4).units⟩⟩
  unfold Encoder.encodeScans at h
  change Emits (match e.progressiveScans with
    | some scans => (e.atWork image.colorType).encodeProgressive pf (opsFor simd) image scans (mkQ e.steps0, mkQ e.steps1)
    | none => if e.optimizeHuffmanTable || !e.samplingFactor.supportsInterleaved then
        (e.atWork image.colorType).encodeSequential pf (opsFor simd) image (mkQ e.steps0, mkQ e.steps1)
      else (e.atWork image.colorType).encodeInterleaved pf (opsFor simd) image (mkQ e.steps0, mkQ e.steps1)) _ _ _ _ at h
  cases hps : e.progressiveScans with
  | some n =>
    rw [hps] at h
    dsimp only at h
    unfold Encoder.encodeProgressive at h
    obtain ⟨b, hb, h⟩ := Emits.lift_bind_inv h
    have hfit := hfits b hb
    obtain rfl : e.blocks (dctFn simd) image P = b := Except.ok.inj ((hbl hfit).symm.trans hb)
    obtain ⟨e', he', h⟩ := Emits.lift_bind_inv h
    obtain ⟨_, _, _, _, -, h, -⟩ := Emits.bind_inv h
    obtain ⟨_, _, _, _, h, -, -⟩ := Emits.bind_inv h
    refine ⟨.inl hfit, concl hfit e' he' ?_⟩
    rintro t rfl
    exact Or.inr ⟨_, _, _, h⟩
  | none =>
    rw [hps] at h
    dsimp only at h
    by_cases hseq : (e.optimizeHuffmanTable || !e.samplingFactor.supportsInterleaved) = true
    · rw [if_pos hseq] at h
      unfold Encoder.encodeSequential at h
      obtain ⟨b, hb, h⟩ := Emits.lift_bind_inv h
      have hfit := hfits b hb
      obtain rfl : e.blocks (dctFn simd) image P = b := Except.ok.inj ((hbl hfit).symm.trans hb)
      obtain ⟨e', he', h⟩ := Emits.lift_bind_inv h
      obtain ⟨_, _, _, _, -, h, -⟩ := Emits.bind_inv h
      refine ⟨.inl hfit, concl hfit e' he' ?_⟩
      rintro t rfl
      exact Or.inl ⟨_, _, _, h⟩
    · have hmode : e.mode = .interleaved := by simp only [Encoder.mode, hps, if_neg hseq]
      have ho : e.optimizeHuffmanTable = false := by
        simp only [Bool.or_eq_true, not_or, Bool.not_eq_true] at hseq
        exact hseq.1
      exact ⟨.inr hmode, e.huffmanTables, fun _ _ => optimizeIf_off ho _ _, codable_default (opOk_for simd) hwf⟩
end
end Jpeg
