import Verif.Proofs.Safe
import Verif.Proofs.Interleaved
/-! Which failures `encode_image` can have, whatever the image and the settings are. -/
namespace Jpeg
open WM
set_option maxRecDepth 10000

/-- Filling the row buffers has only admitted failures, in both ways the encoder does it; `I` is an invariant of the row buffers. -/
structure FillFine (A : Fail → Prop) (pf : Platform) (image : ImageBuffer) (comps : List Component) : Prop where
  rows : ∃ I : Nat → Rows → Prop,
    (∀ numCols bw bs r, ceilDiv image.width.toNat (8 * (maxSamplingSize comps).1) = .ok numCols → ckUsize pf ((numCols * 8 * (maxSamplingSize comps).1 : Nat) : Int) = .ok bw →
      ckUsize pf ((bw * 8 * (maxSamplingSize comps).2 : Nat) : Int) = .ok bs → initRows pf comps.length bs = .ok r → I bw r) ∧
    ∀ bw numRows r y, ceilDiv image.height.toNat (8 * (maxSamplingSize comps).2) = .ok numRows → y < numRows → I bw r →
      ROnly A (fillMcuRow pf image (maxSamplingSize comps).2 bw y r) ∧ ∀ r', fillMcuRow pf image (maxSamplingSize comps).2 bw y r = .ok r' → I bw r'
  all : ∀ a numCols b numRows bw n bs r, ceilDiv image.width.toNat (8 * (maxSamplingSize comps).1) = .ok a → ckUsize pf ((a * (maxSamplingSize comps).1 : Nat) : Int) = .ok numCols →
    ceilDiv image.height.toNat (8 * (maxSamplingSize comps).2) = .ok b → ckUsize pf ((b * (maxSamplingSize comps).2 : Nat) : Int) = .ok numRows →
    ckUsize pf ((numCols * 8 : Nat) : Int) = .ok bw → ckUsize pf ((numCols * numRows : Nat) : Int) = .ok n → ckUsize pf ((n * 64 : Nat) : Int) = .ok bs →
    initRows pf comps.length bs = .ok r → ROnly A (forFoldR (List.range (numRows * 8)) r fun rows y => fillLine image y bw rows)

section
variable {A : Fail → Prop} (hA : Lax A)

theorem fillLine_only {image : ImageBuffer} (hf : ∀ y r, ROnly A (image.fillBuffers y r)) (y bw : Nat) (r : Rows) : ROnly A (fillLine image y bw r) := by
  unfold fillLine
  exact (hf _ _).bind fun _ => .forFoldR fun _ _ => .ok _

include hA

/-- Image buffers whose `fill_buffers` never fails badly. -/
theorem FillFine.of_safe (pf : Platform) {image : ImageBuffer} (hf : ∀ y r, ROnly A (image.fillBuffers y r)) (comps : List Component) : FillFine A pf image comps where
  rows := ⟨fun _ _ => True, fun _ _ _ _ _ _ _ _ => trivial, fun bw _ r y _ _ _ => ⟨by
    unfold fillMcuRow
    exact .forFoldR fun r y => (ckUsize_only hA _ _).bind fun _ => fillLine_only hf _ _ _, fun _ _ => trivial⟩⟩
  all := fun _ _ _ _ _ _ _ _ _ _ _ _ _ _ _ _ => .forFoldR fun _ _ => fillLine_only hf _ _ _

omit hA in
theorem initRows_inv {pf : Platform} {nc size : Nat} (hn : nc = 1 ∨ nc = 3 ∨ nc = 4) {r : Rows} (h : initRows pf nc size = .ok r) :
    r = mkRows nc size fun _ => [] := by
  by_cases hs : size < 2 ^ (pf.wordBits - 1)
  · rw [initRows_ok pf hn hs] at h
    cases h
    rfl
  · unfold initRows withCapacity at h
    rw [if_neg (by omega)] at h
    cases h

omit hA in
/-- Image buffers that honour the contract, and on 32 bit targets images of less than 2^32 padded samples. -/
theorem FillFine.of_padded {pf : Platform} (hpf : pf.Valid) {image : ImageBuffer} {P : Nat → Nat → Nat → UInt8} (hd : Delivers image P)
    (hw : image.width.toNat ≠ 0) (hh : image.height.toNat ≠ 0) (sf : SamplingFactor)
    (hfit : _root_.Spec.ceilDiv image.width.toNat (8 * (maxSamplingSize (initComponents sf image.colorType)).1) *
        (8 * (maxSamplingSize (initComponents sf image.colorType)).1) *
      (_root_.Spec.ceilDiv image.height.toNat (8 * (maxSamplingSize (initComponents sf image.colorType)).2) *
        (8 * (maxSamplingSize (initComponents sf image.colorType)).2)) < 2 ^ pf.wordBits) : FillFine A pf image (initComponents sf image.colorType) := by
  obtain ⟨hg, hnc⟩ := initComponents_grid sf image.colorType
  have hn := hg.nc
  have hmh := hg.mh
  have hmv := hg.mv
  rw [hnc] at hn
  have hwl : image.width.toNat < 65536 := image.width.toNat_lt
  have hhl : image.height.toNat < 65536 := image.height.toNat_lt
  have hw2 : (2 : Nat) ^ 32 ≤ 2 ^ pf.wordBits := by
    apply Nat.pow_le_pow_right (by omega)
    rcases hpf with h | h <;> simp [Platform.wordBits, h]
  generalize initComponents sf image.colorType = comps at *
  generalize hmm : maxSamplingSize comps = m at *
  obtain ⟨mh, mv⟩ := m
  dsimp only at hmh hmv hfit
  obtain ⟨wa, wb, wc⟩ := ceil_mul_lt hmh.1 hmh.2 (show 1 ≤ image.width.toNat by omega)
  obtain ⟨ha, hb, hc⟩ := ceil_mul_lt hmv.1 hmv.2 (show 1 ≤ image.height.toNat by omega)
  have eW : (image.width.toNat + 8 * mh - 1) / (8 * mh) = _root_.Spec.ceilDiv image.width.toNat (8 * mh) := rfl
  have eH : (image.height.toNat + 8 * mv - 1) / (8 * mv) = _root_.Spec.ceilDiv image.height.toNat (8 * mv) := rfl
  generalize hA : _root_.Spec.ceilDiv image.width.toNat (8 * mh) = a at *
  generalize hB : _root_.Spec.ceilDiv image.height.toNat (8 * mv) = b at *
  have eA : a * (8 * mh) = a * 8 * mh := by ring
  have eA' : a * (8 * mh) = a * mh * 8 := by ring
  have eB : b * (8 * mv) = b * mv * 8 := by ring
  constructor
  · rw [hmm]
    dsimp only
    refine ⟨fun bw r => image.width.toNat ≤ bw ∧ ∃ cap D, bw * (8 * mv) ≤ cap ∧ r = mkRows image.colorType.numComponents cap D, ?_, ?_⟩
    · intro nc bw bs r h1 h2 h3 h4
      rw [ceilDiv_eq (by omega), eW] at h1
      cases h1
      rw [ckUsize_of_lt (by omega)] at h2
      cases h2
      have : a * 8 * mh * (8 * mv) ≤ 65567 * 32 := Nat.mul_le_mul (by omega) (by omega)
      rw [ckUsize_of_lt (by rw [Nat.mul_assoc _ 8 mv]; omega)] at h3
      cases h3
      rw [hnc] at h4
      refine ⟨by omega, _, _, ?_, initRows_inv hn h4⟩
      rw [Nat.mul_assoc _ 8 mv]
    · rintro bw nr r y h1 hy ⟨hbw, cap, D, hcap, rfl⟩
      rw [ceilDiv_eq (by omega), eH] at h1
      cases h1
      have hyy : (y + 1) * (8 * mv) ≤ b * (8 * mv) := Nat.mul_le_mul hy (le_refl _)
      have h := fillMcuRow_ok hd hw hh hpf hbw hcap (y := y) (by omega) D
      exact ⟨fun f hf => (by rw [h] at hf; cases hf), fun r' hr' => (by rw [h] at hr'; cases hr'; exact ⟨hbw, _, _, hcap, rfl⟩)⟩
  · rw [hmm]
    dsimp only
    intro a' nc b' nr bw n bs r h1 h2 h3 h4 h5 h6 h7 h8
    rw [eA', eB] at hfit
    have hAB : a * mh * (b * mv) * 64 = a * mh * 8 * (b * mv * 8) := by ring
    rw [ceilDiv_eq (by omega), eW] at h1
    cases h1
    rw [ckUsize_of_lt (by omega)] at h2
    cases h2
    rw [ceilDiv_eq (by omega), eH] at h3
    cases h3
    rw [ckUsize_of_lt (by omega)] at h4
    cases h4
    rw [ckUsize_of_lt (by omega)] at h5
    cases h5
    rw [ckUsize_of_lt (by omega)] at h6
    cases h6
    rw [ckUsize_of_lt (by omega)] at h7
    cases h7
    rw [hnc] at h8
    rw [initRows_inv hn h8, fillLines_ok hd hw hh (by omega) _ _ (by
      intro c _; simp only [List.length_nil, List.length_range]; omega)]
    exact .ok _

omit hA in
theorem FillFine.of_delivers {pf : Platform} (hpf : pf.Valid) {image : ImageBuffer} {P : Nat → Nat → Nat → UInt8} (hd : Delivers image P)
    (hw : image.width.toNat ≠ 0) (hh : image.height.toNat ≠ 0) (sf : SamplingFactor)
    (hfit : (image.width.toNat + 31) * (image.height.toNat + 31) < 2 ^ pf.wordBits) : FillFine A pf image (initComponents sf image.colorType) := by
  obtain ⟨hg, -⟩ := initComponents_grid sf image.colorType
  obtain ⟨-, wb, -⟩ := ceil_mul_lt hg.mh.1 hg.mh.2 (show 1 ≤ image.width.toNat by omega)
  obtain ⟨-, hb, -⟩ := ceil_mul_lt hg.mv.1 hg.mv.2 (show 1 ≤ image.height.toNat by omega)
  exact FillFine.of_padded hpf hd hw hh sf (lt_of_le_of_lt (Nat.mul_le_mul wb hb) hfit)

variable {pf : Platform} (hpf : pf.Valid) (simd : Bool)

theorem processBlock_only (q : QuantizationTable × QuantizationTable) (c : Component) (d : Bytes) (a b e g w : Nat) :
    ROnly A (processBlock pf (if simd then avx2Operations else defaultOperations) q c d a b e g w) := by
  unfold processBlock
  exact (getBlock_only hA _ _ _ _ _ _ _).bind fun _ => (op_only hA _ _ _).bind fun _ => (pairIdx_only hA _ _).bind fun _ => quantizeBlock_only hA _ _ _
macro_rules | `(tactic| only_step) => `(tactic| first | with_reducible exact processBlock_only (by assumption) _ _ _ _ _ _ _ _ _)

theorem encodeMcuBlock_only (e : Encoder) (q : QuantizationTable × QuantizationTable)
    (rows : Rows) (a b c d i : Nat) (k : Component) (v h : Nat) (p : List Int) :
    (encodeMcuBlock pf e (if simd then avx2Operations else defaultOperations) q rows a b c d i k v h p).Only A := by unfold encodeMcuBlock; only
macro_rules | `(tactic| only_step) => `(tactic| first | with_reducible exact encodeMcuBlock_only (by assumption) _ _ _ _ _ _ _ _ _ _ _ _ _)
theorem encodeMcu_only (e : Encoder) (q : QuantizationTable × QuantizationTable) (rows : Rows) (a b c d : Nat) (p : List Int) :
    (encodeMcu pf e (if simd then avx2Operations else defaultOperations) q rows a b c d p).Only A := by
  unfold encodeMcu; only

include hpf

theorem encodeInterleaved_only (e : Encoder) {image : ImageBuffer} (hf : FillFine A pf image e.components) (q : QuantizationTable × QuantizationTable) :
    (e.encodeInterleaved pf (if simd then avx2Operations else defaultOperations) image q).Only A := by
  obtain ⟨I, hI, hfill⟩ := hf.rows
  unfold Encoder.encodeInterleaved
  generalize hm : maxSamplingSize e.components = m at *
  obtain ⟨mh, mv⟩ := m
  dsimp only at hI hfill ⊢
  refine WM.Only.bind' (encWriteFrameHeader_only hA _ _ _ _) fun _ => WM.Only.bind' (writeScanHeader_only hA _ _ _) fun _ =>
    WM.Only.lift_bind (ceilDiv_only hA _ _) fun nc hnc => WM.Only.lift_bind (ceilDiv_only hA _ _) fun nr hnr => WM.Only.lift_bind (ckUsize_only hA _ _) fun bw hbw =>
    WM.Only.lift_bind (ckUsize_only hA _ _) fun bs hbs => WM.Only.lift_bind (initRows_only hA _ _ _) fun rows hrows => WM.Only.bind' ?_ fun _ => finalize_only hA hpf
  refine WM.Only.forFold_of (fun st => I bw st.1) (hI _ _ _ _ hnc hbw hbs hrows) ?_
  intro st y hy hst b hb
  obtain ⟨h1, h2⟩ := hfill bw nr st.1 y hnr (List.mem_range.mp hy) hst
  cases hr : fillMcuRow pf image mv bw y st.1 with
  | error f => exact h1 f hr
  | ok r =>
    show Prog.Only A _ (WM.bind (scanLoop pf e.interval (fun _ => [0, 0, 0, 0])
      (fun blockX prevDc => encodeMcu pf e (if simd then avx2Operations else defaultOperations) q r mh mv bw blockX prevDc) (List.range nc) st.2)
      (fun s => WM.pure (r, s)) b)
    refine Prog.Only.bind (I := fun _ => FreeOk) (scanLoop_only hA hpf _ _ _ _ _ (fun x s => encodeMcu_only hA simd _ _ _ _ _ _ _ _) b hb) (fun a s hs => ?_) fun _ => rfl
    exact ⟨h2 r hr, hs⟩

omit hpf in
theorem encodeBlocks_only (e : Encoder) {image : ImageBuffer} (hf : FillFine A pf image e.components) (q : QuantizationTable × QuantizationTable) :
    ROnly A (encodeBlocks pf e (if simd then avx2Operations else defaultOperations) image q) := by
  have hall := hf.all
  unfold encodeBlocks
  generalize hm : maxSamplingSize e.components = m at *
  obtain ⟨mh, mv⟩ := m
  dsimp only at hall ⊢
  refine (ceilDiv_only hA _ _).bind_of fun a ha => (ckUsize_only hA _ _).bind_of fun nc hnc => (ceilDiv_only hA _ _).bind_of fun b hb => (ckUsize_only hA _ _).bind_of fun nr hnr =>
    (debugAssert_only hA _ _).bind fun _ => (debugAssert_only hA _ _).bind fun _ => (ckUsize_only hA _ _).bind_of fun bw hbw => (ckUsize_only hA _ _).bind_of fun n hn =>
    (ckUsize_only hA _ _).bind_of fun bs hbs => (initRows_only hA _ _ _).bind_of fun r hr => (hall a nc b nr bw n bs r ha hnc hb hnr hbw hn hbs hr).bind fun rows => ?_
  unfold componentBlocks
  only

theorem sequentialScan_only (e : Encoder) (b : Blocks) (ci : Component × Nat) : (sequentialScan pf e b ci).Only A := by
  unfold sequentialScan
  refine WM.Only.bind' (writeScanHeader_only hA _ _ _) fun _ => WM.Only.lift_bind' (idx_only hA _ _) fun _ =>
    WM.Only.bind' (scanLoop_only hA hpf _ _ _ _ _ fun _ _ => by only) fun _ => finalize_only hA hpf
theorem dcScan_only (e : Encoder) (b : Blocks) (ci : Component × Nat) : (dcScan pf e b ci).Only A := by
  unfold dcScan
  refine WM.Only.bind' (writeScanHeader_only hA _ _ _) fun _ => WM.Only.lift_bind' (idx_only hA _ _) fun _ =>
    WM.Only.bind' (scanLoop_only hA hpf _ _ _ _ _ fun _ _ => by only) fun _ => finalize_only hA hpf
theorem acScan_only (e : Encoder) (b : Blocks) (band : Nat × Nat) (ci : Component × Nat) : (acScan pf e b band ci).Only A := by
  unfold acScan
  refine WM.Only.lift_bind' (ckU_only hA _ _ _) fun _ => WM.Only.bind' (writeScanHeader_only hA _ _ _) fun _ => WM.Only.lift_bind' (idx_only hA _ _) fun _ =>
    WM.Only.bind' (scanLoop_only hA hpf _ _ _ _ _ fun _ _ => by only) fun _ => finalize_only hA hpf
omit hpf in
theorem acBands_only (n : Nat) : ROnly A (acBands pf n) := by unfold acBands; only

theorem encodeSequential_only (e : Encoder) {image : ImageBuffer} (hf : FillFine A pf image e.components) (q : QuantizationTable × QuantizationTable)
    (ho : ∀ b, encodeBlocks pf e (if simd then avx2Operations else defaultOperations) image q = .ok b → ROnly A (e.optimizeIf pf b)) :
    (e.encodeSequential pf (if simd then avx2Operations else defaultOperations) image q).Only A := by
  unfold Encoder.encodeSequential
  exact WM.Only.lift_bind (encodeBlocks_only hA simd e hf q) fun b hb => WM.Only.lift_bind' (ho b hb) fun e => WM.Only.bind' (encWriteFrameHeader_only hA _ _ _ _) fun _ =>
    WM.Only.forEach fun _ => sequentialScan_only hA hpf _ _ _

theorem encodeProgressive_only (e : Encoder) {image : ImageBuffer} (hf : FillFine A pf image e.components) (n : UInt8) (q : QuantizationTable × QuantizationTable)
    (ho : ∀ b, encodeBlocks pf e (if simd then avx2Operations else defaultOperations) image q = .ok b → ROnly A (e.optimizeIf pf b)) :
    (e.encodeProgressive pf (if simd then avx2Operations else defaultOperations) image n q).Only A := by
  unfold Encoder.encodeProgressive
  exact WM.Only.lift_bind (encodeBlocks_only hA simd e hf q) fun b hb => WM.Only.lift_bind' (ho b hb) fun e => WM.Only.bind' (encWriteFrameHeader_only hA _ _ _ _) fun _ =>
    WM.Only.bind' (WM.Only.forEach fun _ => dcScan_only hA hpf _ _ _) fun _ => WM.Only.lift_bind' (acBands_only hA _) fun _ =>
    WM.Only.forEach fun _ => WM.Only.forEach fun _ => acScan_only hA hpf _ _ _ _

omit hpf in
theorem newWithQuality_only (t : QuantizationTableType) (n : Nat) (l : Bool) : ROnly A (QuantizationTable.newWithQuality t n l) := by
  unfold QuantizationTable.newWithQuality getUserTable getWithQuality nonZeroShl3
  cases t <;> unfold QuantizationTableType.index <;> only
omit hpf in
theorem writeAdobe_only (c : JpegColorType) : (writeAdobe pf c).Only A := by
  cases c <;> unfold writeAdobe <;> only

/-- `encode_image` has only admitted failures, provided `fill_buffers` and `optimize_huffman_table` have. -/
theorem encodeImageInternal_only (e : Encoder) {image : ImageBuffer}
    (hzero : image.width = 0 ∨ image.height = 0 → A (.err (.zeroImageDimensions image.width image.height)))
    (hf : FillFine A pf image (initComponents e.samplingFactor image.colorType))
    (ho : image.width ≠ 0 → image.height ≠ 0 → ∀ q0 q1 b, QuantizationTable.newWithQuality e.quantizationTables.1 e.quality.toNat true = .ok q0 →
      QuantizationTable.newWithQuality e.quantizationTables.2 e.quality.toNat false = .ok q1 →
      encodeBlocks pf { e with components := initComponents e.samplingFactor image.colorType } (if simd then avx2Operations else defaultOperations) image (q0, q1) = .ok b →
      ROnly A (Encoder.optimizeIf pf { e with components := initComponents e.samplingFactor image.colorType } b)) :
    (e.encodeImageInternal pf (if simd then avx2Operations else defaultOperations) image).Only A := by
  unfold Encoder.encodeImageInternal
  by_cases hz : image.width = 0 ∨ image.height = 0
  · rw [if_pos hz]
    exact WM.Only.lift (.error (hzero hz))
  · rw [if_neg hz]
    refine WM.Only.lift_bind (newWithQuality_only hA _ _ _) fun q0 hq0 => WM.Only.lift_bind (newWithQuality_only hA _ _ _) fun q1 hq1 => ?_
    dsimp only
    refine WM.Only.bind' (writeMarker_only hA _ _) fun _ => WM.Only.bind' (writeHeader_only hA _ _) fun _ => WM.Only.bind' (writeAdobe_only hA _) fun _ =>
      WM.Only.bind' (WM.Only.forEach fun _ => writeSegment_only hA _ _ _) fun _ => WM.Only.bind' ?_ fun _ => writeMarker_only hA _ _
    unfold Encoder.encodeScans
    have ho' := fun b => ho (by tauto) (by tauto) q0 q1 b hq0 hq1
    split
    · exact encodeProgressive_only hA hpf simd _ hf _ _ ho'
    · exact WM.Only.ite (encodeSequential_only hA hpf simd _ hf _ ho') (encodeInterleaved_only hA hpf simd _ hf _)

omit hpf in
theorem createLookupTable_only (l v : List Nat) : ROnly A (createLookupTable pf l v) := by
  unfold createLookupTable createSizes createCodes
  have h1 : ∀ l a b, ROnly A (createCodesLoop pf l a b) := by
    intro l
    induction l with
    | nil => intro a b; unfold createCodesLoop; only
    | cons x l ih =>
      intro a b
      unfold createCodesLoop
      repeat (first | with_reducible exact ih _ _ | with_reducible intro _ | only_step)
  have h2 : ∀ s c l a b, ROnly A (lookupLoop s c l a b) := by
    intro s c l
    induction l with
    | nil => intro a b; unfold lookupLoop; only
    | cons x l ih =>
      intro a b
      unfold lookupLoop
      repeat (first | with_reducible exact ih _ _ | with_reducible intro _ | only_step)
  repeat (first | with_reducible exact h1 _ _ _ | with_reducible exact h2 _ _ _ _ _ | with_reducible intro _ | only_step)

omit hpf in
/-- `optimize_huffman_table`, if non-termination is admitted. -/
theorem optimizeIf_loose (hd : A .diverge) (e : Encoder) (b : Blocks) : ROnly A (e.optimizeIf pf b) := by
  have hdiv : ∀ {α : Type}, ROnly A (.error .diverge : R α) := .error hd
  have hbump : ∀ f i, ROnly A (bumpFreq pf f i) := fun f i => by unfold bumpFreq; only
  have hnbl : ∀ n v k, ROnly A (numBitsLoop pf n v k) := by
    intro n
    induction n with
    | zero => intro v k; exact hdiv
    | succ n ih =>
      intro v k
      unfold numBitsLoop
      repeat (first | with_reducible exact ih _ _ | with_reducible intro _ | only_step)
  have hnb : ∀ v, ROnly A (getNumBits pf v) := fun v => by
    unfold getNumBits
    exact (ckI_only hA _ _ _).bind fun _ => hnbl _ _ _
  have hzrl : ∀ n z f, ROnly A (zrlStats pf n z f) := by
    intro n
    induction n with
    | zero => intro z f; exact hdiv
    | succ n ih =>
      intro z f
      unfold zrlStats
      repeat (first | with_reducible exact ih _ _ | with_reducible exact hbump _ _ | with_reducible intro _ | only_step)
  have hacl : ∀ l z f, ROnly A (acStatsLoop pf l z f) := by
    intro l
    induction l with
    | nil => intro z f; unfold acStatsLoop; only
    | cons x l ih =>
      intro z f
      unfold acStatsLoop
      refine .ite ((ckU_only hA _ _ _).bind fun _ => ih _ _) ((hzrl _ _ _).bind fun _ => (hnb _).bind fun _ => (shlU_only hA _ _ _ _).bind fun _ => (hbump _ _).bind fun _ => ih _ _)
  have hacb : ∀ i j b f, ROnly A (acStatsBlock pf i j b f) := fun i j b f => by
    unfold acStatsBlock
    exact (slice_only hA _ _ _).bind fun _ => (hacl _ _ _).bind fun _ => .ite (hbump _ _) (.ok _)
  have hac : ∀ p b f, ROnly A (acStats pf p b f) := fun p b f => by
    unfold acStats
    split
    · exact (acBands_only hA _).bind fun _ => .forFoldR fun _ _ => (debugAssert_only hA _ _).bind fun _ => .forFoldR fun _ _ => hacb _ _ _ _
    · exact .forFoldR fun _ _ => hacb _ _ _ _
  have hdc : ∀ b f, ROnly A (dcStats pf b f) := fun b f => by
    unfold dcStats
    refine (ROnly.forFoldR fun _ _ => ?_).bind fun _ => .ok _
    exact (idx_only hA _ _).bind fun _ => (ckI_only hA _ _ _).bind fun _ => (hnb _).bind fun _ => (hbump _ _).bind fun _ => .ok _
  have hst : ∀ p b t s ci, ROnly A (statsComponent pf p b t s ci) := fun p b t s ci => by
    unfold statsComponent
    refine (idx_only hA _ _).bind fun bs => ?_
    have hjp : ∀ s : Bool × Bool × List Nat × List Nat, ROnly A (if ci.1.acHuffmanTable = t then do
        let f ← acStats pf p bs s.2.2.2
        .ok (s.1, true, s.2.2.1, f)
      else .ok s) := fun s => .ite ((hac _ _ _).bind fun _ => .ok _) (.ok _)
    dsimp only
    split
    · exact (debugAssert_only hA _ _).bind fun _ => (hdc _ _).bind fun _ => (ROnly.ok _).bind fun _ => hjp _
    · exact (ROnly.ok _).bind fun _ => hjp _
  have hch : ∀ o n v c, ROnly A (bumpChain o n v c) := by
    intro o n
    induction n with
    | zero => intro v c; exact hdiv
    | succ n ih =>
      intro v c
      unfold bumpChain
      repeat (first | with_reducible exact ih _ _ | with_reducible intro _ | only_step)
  have hmerge : ∀ n f o c, ROnly A (mergeLoop pf n f o c) := by
    intro n
    induction n with
    | zero => intro f o c; exact hdiv
    | succ n ih =>
      intro f o c
      unfold mergeLoop
      split
      · exact .ok _
      · split
        · exact .ok _
        · exact (idx_only hA _ _).bind fun _ => (idx_only hA _ _).bind fun _ => (ckU_only hA _ _ _).bind fun _ => (setIdx_only hA _ _ _).bind fun _ => (setIdx_only hA _ _ _).bind fun _ =>
            (hch _ _ _ _).bind fun _ => (setIdx_only hA _ _ _).bind fun _ => (hch _ _ _ _).bind fun _ => ih _ _ _
  have hcount : ∀ l b, ROnly A (countBits pf l b) := by
    intro l
    induction l with
    | nil => intro b; unfold countBits; only
    | cons x l ih =>
      intro b
      unfold countBits
      repeat (first | with_reducible exact ih _ | with_reducible intro _ | only_step)
  have hfj : ∀ b n j, ROnly A (findJ pf b n j) := by
    intro b n
    induction n with
    | zero => intro j; exact hdiv
    | succ n ih =>
      intro j
      unfold findJ
      repeat (first | with_reducible exact ih _ | with_reducible intro _ | only_step)
  have hli : ∀ i n b, ROnly A (limitInner pf i n b) := by
    intro i n
    induction n with
    | zero => intro b; exact hdiv
    | succ n ih =>
      intro b
      unfold limitInner
      repeat (first | with_reducible exact ih _ | with_reducible exact hfj _ _ _ | with_reducible intro _ | only_step)
  have hll : ∀ n b, ROnly A (limitLoop pf n b) := by
    intro n
    induction n with
    | zero => intro b; unfold limitLoop; only
    | succ n ih =>
      intro b
      unfold limitLoop
      exact (hli _ _ _).bind fun _ => ih _
  have hdl : ∀ b n i, ROnly A (dropLast pf b n i) := by
    intro b n
    induction n with
    | zero => intro i; exact hdiv
    | succ n ih =>
      intro i
      unfold dropLast
      repeat (first | with_reducible exact ih _ | with_reducible intro _ | only_step)
  have hnew : ∀ f, ROnly A (HuffmanTable.newOptimized pf f) := fun f => by
    unfold HuffmanTable.newOptimized
    exact (hmerge _ _ _ _).bind fun _ => (hcount _ _).bind fun _ => (hll _ _).bind fun _ => (hdl _ _ _).bind fun _ => (createLookupTable_only hA _ _).bind fun _ => .ok _
  have ho : ∀ p c b t, ROnly A (optimizeTable pf p c b t) := fun p c b t => by
    unfold optimizeTable
    exact (ROnly.forFoldR fun _ _ => hst _ _ _ _ _).bind fun _ => (assert'_only hA _).bind fun _ => (assert'_only hA _).bind fun _ => (hnew _).bind fun _ => (hnew _).bind fun _ => .ok _
  unfold Encoder.optimizeIf Encoder.optimizeHuffman
  exact .ite ((ho _ _ _ _).bind fun _ => .ite ((ho _ _ _ _).bind fun _ => .ok _) (.ok _)) (.ok _)

end

/-- From the methods to the whole program and any writer. -/
theorem WM.Only.run {A : Fail → Prop} {α : Type} {m : WM α} (h : m.Only A) {pf : Platform} (hpf : pf.Valid) {σ : Type} (S : Sink σ)
    (hS : ∀ w c x, (S.writeAll w c).2 = some x → A (.err x)) (w : σ) : ROnly A ((m.program pf).run S w).2 := by
  have h0 : FreeOk (BitState.init pf) := by
    have := hpf.wordBits_eq
    constructor <;> dsimp only [BitState.init] <;> omega
  have h1 := h _ h0
  unfold WM.program
  generalize m (BitState.init pf) = p at h1
  induction p generalizing w with
  | done r =>
    cases r with
    | error f => exact .error h1
    | ok a => exact .ok _
  | write c k ih => exact ih _ _ (h1 _ fun x hx => hS w c x hx)

end Jpeg
