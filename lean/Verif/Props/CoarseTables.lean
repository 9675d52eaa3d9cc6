import Verif.Props.Standard
/-! C21, custom quantisation tables with entries above 255: exactly what happens. -/
namespace Jpeg
open _root_.Spec

theorem getD_mod {s : List Nat} (hl : s.length = 64) {z : Nat} (hz : z < 64) : (s.map (· % 256)).getD z 1 = s.getD z 1 % 256 := by
  simp [List.getD, hl, hz]

theorem dqtPayload_mod (dest : Nat) {s : List Nat} (hl : s.length = 64) : dqtPayload dest (s.map (· % 256)) = dqtPayload dest s := by
  unfold dqtPayload
  congr 1
  refine List.map_congr_left fun z hz => ?_
  rw [getD_mod hl (ZIGZAG_lt z hz), u8_mod]

/-- The file has only the low bytes of the entries. -/
theorem fileBytes_mod (den : Density) (ct : JpegColorType) (apps : List (UInt8 × Bytes)) (m : Mode) (w h : UInt16) (cs : List Component)
    {s0 s1 : List Nat} (hl0 : s0.length = 64) (hl1 : s1.length = 64) (t : HuffPair × HuffPair) (ri : Option UInt16) (E : Coefs) :
    fileBytes den ct apps m w h cs (s0.map (· % 256)) (s1.map (· % 256)) t ri E = fileBytes den ct apps m w h cs s0 s1 t ri E := by
  unfold fileBytes frameBytes
  rw [dqtPayload_mod 0 hl0, dqtPayload_mod 1 hl1]

/-- A zero in a quantisation table is not accepted. -/
theorem applySegment_dqt_zero {dest : Nat} {s : List Nat} (hl : s.length = 64) {z : Nat} (hz : z < 64) (h0 : s.getD z 1 % 256 = 0) (d : Dec) :
    applySegment 0xDB (dqtPayload dest s) d = none := by
  have hzl : ZIGZAG.length = 64 := rfl
  have hmem : z ∈ ZIGZAG := by
    have : ∀ z < 64, z ∈ ZIGZAG := by decide
    exact this z hz
  show (if (0xE0 : UInt8) ≤ 0xDB ∧ _ then _ else _) = _
  rw [if_neg (by decide), if_neg (by decide), if_pos rfl]
  have : parseDqt (dqtPayload dest s).length (dqtPayload dest s) d.qts = none := by
    unfold dqtPayload
    generalize hQ : ZIGZAG.map (fun z => u8 (s.getD z 1)) = Q
    have hQl : Q.length = 64 := by rw [← hQ, List.length_map, hzl]
    have hQ0 : (0 : UInt8) ∈ Q := by
      rw [← hQ, List.mem_map]
      refine ⟨z, hmem, ?_⟩
      apply UInt8.toNat.inj
      show s.getD z 1 % 256 = 0
      exact h0
    rw [List.length_cons, hQl, parseDqt.eq_3, if_neg]
    rintro ⟨-, -, h3⟩
    rw [List.take_of_length_le (by omega), List.all_eq_true] at h3
    simpa using h3 0 hQ0
  rw [this]
  rfl

/-- The decoder gives up at a segment. -/
theorem decode_stops {strict : Bool} {a rest : Bytes} {m : UInt8} {payload : Bytes} {d : Dec} (h : Steps strict Dec.init a d) (h0 : m ≠ 0) (hm : m ≠ 0xD9)
    (ha : m ≠ 0xDA) (hl : payload.length + 2 < 65536) (hbad : applySegment m payload (d.mark m) = none) :
    decode strict ([0xFF, 0xD8] ++ (a ++ (seg m payload ++ rest))) = none := by
  obtain ⟨f, hf, he⟩ := h.run true _ (seg_markerStart m h0 payload).append _ (Nat.le_refl _)
  have hlen : (Jpeg.seg m payload ++ rest).length = payload.length + 4 + rest.length := by
    simp [Jpeg.seg]; omega
  obtain ⟨f, rfl⟩ : ∃ g, f = g + 1 := ⟨f - 1, by rw [hlen] at hf; omega⟩
  refine he.trans ?_
  rw [segments_seg strict true f d m hm payload rest hl, if_neg ha, hbad]
  rfl

theorem file_undecodable {strict : Bool} (den : Density) (ct : JpegColorType) {apps : List (UInt8 × Bytes)}
    (happ : ∀ a ∈ apps, a.1.toNat ≤ 15 ∧ a.2.length ≤ 65533) (m : Mode) {cs : List Component} {w h : UInt16}
    (hw : w ≠ 0) (hh : h ≠ 0) (hc : CompsOk cs) {s0 s1 : List Nat} (hl0 : s0.length = 64) (hl1 : s1.length = 64)
    (hz : ∃ z, z < 64 ∧ (s0.getD z 1 % 256 = 0 ∨ s1.getD z 1 % 256 = 0)) (t : HuffPair × HuffPair) (ri : Option UInt16) (E : Coefs) :
    decode strict (fileBytes den ct apps m w h cs s0 s1 t ri E) = none := by
  have hlen : ∀ dest (s : List Nat), (dqtPayload dest s).length + 2 < 65536 := by intro dest s; simp [dqtPayload, ZIGZAG]
  have step := (pre_steps (strict := strict) Dec.init den ct apps happ).trans (Steps.sof (strict := strict) _ rfl m.isProg hw hh hc)
  unfold fileBytes frameBytes
  by_cases h0 : ∃ z, z < 64 ∧ s0.getD z 1 % 256 = 0
  · obtain ⟨z, hz64, h0⟩ := h0
    simp only [List.append_assoc]
    rw [← List.append_assoc (preBytes den ct apps)]
    exact decode_stops step (by decide) (by decide) (by decide) (hlen _ _) (applySegment_dqt_zero hl0 hz64 h0 _)
  · obtain ⟨z, hz64, h1⟩ : ∃ z, z < 64 ∧ s1.getD z 1 % 256 = 0 := by
      obtain ⟨z, h1, h2 | h2⟩ := hz
      · exact absurd ⟨z, h1, h2⟩ h0
      · exact ⟨z, h1, h2⟩
    have hs0 : ∀ v ∈ s0.map (· % 256), 1 ≤ v ∧ v ≤ 255 := by
      intro v hv
      obtain ⟨i, hi, rfl⟩ := List.mem_iff_getElem.mp hv
      have hi64 : i < 64 := by simpa [hl0] using hi
      simp only [not_exists, not_and] at h0
      have := h0 i hi64
      simp only [List.getD, List.getElem?_eq_getElem (show i < s0.length by omega), Option.getD_some] at this
      simp only [List.getElem_map]
      omega
    have step' := step.trans (Steps.dqt (dest := 0) _ (by omega) (by simpa using hl0) hs0)
    rw [dqtPayload_mod 0 hl0] at step'
    simp only [List.append_assoc]
    rw [← List.append_assoc (Jpeg.seg _ (sofPayload w h cs)), ← List.append_assoc (preBytes den ct apps)]
    rw [List.append_assoc] at step'
    exact decode_stops step' (by decide) (by decide) (by decide) (hlen _ _) (applySegment_dqt_zero hl1 hz64 h1 _)

section
variable {pf : Platform} (hpf : pf.Valid) {q : UInt8} {calls : List Spec.Call} {e : Encoder} (hc : Configured pf q calls e) {simd : Bool}
  {p : Prog (R Unit)} {ct : JpegColorType} {w h : UInt16} {P : Nat → Nat → Nat → UInt8} (hp : Spec.EncodeCall pf simd e p ct w h P)
  (hs : Spec.Supported pf simd e ct w h P)

/-- The steps in effect. -/
theorem steps_wanted (ty : QuantizationTableType) (q : UInt8) (luma : Bool) {z : Nat} (hz : z < 64) :
    (steps ty q.toNat luma).getD z 1 = Spec.wantedStep ty q luma z := by
  cases ty with
  | custom t => simp [steps, Spec.wantedStep, List.getD, hz, Spec.clamp]
  | _ =>
    rw [steps_builtin rfl, getD_map_lt _ _ 0 1 (by rw [baseTable_length _ _ rfl]; exact hz)]
    cases luma <;> rfl

include hpf hc hp hs

/-- C21, all tables: unless a step in effect is a multiple of 256, the file can be decoded, and its coefficients are those of the image, quantised with the
steps in effect; but the tables in the file have the steps modulo 256. -/
theorem C21_any_table {strict : Bool} (hst : ScansFine strict e)
    (hz : ∀ z, z < 64 → Spec.wantedStep e.getQuantizationTables.1 q true z % 256 ≠ 0 ∧ Spec.wantedStep e.getQuantizationTables.2 q false z % 256 ≠ 0) :
    Spec.Encodes p strict fun _ d => Spec.HasFrame e.getProgressiveScans.isSome e.getSamplingFactor.factors ct w h d ∧
      Spec.HasImage pf simd e.getQuantizationTables q P d ∧
      d.qts 0 = some (zigzag.map fun z => Spec.wantedStep e.getQuantizationTables.1 q true z % 256) ∧
      d.qts 1 = some (zigzag.map fun z => Spec.wantedStep e.getQuantizationTables.2 q false z % 256) := by
  obtain ⟨image, hd, rfl, rfl, rfl, rfl⟩ := hp.image_of
  obtain ⟨t, ht⟩ := hs.works hc.wf
  have hq := hc.settings.1.quality
  have hwf := hc.wf
  obtain ⟨hg, hnc⟩ := initComponents_grid e.samplingFactor image.colorType
  have hl0 : e.steps0.length = 64 := steps_length _ _ _
  have hl1 : e.steps1.length = 64 := steps_length _ _ _
  have hr : ∀ (ty : QuantizationTableType) (luma : Bool), (∀ z, z < 64 → Spec.wantedStep ty q luma z % 256 ≠ 0) →
      ∀ v ∈ (steps ty e.quality.toNat luma).map (· % 256), 1 ≤ v ∧ v ≤ 255 := by
    intro ty luma h v hv
    obtain ⟨i, hi, rfl⟩ := List.mem_iff_getElem.mp hv
    have hi64 : i < 64 := by simpa [steps_length] using hi
    have h1 := h i hi64
    rw [← steps_wanted ty q luma hi64, List.getD, ← hq, List.getElem?_eq_getElem (by simpa using hi), Option.getD_some] at h1
    simp only [List.getElem_map]
    omega
  have hdec := decode_file (strict := strict) e.density image.colorType (fun a ha => ⟨(hwf.apps a ha).1.2, (hwf.apps a ha).2⟩) (hwf.mode_ok strict hst _) hs.width hs.height hg.ok
    (init_dest _ _) (s0 := e.steps0.map (· % 256)) (s1 := e.steps1.map (· % 256)) (by simpa using hl0) (by simpa using hl1)
    (hr _ _ fun z hz64 => (hz z hz64).1) (hr _ _ fun z hz64 => (hz z hz64).2) ht.cod.tabs e.restartInterval ht.cod.units
  rw [fileBytes_mod _ _ _ _ _ _ _ hl0 hl1] at hdec
  have htab : ∀ (ty : QuantizationTableType) (luma : Bool),
      (ZIGZAG.map fun z => ((steps ty e.quality.toNat luma).map (· % 256)).getD z 1) = zigzag.map fun z => Spec.wantedStep ty q luma z % 256 := by
    intro ty luma
    rw [show zigzag = ZIGZAG by decide +kernel]
    refine List.map_congr_left fun z hm => ?_
    rw [getD_mod (steps_length _ _ _) (ZIGZAG_lt z hm), hq, steps_wanted ty q luma (ZIGZAG_lt z hm)]
  refine ⟨_, _, encode_run hpf hd hc.wf hs ht, hdec, ?_, ?_, ?_, ?_⟩
  · exact decoded_frame e (dctFn simd) image P t
  · rw [← hq]
    exact decoded_image e image P t hwf pf
  · show some (ZIGZAG.map fun z => (e.steps0.map (· % 256)).getD z 1) = _
    exact congrArg some (htab _ _)
  · show some (ZIGZAG.map fun z => (e.steps1.map (· % 256)).getD z 1) = _
    exact congrArg some (htab _ _)

/-- C21, all tables: if a step in effect is a multiple of 256 (in one of the two tables, even if no component uses it), the call succeeds but the file cannot
be decoded: T.81 does not allow the entry 0. -/
theorem C21_undecodable {z : Nat} (hz : z < 64)
    (h0 : Spec.wantedStep e.getQuantizationTables.1 q true z % 256 = 0 ∨ Spec.wantedStep e.getQuantizationTables.2 q false z % 256 = 0) :
    ∃ bytes, Spec.Writes p bytes ∧ ∀ strict, decode strict bytes = none := by
  obtain ⟨image, hd, rfl, rfl, rfl, rfl⟩ := hp.image_of
  obtain ⟨t, ht⟩ := hs.works hc.wf
  have hq := hc.settings.1.quality
  have hwf := hc.wf
  obtain ⟨hg, hnc⟩ := initComponents_grid e.samplingFactor image.colorType
  refine ⟨_, encode_run hpf hd hc.wf hs ht, fun strict => ?_⟩
  refine file_undecodable e.density image.colorType (fun a ha => ⟨(hwf.apps a ha).1.2, (hwf.apps a ha).2⟩) _ hs.width hs.height hg.ok
    (steps_length _ _ _) (steps_length _ _ _) ⟨z, hz, ?_⟩ _ _ _
  rw [hq, steps_wanted _ q true hz, steps_wanted _ q false hz]
  exact h0

end

-- the hypotheses can be met: 300 in the luma table (44 in the file), and 512 in the chroma table (which makes gray images undecodable)
example : ∃ e, Configured ⟨true, 8⟩ 75 [.setQuantizationTables (.custom (Vector.replicate 64 300)) .default] e ∧
    (∀ P, Spec.Supported ⟨true, 8⟩ false e .luma 40 20 P) ∧ ScansFine true e ∧
    (∀ z, z < 64 → Spec.wantedStep e.getQuantizationTables.1 75 true z % 256 ≠ 0 ∧ Spec.wantedStep e.getQuantizationTables.2 75 false z % 256 ≠ 0) ∧
    Spec.wantedStep e.getQuantizationTables.1 75 true 5 = 300 := by
  obtain ⟨e, h1, h2⟩ := reachable_exists ⟨true, 8⟩ 75 [.setQuantizationTables (.custom (Vector.replicate 64 300)) .default] (by decide)
  refine ⟨e, h1, fun P => ⟨by decide, by decide, Or.inl rfl, Or.inl ?_⟩, ?_, ?_, ?_⟩
  · rw [h2.optimized]; rfl
  · intro _ n hn
    rw [h2.scans] at hn; cases hn
  · rw [h2.quant]
    decide +kernel
  · rw [h2.quant]
    decide +kernel

example : ∃ e, Configured ⟨true, 8⟩ 75 [.setQuantizationTables .default (.custom (Vector.replicate 64 512))] e ∧
    (∀ P, Spec.Supported ⟨true, 8⟩ false e .luma 40 20 P) ∧ Spec.wantedStep e.getQuantizationTables.2 75 false 5 % 256 = 0 := by
  obtain ⟨e, h1, h2⟩ := reachable_exists ⟨true, 8⟩ 75 [.setQuantizationTables .default (.custom (Vector.replicate 64 512))] (by decide)
  refine ⟨e, h1, fun P => ⟨by decide, by decide, Or.inl rfl, Or.inl ?_⟩, ?_⟩
  · rw [h2.optimized]; rfl
  · rw [h2.quant]
    decide +kernel

end Jpeg
