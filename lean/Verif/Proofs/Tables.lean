import Verif.Proofs.Interleaved
/-! The built-in Huffman tables have a code for everything that can occur. -/
namespace Jpeg
open _root_.Spec

/-- The symbols a DC table needs for 8 bit samples (T.81 Table F.1). -/
def dcSymbols : List Nat := List.range 12
/-- The symbols an AC table needs for 8 bit samples (T.81 Table F.2): end of block, sixteen zeros, run/size. -/
def acSymbols : List Nat := 0x00 :: 0xF0 :: (List.range 16).flatMap fun r => (List.range 10).map fun s => 16 * r + (s + 1)

/-- Tables with a code for every symbol. -/
structure FullPair (t : HuffPair) : Prop where
  dc : TableFile t.dc
  ac : TableFile t.ac
  dcAll : ∀ v ∈ dcSymbols, v ∈ t.dc.values
  acAll : ∀ v ∈ acSymbols, v ∈ t.ac.values

theorem newTable_ok {lengths values : List Nat} (h : (HuffTable.mk lengths values).WellFormed) (hc : ∀ n ∈ lengths, n < 256) :
    ∃ t, (∀ pf, HuffmanTable.new pf lengths values = .ok t) ∧ t.length = lengths ∧ t.values = values ∧ TableFile t := by
  obtain ⟨t, h1, h2, h3, h4⟩ := HuffmanTable.new_ok h
  exact ⟨t, h1, h2, h3, h4, by rw [h2]; exact hc⟩

/-- `Encoder::new` succeeds, with full tables that do not depend on the platform. -/
theorem encoder_new_tables :
    ∃ t0 t1 : HuffPair, FullPair t0 ∧ FullPair t1 ∧ ∀ quality pf, Encoder.new pf quality = .ok {
      density := .none
      quality := quality
      components := []
      quantizationTables := (.default, .default)
      huffmanTables := (t0, t1)
      samplingFactor := if quality < 90 then .F_2_2 else .F_1_1
      progressiveScans := none
      restartInterval := none
      optimizeHuffmanTable := false
      appSegments := [] } := by
  obtain ⟨ldc, a1, a2, a3, a4⟩ := newTable_ok (lengths := lumaDcLengths) (values := lumaDcValues) (by decide +kernel) (by decide +kernel)
  obtain ⟨lac, b1, b2, b3, b4⟩ := newTable_ok (lengths := lumaAcLengths) (values := lumaAcValues) (by decide +kernel) (by decide +kernel)
  obtain ⟨cdc, c1, c2, c3, c4⟩ := newTable_ok (lengths := chromaDcLengths) (values := chromaDcValues) (by decide +kernel) (by decide +kernel)
  obtain ⟨cac, d1, d2, d3, d4⟩ := newTable_ok (lengths := chromaAcLengths) (values := chromaAcValues) (by decide +kernel) (by decide +kernel)
  refine ⟨⟨ldc, lac⟩, ⟨cdc, cac⟩, ⟨a4, b4, ?_, ?_⟩, ⟨c4, d4, ?_, ?_⟩, ?_⟩
  · rw [a3]; decide +kernel
  · rw [b3]; decide +kernel
  · rw [c3]; decide +kernel
  · rw [d3]; decide +kernel
  · intro quality pf
    unfold Encoder.new HuffmanTable.defaultLumaDc HuffmanTable.defaultLumaAc HuffmanTable.defaultChromaDc HuffmanTable.defaultChromaAc
    rw [a1, b1, c1, d1]
    rfl

theorem encoder_new_ok (quality : UInt8) :
    ∃ t0 t1 : HuffPair, FullPair t0 ∧ FullPair t1 ∧ ∀ pf, Encoder.new pf quality = .ok {
      density := .none
      quality := quality
      components := []
      quantizationTables := (.default, .default)
      huffmanTables := (t0, t1)
      samplingFactor := if quality < 90 then .F_2_2 else .F_1_1
      progressiveScans := none
      restartInterval := none
      optimizeHuffmanTable := false
      appSegments := [] } := by
  obtain ⟨t0, t1, h0, h1, h⟩ := encoder_new_tables
  exact ⟨t0, t1, h0, h1, h quality⟩

theorem catOf_le {v : Int} {n : Nat} (h : v.natAbs < 2 ^ n) : catOf v ≤ n := bitLen_le h

theorem catOf_pos {v : Int} (h : v ≠ 0) : 1 ≤ catOf v := (bitLen_pos (Int.natAbs_pos.mpr h)).1

/-- Which symbols a band needs. -/
theorem acToks_syms {l : List Int} (hl : ∀ v ∈ l, v.natAbs ≤ 1023) (z : Nat) : ∀ k ∈ acToks l z, k.sym ∈ acSymbols := by
  induction l generalizing z with
  | nil =>
    intro k hk
    simp only [acToks] at hk
    split at hk
    · simp only [List.mem_singleton] at hk; subst hk; simp [EOB, acSymbols]
    · simp at hk
  | cons v vs ih =>
    have hvs : ∀ v ∈ vs, v.natAbs ≤ 1023 := fun w hw => hl w (by simp [hw])
    intro k hk
    simp only [acToks] at hk
    split at hk
    · exact ih hvs _ k hk
    · rename_i hv
      simp only [List.mem_append, List.mem_replicate, List.mem_cons] at hk
      rcases hk with ⟨_, rfl⟩ | rfl | hk
      · simp [ZRL, acSymbols]
      · have h1 := catOf_pos hv
        have h2 : catOf v ≤ 10 := catOf_le (by have := hl v (by simp); omega)
        simp only [coefTok, acSymbols, List.mem_cons, List.mem_flatMap, List.mem_range, List.mem_map]
        right; right
        exact ⟨z % 16, by omega, catOf v - 1, by omega, by omega⟩
      · exact ih hvs 0 k hk

/-- Bounds on the coefficients of 8 bit images. -/
structure CoefBounds (E : Coefs) : Prop where
  dc : ∀ c y x, -1024 ≤ E c y x 0 ∧ E c y x 0 ≤ 1016
  ac : ∀ c y x k, 1 ≤ k → k < 64 → (E c y x k).natAbs ≤ 1021

theorem coefsOf_bounds {op : Operations} {F : List Int → List Int} (hop : OpOk op F) {s0 s1 : List Nat}
    (hl0 : s0.length = 64) (hl1 : s1.length = 64) (hs0 : ∀ v ∈ s0, 1 ≤ v ∧ v ≤ 2048) (hs1 : ∀ v ∈ s1, 1 ≤ v ∧ v ≤ 2048)
    (w h : Nat) (P : Nat → Nat → Nat → UInt8) (mh mv : Nat) (cs : List Component) :
    CoefBounds (coefsOf F s0 s1 w h P mh mv cs) := by
  have key : ∀ c y x (co : Component), cs[c]? = some co →
      (-1024 ≤ (blockAt F s0 s1 w h P mh mv c co y x).getD 0 0 ∧ (blockAt F s0 s1 w h P mh mv c co y x).getD 0 0 ≤ 1016) ∧
      ∀ k, 1 ≤ k → k < 64 → ((blockAt F s0 s1 w h P mh mv c co y x).getD k 0).natAbs ≤ 1021 := by
    intro c y x co _
    unfold blockAt
    refine coef_bounds hop ?_ ?_ (blockSamples_length _ _ _ _ _ _ _ _) (blockSamples_shifted _ _ _ _ _ _ _ _)
    · split <;> assumption
    · split <;> assumption
  constructor
  · intro c y x
    unfold coefsOf
    cases hc : cs[c]? with
    | none => simp
    | some co => exact (key c y x co hc).1
  · intro c y x k h1 h2
    unfold coefsOf
    cases hc : cs[c]? with
    | none => simp
    | some co => exact (key c y x co hc).2 k h1 h2

theorem tabOf_full {t : HuffPair × HuffPair} (h0 : FullPair t.1) (h1 : FullPair t.2) (i : Nat) : FullPair (tabOf t i) := by
  unfold tabOf; split <;> assumption

/-- With full tables every data unit can be coded. -/
theorem unitsOk_full {t : HuffPair × HuffPair} (h0 : FullPair t.1) (h1 : FullPair t.2) {E : Coefs} (hE : CoefBounds E)
    (cs : List Component) {ss se : Nat} (hse : se ≤ 63) (us : List DataUnit) (p : Nat → Int)
    (hp : ∀ j, -1024 ≤ p j ∧ p j ≤ 1016) : (scanCoder t cs ss se E).UnitsOk us p := by
  induction us generalizing p with
  | nil => trivial
  | cons u us ih =>
    refine ⟨?_, ih _ ?_⟩
    · have hdc := hE.dc ((scanCoder t cs ss se E).comp u.1) u.2.1 u.2.2
      have hpj := hp u.1
      have hdiff : ((scanCoder t cs ss se E).dc u - p u.1).natAbs ≤ 2047 := by
        have : (scanCoder t cs ss se E).dc u = E ((scanCoder t cs ss se E).comp u.1) u.2.1 u.2.2 0 := rfl
        omega
      have hband : ∀ v ∈ (scanCoder t cs ss se E).band u, v.natAbs ≤ 1023 := by
        intro v hv
        simp only [Coder.band, List.mem_map, List.mem_range] at hv
        obtain ⟨i, hi, rfl⟩ := hv
        have hf : 1 ≤ (scanCoder t cs ss se E).first := by simp [Coder.first]
        have hn : (scanCoder t cs ss se E).n = se + 1 - (scanCoder t cs ss se E).first := rfl
        have := hE.ac ((scanCoder t cs ss se E).comp u.1) u.2.1 u.2.2 ((scanCoder t cs ss se E).first + i) (by omega) (by omega)
        show (E _ _ _ _).natAbs ≤ _
        omega
      refine ⟨fun _ => hdiff, fun _ => ?_, fun _ => (tabOf_full h0 h1 _).dc.ok, ?_, hband, fun _ => (tabOf_full h0 h1 _).ac.ok⟩
      · refine (tabOf_full h0 h1 _).dcAll _ ?_
        simp only [dcSymbols, List.mem_range]
        have : catOf ((scanCoder t cs ss se E).dc u - p u.1) ≤ 11 := catOf_le (by omega)
        omega
      · intro k hk
        exact (tabOf_full h0 h1 _).acAll _ (acToks_syms hband 0 k hk)
    · intro j
      unfold Coder.nextPreds
      split
      · unfold upd
        split
        · exact hE.dc _ _ _
        · exact hp j
      · exact hp j

end Jpeg
