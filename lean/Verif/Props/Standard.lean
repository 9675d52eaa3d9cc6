import Verif.Spec.StdHuffman
import Verif.Props.File
import Verif.Props.Quant
import Verif.Props.Independence
/-! C20, C44: the tables in the file are the published ones. -/
namespace Jpeg
open _root_.Spec

theorem Configured.huffman {pf : Platform} {q : UInt8} {calls : List Spec.Call} {e : Encoder} (h : Configured pf q calls e) :
    e.huffmanTables.1.dc.spec = tableK3 ∧ e.huffmanTables.1.ac.spec = tableK5 ∧
    e.huffmanTables.2.dc.spec = tableK4 ∧ e.huffmanTables.2.ac.spec = tableK6 := by
  obtain ⟨ldc, a1, a2, a3, -⟩ := newTable_ok (lengths := lumaDcLengths) (values := lumaDcValues) (by decide +kernel) (by decide +kernel)
  obtain ⟨lac, b1, b2, b3, -⟩ := newTable_ok (lengths := lumaAcLengths) (values := lumaAcValues) (by decide +kernel) (by decide +kernel)
  obtain ⟨cdc, c1, c2, c3, -⟩ := newTable_ok (lengths := chromaDcLengths) (values := chromaDcValues) (by decide +kernel) (by decide +kernel)
  obtain ⟨cac, d1, d2, d3, -⟩ := newTable_ok (lengths := chromaAcLengths) (values := chromaAcValues) (by decide +kernel) (by decide +kernel)
  have hnew : ∃ e0, Encoder.new pf q = .ok e0 ∧ e0.huffmanTables = (⟨ldc, lac⟩, ⟨cdc, cac⟩) := by
    unfold Encoder.new HuffmanTable.defaultLumaDc HuffmanTable.defaultLumaAc HuffmanTable.defaultChromaDc HuffmanTable.defaultChromaAc
    rw [a1, b1, c1, d1]
    exact ⟨_, rfl, rfl⟩
  obtain ⟨e0, h0, h1⟩ := hnew
  have hc0 : Configured pf q [] e0 := ⟨e0, h0, rfl⟩
  rw [h.tables_eq hc0, h1]
  simp only [HuffmanTable.spec, a2, a3, b2, b3, c2, c3, d2, d3]
  decide +kernel

section
variable {pf : Platform} (hpf : pf.Valid) {q : UInt8} {calls : List Spec.Call} {e : Encoder} (hc : Configured pf q calls e) {simd : Bool}
  {p : Prog (R Unit)} {ct : JpegColorType} {w h : UInt16} {P : Nat → Nat → Nat → UInt8} (hp : Spec.EncodeCall pf simd e p ct w h P)
  (hs : Spec.Supported pf simd e ct w h P) (h8 : Spec.EightBit e.getQuantizationTables) {strict : Bool} (hst : ScansFine strict e)
include hpf hc hp hs h8 hst

/-- C20: the DQT table of each component contains, in zig-zag order, the steps that the selected table type and quality stand for. -/
theorem C20_tables_in_file : Spec.Encodes p strict fun _ d => ∃ f, d.frame = some f ∧ ∀ fc ∈ f.comps,
    d.qts fc.tq = some (zigzag.map fun z =>
      if fc.tq = 0 then Spec.wantedStep e.getQuantizationTables.1 q true z else Spec.wantedStep e.getQuantizationTables.2 q false z) := by
  refine encodes_of hpf hc hp hs h8 hst fun image t hct _ _ _ => ⟨_, rfl, ?_⟩
  have hstep : ∀ (ty : QuantizationTableType) (luma : Bool) z, z < 64 → (steps ty q.toNat luma).getD z 1 = Spec.wantedStep ty q luma z := by
    intro ty luma z hz
    cases ty with
    | custom t => simp [steps, Spec.wantedStep, List.getD, hz, Spec.clamp]
    | _ =>
      rw [steps_builtin rfl, getD_map_lt _ _ 0 1 (by rw [baseTable_length _ _ rfl]; exact hz)]
      cases luma <;> rfl
  have hq := hc.settings.1.quality
  intro fc hfc
  have h01 : fc.tq = 0 ∨ fc.tq = 1 := by
    have hfc' : fc ∈ Spec.expectedComps e.samplingFactor.factors.1 e.samplingFactor.factors.2 image.colorType := by
      rw [← comps_expected]; exact hfc
    revert hfc'
    cases image.colorType <;> simp only [Spec.expectedComps, List.mem_cons, List.not_mem_nil, or_false] <;> rintro (rfl | rfl | rfl | rfl) <;> simp
  have hz : ∀ z ∈ ZIGZAG, z < 64 := by decide
  simp only [Encoder.decoded, fileDec, frameDec, Dec.init, upd, Encoder.steps0, Encoder.steps1, Encoder.getQuantizationTables, hq]
  rw [show zigzag = ZIGZAG by decide +kernel]
  rcases h01 with h0 | h0
  · simp only [h0]
    refine congrArg some (List.map_congr_left fun z hm => ?_)
    exact hstep _ _ _ (hz z hm)
  · simp only [h0]
    refine congrArg some (List.map_congr_left fun z hm => ?_)
    exact hstep _ _ _ (hz z hm)

/-- C44: without optimisation the Huffman tables in the file are those of T.81 K.3.3: number 0 those for luminance, number 1 (if there is
a component that uses it) those for chrominance. -/
theorem C44_standard_huffman_tables (ho : e.getOptimizedHuffmanTables = false) : Spec.Encodes p strict fun _ d =>
    d.dc 0 = some tableK3 ∧ d.ac 0 = some tableK5 ∧
    (Spec.componentCount ct ≠ 1 → d.dc 1 = some tableK4 ∧ d.ac 1 = some tableK6) := by
  refine encodes_of hpf hc hp hs h8 hst fun image t hct _ _ hwk => ?_
  have ht : t = e.huffmanTables := by
    have h1 := hwk.opt pf hpf
    rw [optimizeIf_off ho] at h1
    simp only [Except.ok.injEq, Encoder.withTables, Encoder.mk.injEq, true_and, and_true] at h1
    exact h1.symm
  obtain ⟨k3, k5, k4, k6⟩ := hc.huffman
  subst ht
  simp only [Encoder.decoded, fileDec, frameDec, Dec.init, k3, k4, k5, k6]
  subst hct
  cases hcol : image.colorType <;> simp [upd, initComponents, Spec.componentCount, hcol]
end

end Jpeg
