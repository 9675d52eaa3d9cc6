import Verif.Props.File
/-! The output is a function of the samples inside the image and of the settings. -/
namespace Jpeg
open _root_.Spec

/-- Two plane functions are the same image. -/
def Spec.SamePlanes (ct : JpegColorType) (w h : UInt16) (P P' : Nat → Nat → Nat → UInt8) : Prop :=
  ∀ c y x, c < Spec.componentCount ct → y < h.toNat → x < w.toNat → P c y x = P' c y x

theorem initComponents_count (sf : SamplingFactor) (ct : JpegColorType) : (initComponents sf ct).length = Spec.componentCount ct := by
  cases ct <;> rfl

theorem blockSamples_congr {ct : JpegColorType} {w h : UInt16} {P P' : Nat → Nat → Nat → UInt8} (hsame : Spec.SamePlanes ct w h P P')
    (hw : w ≠ 0) (hh : h ≠ 0) {c : Nat} (hc : c < Spec.componentCount ct) (sy sx y x : Nat) :
    Spec.blockSamples w.toNat h.toNat P c sy sx y x = Spec.blockSamples w.toNat h.toNat P' c sy sx y x := by
  have hw' : w.toNat ≠ 0 := by intro h; exact hw (by rw [← UInt16.toNat_inj]; simpa using h)
  have hh' : h.toNat ≠ 0 := by intro h; exact hh (by rw [← UInt16.toNat_inj]; simpa using h)
  unfold Spec.blockSamples Spec.sampleAt
  apply List.map_congr_left
  intro i _
  rw [hsame c _ _ hc (by omega) (by omega)]

theorem expectedComps_count (h v : Nat) (ct : JpegColorType) : (Spec.expectedComps h v ct).length = Spec.componentCount ct := by
  cases ct <;> rfl

/-- Whether an image is supported depends on the samples inside of it only. -/
theorem Spec.Supported.same_planes {pf : Platform} {simd : Bool} {e : Encoder} {ct : JpegColorType} {w h : UInt16} {P P' : Nat → Nat → Nat → UInt8}
    (hs : Spec.Supported pf simd e ct w h P) (hsame : Spec.SamePlanes ct w h P P') : Spec.Supported pf simd e ct w h P' := by
  refine ⟨hs.width, hs.height, hs.memory, hs.tables.imp id fun hc => ?_⟩
  have tr : ∀ d, Spec.HasFrame e.getProgressiveScans.isSome e.getSamplingFactor.factors ct w h d → Spec.HasImage pf simd e.getQuantizationTables e.quality P' d →
      Spec.HasImage pf simd e.getQuantizationTables e.quality P d := ?_
  · exact ⟨fun n hn d hf hi => hc.restarts n hn d hf (tr d hf hi), fun d hf hi t => hc.size d hf (tr d hf hi) t⟩
  intro d hf hi
  obtain ⟨f, q0, q1, h1, h2, h3⟩ := hi
  refine ⟨f, q0, q1, h1, h2, fun c fc hfc y x k hy hx hk => ?_⟩
  have hff := hf
  unfold Spec.HasFrame at hff
  rw [h1] at hff
  cases hff
  have hlt := (List.getElem?_eq_some_iff.mp hfc).1
  rw [expectedComps_count] at hlt
  rw [blockSamples_congr hsame hs.width hs.height hlt]
  exact h3 c fc hfc y x k hy hx hk

/-- Settings that matter for the output. -/
structure SameSettings (e e' : Encoder) : Prop where
  density : e.density = e'.density
  quality : e.quality = e'.quality
  factors : e.samplingFactor.factors = e'.samplingFactor.factors
  quant : e.quantizationTables = e'.quantizationTables
  scans : e.progressiveScans = e'.progressiveScans
  restart : e.restartInterval = e'.restartInterval
  optimize : e.optimizeHuffmanTable = e'.optimizeHuffmanTable
  apps : e.appSegments = e'.appSegments
  tables : e.huffmanTables = e'.huffmanTables

theorem SameSettings.refl (e : Encoder) : SameSettings e e := ⟨rfl, rfl, rfl, rfl, rfl, rfl, rfl, rfl, rfl⟩

theorem comps_factors {s s' : SamplingFactor} (h : s.factors = s'.factors) (ct : JpegColorType) : initComponents s ct = initComponents s' ct := by
  revert h
  cases s <;> cases s' <;> cases ct <;> decide

theorem SameSettings.mode {e e' : Encoder} (h : SameSettings e e') : e.mode = e'.mode := by
  unfold Encoder.mode
  rw [h.scans, h.optimize]
  have : e.samplingFactor.supportsInterleaved = e'.samplingFactor.supportsInterleaved := by
    rw [Bool.eq_iff_iff, interleaved_iff, interleaved_iff, h.factors]
  rw [this]

/-- The tables `optimizeIf` chooses. -/
def optTables (pf : Platform) (o : Bool) (scans : Option UInt8) (cs : List Component) (t : HuffPair × HuffPair) (blocks : Blocks) :
    R (HuffPair × HuffPair) :=
  if o then do
    let t0 ← optimizeTable pf scans cs blocks 0
    if cs.length ≥ 2 then do
      let t1 ← optimizeTable pf scans cs blocks 1
      .ok (t0, t1)
    else .ok (t0, t.2)
  else .ok t

theorem optimizeIf_tables (pf : Platform) (e : Encoder) (blocks : Blocks) :
    e.optimizeIf pf blocks = (optTables pf e.optimizeHuffmanTable e.progressiveScans e.components e.huffmanTables blocks).map e.withTables := by
  unfold Encoder.optimizeIf optTables Encoder.optimizeHuffman
  by_cases ho : e.optimizeHuffmanTable = true
  · rw [if_pos ho, if_pos ho]
    cases optimizeTable pf e.progressiveScans e.components blocks 0 with
    | error f => rfl
    | ok t0 =>
      simp only [ok_bind]
      split
      · cases optimizeTable pf e.progressiveScans e.components blocks 1 <;> rfl
      · rfl
  · rw [if_neg ho, if_neg ho]
    rfl

section
variable {e e' : Encoder} (he : SameSettings e e') {image image' : ImageBuffer} (hct : image.colorType = image'.colorType)
  (hw : image.width = image'.width) (hh : image.height = image'.height) {P P' : Nat → Nat → Nat → UInt8}
  (hsame : Spec.SamePlanes image.colorType image.width image.height P P') (hw0 : image.width ≠ 0) (hh0 : image.height ≠ 0)
include he hct hw hh hsame hw0 hh0

omit he hct in
theorem blockAt_congr (F : List Int → List Int) (s0 s1 : List Nat) {c : Nat} (hc : c < Spec.componentCount image.colorType) (mh mv : Nat) (co : Component) (y x : Nat) :
    blockAt F s0 s1 image.width.toNat image.height.toNat P mh mv c co y x =
      blockAt F s0 s1 image'.width.toNat image'.height.toNat P' mh mv c co y x := by
  unfold blockAt
  rw [← hw, ← hh, blockSamples_congr hsame hw0 hh0 hc]

theorem coefs_congr (F : List Int → List Int) : e.coefs F image P = e'.coefs F image' P' := by
  unfold Encoder.coefs Encoder.steps0 Encoder.steps1
  rw [he.quality, he.quant, comps_factors he.factors, ← hct]
  funext c y x k
  unfold coefsOf
  cases hco : (initComponents e'.samplingFactor image.colorType)[c]? with
  | none => rfl
  | some co =>
    obtain ⟨hlt, -⟩ := List.getElem?_eq_some_iff.mp hco
    rw [initComponents_count] at hlt
    dsimp only
    rw [blockAt_congr hw hh hsame hw0 hh0 _ _ _ hlt]

theorem blocks_congr (F : List Int → List Int) : e.blocks F image P = e'.blocks F image' P' := by
  unfold Encoder.blocks Encoder.steps0 Encoder.steps1
  rw [he.quality, he.quant, comps_factors he.factors, ← hct]
  unfold allBlocks
  apply List.map_congr_left
  rintro ⟨co, i⟩ hci
  have hlt : i < Spec.componentCount image.colorType := by
    rw [← initComponents_count e'.samplingFactor]
    exact (List.mem_zipIdx' hci).1
  dsimp only
  rw [← hw, ← hh]
  apply List.map_congr_left
  intro p _
  have := blockAt_congr hw hh hsame hw0 hh0 F (steps e'.quantizationTables.1 e'.quality.toNat true)
    (steps e'.quantizationTables.2 e'.quality.toNat false) hlt
    (maxSamplingSize (initComponents e'.samplingFactor image.colorType)).1 (maxSamplingSize (initComponents e'.samplingFactor image.colorType)).2 co p.1 p.2
  rw [← hw, ← hh] at this
  exact this

theorem file_congr (F : List Int → List Int) (t : HuffPair × HuffPair) : e.file F image P t = e'.file F image' P' t := by
  unfold Encoder.file
  rw [coefs_congr he hct hw hh hsame hw0 hh0, he.density, he.apps, he.mode, he.restart, ← hct, ← hw, ← hh, comps_factors he.factors]
  unfold Encoder.steps0 Encoder.steps1
  rw [he.quality, he.quant]

theorem works_unique {simd : Bool} {t t' : HuffPair × HuffPair} (h : Works simd e image P t) (h' : Works simd e' image' P' t') : t = t' := by
  have hpf : Platform.Valid ⟨true, 8⟩ := by decide
  have h1 := h.opt _ hpf
  have h2 := h'.opt _ hpf
  rw [blocks_congr he hct hw hh hsame hw0 hh0, optimizeIf_tables] at h1
  rw [optimizeIf_tables] at h2
  simp only [Encoder.atWork, he.optimize, he.scans, he.tables, comps_factors he.factors, ← hct] at h1 h2
  cases hx : optTables ⟨true, 8⟩ e'.optimizeHuffmanTable e'.progressiveScans (initComponents e'.samplingFactor image.colorType) e'.huffmanTables
      (e'.blocks (dctFn simd) image' P') with
  | error f => rw [hx] at h1; cases h1
  | ok u =>
    rw [hx] at h1 h2
    simp only [Except.map, Except.ok.injEq] at h1 h2
    have e1 : u = t := congrArg Encoder.huffmanTables h1
    have e2 : u = t' := congrArg Encoder.huffmanTables h2
    rw [← e1, ← e2]

end
end Jpeg
