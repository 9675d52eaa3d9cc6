import Verif.Proofs.Encode
import Verif.Proofs.Avx2Fdct
import Verif.Props.Session
/-! `encode_image` as a whole. -/
namespace Jpeg
open _root_.Spec

theorem opOk_avx2 : OpOk avx2Operations Avx2.fdctA where
  run := fun _ block hl h => congrArg Except.ok (Avx2.fdctAvx2_eq hl h)
  len := fun block _ => Avx2.fdctA_length block
  dc := fun block _ h => by
    rw [(Avx2.fdctA_spec block (show 0 < 64 by omega)).2.2 (by omega)]
    exact (fdctP_bounds h (show 0 < 64 by omega)).1 rfl
  ac := fun block i _ h h1 h2 => by
    have := (fdctP_bounds h h2).2 (by omega)
    have h3 := Avx2.fdctA_spec block h2
    simp only [Bd] at this
    omega

/-- The forward DCT of a build. -/
def dctFn (simd : Bool) : List Int → List Int := if simd then Avx2.fdctA else fdctP
/-- The operations of a build. -/
def opsFor (simd : Bool) : Operations := if simd then avx2Operations else defaultOperations

theorem opOk_for (simd : Bool) : OpOk (opsFor simd) (dctFn simd) := by
  cases simd
  · exact opOk_default
  · exact opOk_avx2

/-! ### Components -/

theorem init_one (sf : SamplingFactor) (ct : JpegColorType) : (initComponents sf ct).length = 1 →
    (maxSamplingSize (initComponents sf ct)).1 = 1 ∧ (maxSamplingSize (initComponents sf ct)).2 = 1 := by
  cases sf <;> cases ct <;> decide

theorem init_dest (sf : SamplingFactor) (ct : JpegColorType) : ∀ c ∈ initComponents sf ct,
    (c.dcHuffmanTable = 0 ∧ c.acHuffmanTable = 0) ∨ 3 ≤ (initComponents sf ct).length := by
  cases sf <;> cases ct <;> decide

theorem init_sum (sf : SamplingFactor) (ct : JpegColorType) (h : sf.supportsInterleaved = true) :
    ((initComponents sf ct).map fun c => c.horizontalSamplingFactor * c.verticalSamplingFactor).sum ≤ 10 := by
  revert h
  cases sf <;> cases ct <;> decide

/-- The encoder while it encodes an image of color type `ct`. -/
def Encoder.atWork (e : Encoder) (ct : JpegColorType) : Encoder := { e with components := initComponents e.samplingFactor ct }

/-- The quantisation steps of an encoder. -/
def Encoder.steps0 (e : Encoder) : List Nat := steps e.quantizationTables.1 e.quality.toNat true
def Encoder.steps1 (e : Encoder) : List Nat := steps e.quantizationTables.2 e.quality.toNat false

/-- The quantised coefficients of an image. -/
def Encoder.coefs (e : Encoder) (F : List Int → List Int) (image : ImageBuffer) (P : Nat → Nat → Nat → UInt8) : Coefs :=
  coefsOf F e.steps0 e.steps1 image.width.toNat image.height.toNat P
    (maxSamplingSize (initComponents e.samplingFactor image.colorType)).1 (maxSamplingSize (initComponents e.samplingFactor image.colorType)).2
    (initComponents e.samplingFactor image.colorType)

/-- All quantised blocks of an image. -/
def Encoder.blocks (e : Encoder) (F : List Int → List Int) (image : ImageBuffer) (P : Nat → Nat → Nat → UInt8) : Blocks :=
  allBlocks F e.steps0 e.steps1 image.width.toNat image.height.toNat P
    (maxSamplingSize (initComponents e.samplingFactor image.colorType)).1 (maxSamplingSize (initComponents e.samplingFactor image.colorType)).2
    (initComponents e.samplingFactor image.colorType)

/-- The file. -/
def Encoder.file (e : Encoder) (F : List Int → List Int) (image : ImageBuffer) (P : Nat → Nat → Nat → UInt8) (t : HuffPair × HuffPair) : Bytes :=
  fileBytes e.density image.colorType e.appSegments e.mode image.width image.height (initComponents e.samplingFactor image.colorType)
    e.steps0 e.steps1 t e.restartInterval (e.coefs F image P)

/-- What a decoder makes of the file. -/
def Encoder.decoded (e : Encoder) (F : List Int → List Int) (image : ImageBuffer) (P : Nat → Nat → Nat → UInt8) (t : HuffPair × HuffPair) : Dec :=
  fileDec e.density image.colorType e.appSegments e.mode image.width image.height (initComponents e.samplingFactor image.colorType)
    e.steps0 e.steps1 t e.restartInterval (e.coefs F image P)

theorem atWork_mode (e : Encoder) (ct : JpegColorType) : (e.atWork ct).mode = e.mode := rfl

/-- Conditions under which tables `t` can code the image. -/
structure Codable (e : Encoder) (F : List Int → List Int) (image : ImageBuffer) (P : Nat → Nat → Nat → UInt8) (t : HuffPair × HuffPair) :
    Prop where
  tabs : TabsOk (initComponents e.samplingFactor image.colorType).length t
  units : AllUnitsOk e.mode image.width image.height (initComponents e.samplingFactor image.colorType) t e.interval (e.coefs F image P)

/-- Conditions under which the image can be written with tables `t`. -/
structure Writable (ck : Bool) (e : Encoder) (F : List Int → List Int) (image : ImageBuffer) (P : Nat → Nat → Nat → UInt8) (t : HuffPair × HuffPair) :
    Prop where
  tabs : TabsOk (initComponents e.samplingFactor image.colorType).length t
  units : AllUnitsCan ck e.mode image.width image.height (initComponents e.samplingFactor image.colorType) t e.interval (e.coefs F image P)

theorem Codable.writable {e : Encoder} {F : List Int → List Int} {image : ImageBuffer} {P : Nat → Nat → Nat → UInt8} {t : HuffPair × HuffPair}
    (h : Codable e F image P t) (ck : Bool) : Writable ck e F image P t := ⟨h.tabs, h.units.can ck⟩

theorem Encoder.Wf.mode_ok {e : Encoder} (h : e.Wf) (strict : Bool) (hs : strict = true → ∀ n, e.progressiveScans = some n → n.toNat ≤ 33)
    (ct : JpegColorType) : e.mode.Ok strict (initComponents e.samplingFactor ct) := by
  unfold Encoder.mode
  cases hp : e.progressiveScans with
  | some n => exact ⟨(h.scans n hp).1, (h.scans n hp).2, fun hst => hs hst n hp⟩
  | none =>
    dsimp only
    split
    · trivial
    · rename_i hn
      intro _
      refine init_sum _ _ ?_
      simp only [Bool.or_eq_true, not_or, Bool.not_eq_true, Bool.not_eq_false'] at hn
      exact hn.2

section
variable {pf : Platform} (hpf : pf.Valid) {op : Operations} {F : List Int → List Int} (hop : OpOk op F)
  {image : ImageBuffer} {P : Nat → Nat → Nat → UInt8} (hd : Delivers image P) (hw : image.width ≠ 0) (hh : image.height ≠ 0)
  {e : Encoder} (hwf : e.Wf) {t : HuffPair × HuffPair}

include hpf hop hd hw hh hwf in
theorem encodeImageInternal_emits
    (hfit : Fits pf (maxSamplingSize (initComponents e.samplingFactor image.colorType)).1 (maxSamplingSize (initComponents e.samplingFactor image.colorType)).2
      image.width.toNat image.height.toNat ∨ e.mode = .interleaved)
    (hopt : (e.atWork image.colorType).optimizeIf pf (e.blocks F image P) = .ok ((e.atWork image.colorType).withTables t))
    (hcod : Writable pf.checked e F image P t) :
    Emits (e.encodeImageInternal pf op image) (BitState.init pf) (e.file F image P t) () (BitState.init pf) := by
  have hw' : image.width.toNat ≠ 0 := by intro h; exact hw (by rw [← UInt16.toNat_inj]; simpa using h)
  have hh' : image.height.toNat ≠ 0 := by intro h; exact hh (by rw [← UInt16.toNat_inj]; simpa using h)
  obtain ⟨hg, hnc⟩ := initComponents_grid e.samplingFactor image.colorType
  have hscan := encodeScans_emits hd hw' hh' hpf hop (steps_length e.quantizationTables.1 e.quality.toNat true)
    (steps_length e.quantizationTables.2 e.quality.toNat false) (steps_range _ _ _) (steps_range _ _ _) (e := e.atWork image.colorType) hg hnc.symm
    (init_one e.samplingFactor image.colorType) (strict := false) (t := t)
    (by rw [atWork_mode]; exact hwf.mode_ok false (by simp) image.colorType) hfit hopt hcod.tabs hcod.units
  unfold Encoder.encodeImageInternal
  rw [if_neg (by simp [hw, hh])]
  refine Emits.lift_bind (newWithQuality_eq _ _ _) ?_
  refine Emits.lift_bind (newWithQuality_eq _ _ _) ?_
  dsimp only
  refine Emits.congr (Emits.marker_bind (v := 0xD8) rfl (Emits.bind' (writeHeader_emits pf e.density (BitState.init pf))
    (Emits.bind' (writeAdobe_emits pf image.colorType _)
      (Emits.bind' (writeApps_emits pf e.appSegments (fun a ha => ⟨(hwf.apps a ha).1.2, (hwf.apps a ha).2⟩) _)
        (Emits.bind' hscan (o2 := [0xFF, 0xD9]) (Emits.writeAll _ _)))))) ?_
  simp only [Encoder.file, fileBytes, preBytes, List.append_assoc]
  rfl

theorem WM.program_exec {α : Type} {pf : Platform} {m : WM α} {o : Bytes} {a : α} {s : BitState} (h : Emits m (BitState.init pf) o a s) :
    (m.program pf).exec = (o, .ok a) := by
  unfold WM.program
  rw [Prog.exec_bind, h]
  simp [Prog.exec, Except.map]

include hpf hd hw hh hwf in
/-- What a `Vec<u8>` contains after `encode_image`. -/
theorem encodeImage_run (simd : Bool)
    (hfit : Fits pf (maxSamplingSize (initComponents e.samplingFactor image.colorType)).1 (maxSamplingSize (initComponents e.samplingFactor image.colorType)).2
      image.width.toNat image.height.toNat ∨ e.mode = .interleaved)
    (hopt : (e.atWork image.colorType).optimizeIf pf (e.blocks (dctFn simd) image P) = .ok ((e.atWork image.colorType).withTables t))
    (hcod : Writable pf.checked e (dctFn simd) image P t) :
    (e.encodeImage pf simd image).run vecSink [] = (e.file (dctFn simd) image P t, .ok ()) := by
  change ((e.encodeImageInternal pf (opsFor simd) image).program pf).run vecSink [] = _
  rw [Prog.run_vec, WM.program_exec (encodeImageInternal_emits hpf (opOk_for simd) hd hw hh hwf hfit hopt hcod)]
  simp

/-- Entries of custom quantisation tables that fit into the file. -/
def Steps8 (e : Encoder) : Prop := (∀ v ∈ e.steps0, v ≤ 255) ∧ (∀ v ∈ e.steps1, v ≤ 255)

include hw hh hwf in
theorem decode_file_of (strict : Bool) (hs : strict = true → ∀ n, e.progressiveScans = some n → n.toNat ≤ 33)
    (h8 : Steps8 e) (hcod : Codable e F image P t) : decode strict (e.file F image P t) = some (e.decoded F image P t) := by
  obtain ⟨hg, hnc⟩ := initComponents_grid e.samplingFactor image.colorType
  refine decode_file e.density image.colorType (fun a ha => ⟨(hwf.apps a ha).1.2, (hwf.apps a ha).2⟩) (hwf.mode_ok strict hs _) hw hh hg.ok
    (init_dest _ _) (steps_length _ _ _) (steps_length _ _ _) ?_ ?_ hcod.tabs e.restartInterval ?_
  · exact fun v hv => ⟨(steps_range _ _ _ v hv).1, h8.1 v hv⟩
  · exact fun v hv => ⟨(steps_range _ _ _ v hv).1, h8.2 v hv⟩
  · exact hcod.units

include hop hwf in
/-- The built-in tables can code every image. -/
theorem codable_default : Codable e F image P e.huffmanTables := by
  obtain ⟨hg, hnc⟩ := initComponents_grid e.samplingFactor image.colorType
  refine ⟨⟨hwf.t0.dc, hwf.t0.ac, fun _ => hwf.t1.dc, fun _ => hwf.t1.ac⟩, ?_⟩
  intro sd hsd g _
  have hse := scans_se hg.ok (hwf.mode_ok false (by simp) image.colorType) sd hsd
  refine unitsOk_full hwf.t0 hwf.t1 ?_ _ hse _ _ (by intro j; omega)
  exact coefsOf_bounds hop (steps_length _ _ _) (steps_length _ _ _) (steps_range _ _ _) (steps_range _ _ _) _ _ _ _ _ _

theorem optimizeIf_off (ho : e.optimizeHuffmanTable = false) (bs : Blocks) (ct : JpegColorType) :
    (e.atWork ct).optimizeIf pf bs = .ok ((e.atWork ct).withTables e.huffmanTables) := by
  unfold Encoder.optimizeIf
  rw [if_neg (by simp [Encoder.atWork, ho])]
  rfl

end
end Jpeg
