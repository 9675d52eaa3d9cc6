import Verif.Props.RoundTrip
import Verif.Proofs.Markers
/-! C05, C06, C08, C31 - C36: the structure of the file. -/
namespace Jpeg
open _root_.Spec

theorem Spec.EncodeCall.image_of {pf : Platform} {simd : Bool} {e : Encoder} {p : Prog (R Unit)} {ct : JpegColorType} {w h : UInt16}
    {P : Nat → Nat → Nat → UInt8} (hp : Spec.EncodeCall pf simd e p ct w h P) :
    ∃ image, Delivers image P ∧ p = e.encodeImage pf simd image ∧ ct = image.colorType ∧ w = image.width ∧ h = image.height := by
  cases hp with
  | data data w h ct hlen hsl =>
    obtain ⟨hw, hh⟩ := imageFor_width pf simd data w h ct
    exact ⟨imageFor pf simd data w h ct, delivers_builtin simd hlen hsl, encode_eq_image simd e hlen hsl, (imageFor_color _ _ _ _ _ _).symm,
      hw.symm, hh.symm⟩
  | image image P hd => exact ⟨image, hd, rfl, rfl, rfl, rfl⟩

section
variable {pf : Platform} (hpf : pf.Valid) {q : UInt8} {calls : List Spec.Call} {e : Encoder} (hc : Configured pf q calls e) {simd : Bool}
  {p : Prog (R Unit)} {ct : JpegColorType} {w h : UInt16} {P : Nat → Nat → Nat → UInt8} (hp : Spec.EncodeCall pf simd e p ct w h P)
  (hs : Spec.Supported pf simd e ct w h P) (h8 : Spec.EightBit e.getQuantizationTables) {strict : Bool} (hst : ScansFine strict e)
include hpf hc hp hs h8 hst

/-- Everything about a file follows from the model's description of it. -/
theorem encodes_of {Q : Bytes → Dec → Prop}
    (hQ : ∀ image t, image.colorType = ct → image.width = w → image.height = h → Works simd e image P t →
      Q (e.file (dctFn simd) image P t) (e.decoded (dctFn simd) image P t)) : Spec.Encodes p strict Q := by
  obtain ⟨image, hd, rfl, rfl, rfl, rfl⟩ := hp.image_of
  obtain ⟨t, ht⟩ := hs.works hc.wf
  exact ⟨_, _, encode_run hpf hd hc.wf hs ht, encode_decode hc.wf hs ht hst h8, hQ image t rfl rfl rfl ht⟩

/-- C05: the DRI segment announces the configured interval (and exists only if there is one); in every scan the markers are
RST0, RST1, ... cyclically, one between any two intervals. That the decoder accepts the file means that each marker comes after
exactly that many MCUs and that the predictions restart there. -/
theorem C05_restart_markers : Spec.Encodes p strict fun _ d =>
    d.ri = (e.getRestartInterval.map UInt16.toNat).getD 0 ∧
    (0xDD ∈ d.markers ↔ e.getRestartInterval.isSome) ∧
    ∀ s ∈ d.scans, Spec.scanMarkers s.data = some (Spec.restartMarkers (Spec.restartCount d.ri s.mcus)) := by
  refine encodes_of hpf hc hp hs h8 hst fun image t _ _ _ _ => ⟨?_, ?_, ?_⟩
  · simp only [Encoder.decoded, fileDec, frameDec, Encoder.getRestartInterval]
    rfl
  · have happ : 0xDD ∉ (fileApps e.density image.colorType e.appSegments).map fun a => 0xE0 + a.1 := by
      simp only [List.mem_map, not_exists, not_and]
      intro a _ h
      omega
    simp only [Encoder.decoded, fileDec, frameDec, Encoder.getRestartInterval, List.mem_append, happ, List.mem_replicate, false_or]
    cases e.restartInterval <;> cases e.mode.isProg <;> by_cases h3 : (initComponents e.samplingFactor image.colorType).length ≥ 3 <;> simp [h3]
  · intro s hsm
    simp only [Encoder.decoded, fileDec, List.mem_map] at hsm
    obtain ⟨sd, _, rfl⟩ := hsm
    exact scanBytes_markers _ _ _

/-- C06: inside a scan every 0xFF byte is followed by a stuffed zero byte or belongs to a restart marker. -/
theorem C06_no_false_marker : Spec.Encodes p strict fun _ d => ∀ s ∈ d.scans, Spec.MarkerFree s.data := by
  obtain ⟨bytes, d, h1, h2, -, -, h3⟩ := C05_restart_markers hpf hc hp hs h8 hst
  exact ⟨bytes, d, h1, h2, fun s hsm => markerFree_of_markers _ _ (h3 s hsm) (restartMarkers_mem _)⟩

/-- C31: the number of MCUs of every scan (all of which the decoder finds) is what A.2 derives from the frame header. -/
theorem C31_mcu_count : Spec.Encodes p strict fun _ d =>
    ∃ f, d.frame = some f ∧ f.width = w.toNat ∧ f.height = h.toNat ∧ d.scans ≠ [] ∧ ∀ s ∈ d.scans,
      (∃ sc fc, s.scan.comps = [sc] ∧ f.comps[sc.comp]? = some fc ∧
        s.mcus = ((w.toNat * fc.h + f.hmax - 1) / f.hmax + 7) / 8 * (((h.toNat * fc.v + f.vmax - 1) / f.vmax + 7) / 8)) ∨
      (1 < s.scan.comps.length ∧ s.mcus = (w.toNat + 8 * f.hmax - 1) / (8 * f.hmax) * ((h.toNat + 8 * f.vmax - 1) / (8 * f.vmax))) := by
  refine encodes_of hpf hc hp hs h8 hst fun image t hct hw hh _ => ?_
  obtain ⟨hg, -⟩ := initComponents_grid e.samplingFactor image.colorType
  refine ⟨mkFrame e.mode.isProg image.width image.height (initComponents e.samplingFactor image.colorType), rfl, by rw [← hw]; rfl,
    by rw [← hh]; rfl, ?_, ?_⟩
  · simp only [Encoder.decoded, fileDec, ne_eq, List.map_eq_nil_iff]
    exact scans_ne_nil _ _ (initComponents_ne_nil _ _)
  · subst hw hh
    intro s hsm
    simp only [Encoder.decoded, fileDec, List.mem_map] at hsm
    obtain ⟨sd, hsd, rfl⟩ := hsm
    rcases mem_scans' (initComponents_ne_nil _ _) hsd with ⟨c, hcm, h1⟩ | ⟨h2, h1⟩
    · left
      refine ⟨c.scanComp, c.frame, by simp [ScanDesc.log, ScanDesc.scan, h1], ?_, ?_⟩
      · obtain ⟨j, hj, rfl⟩ := List.mem_iff_getElem.mp hcm
        have hid := hg.ok.ids j _ (List.getElem?_eq_getElem hj)
        simp only [mkFrame, Component.scanComp, hid, List.getElem?_map, List.getElem?_eq_getElem hj, Option.map_some]
      · simp only [ScanDesc.log, ScanDesc.mcus, h1, List.map_singleton]
        rw [layout_length_one, Nat.mul_comm]
        rfl
    · refine Or.inr ⟨by simpa [ScanDesc.log, ScanDesc.scan, h1] using h2, ?_⟩
      simp only [ScanDesc.log, ScanDesc.mcus]
      rw [layout_length_many (by simpa [h1] using h2), Nat.mul_comm]
      rfl

/-- C32: the file starts with SOI and ends with EOI (where the decoder has read everything), has exactly one frame header, of the
type of the mode, with the parameters of the image. -/
theorem C32_frame_header : Spec.Encodes p strict fun bytes d =>
    bytes.take 2 = [0xFF, 0xD8] ∧ bytes.drop (bytes.length - 2) = [0xFF, 0xD9] ∧
    (d.markers.filter fun m => 0xC0 ≤ m ∧ m ≤ 0xCF ∧ m ≠ 0xC4) = [if e.getProgressiveScans.isSome then 0xC2 else 0xC0] ∧
    Spec.HasFrame e.getProgressiveScans.isSome e.getSamplingFactor.factors ct w h d := by
  refine encodes_of hpf hc hp hs h8 hst fun image t hct hw hh _ => ⟨?_, ?_, ?_, ?_⟩
  · simp only [Encoder.file, fileBytes]; rfl
  · simp only [Encoder.file, fileBytes, ← List.append_assoc]
    rw [List.length_append, List.length_cons, List.length_singleton, Nat.add_sub_cancel, List.drop_left]
  · have happ : ((fileApps e.density image.colorType e.appSegments).map fun a => 0xE0 + a.1).filter (fun m => 0xC0 ≤ m ∧ m ≤ 0xCF ∧ m ≠ 0xC4) = [] := by
      rw [List.filter_eq_nil_iff]
      intro m hm
      simp only [List.mem_map] at hm
      obtain ⟨a, _, rfl⟩ := hm
      simp only [decide_eq_true_eq]
      omega
    have hda : ∀ n, (List.replicate n 0xDA).filter (fun m => decide (0xC0 ≤ m ∧ m ≤ 0xCF ∧ m ≠ 0xC4)) = [] := by
      intro n
      rw [List.filter_eq_nil_iff]
      intro m hm
      rw [List.eq_of_mem_replicate hm]
      decide
    simp only [Encoder.decoded, fileDec, frameDec, List.filter_append, happ, hda, ← mode_isProg]
    cases e.restartInterval <;> cases e.mode.isProg <;> by_cases h3 : (initComponents e.samplingFactor image.colorType).length ≥ 3 <;> simp [h3]
  · subst hct hw hh
    exact decoded_frame e (dctFn simd) image P t

/-- C33: the application segments of the file are the JFIF segment, the Adobe segment of the color type if there is one, and the
segments of all accepted calls in the order of the calls, unchanged. -/
theorem C33_segments_in_file : Spec.Encodes p strict fun _ d => ∃ jfif adobe, d.apps = (0, jfif) :: adobe ++
      (calls.flatMap Spec.Call.segments).map (fun s => (s.1.toNat, s.2)) ∧
    Spec.readDensity jfif = some e.getDensity ∧ adobe.map Spec.adobeTransform = (Spec.wantedTransform ct).toList.map some := by
  refine encodes_of hpf hc hp hs h8 hst fun image t hct _ _ _ => ⟨jfifPayload e.density, adobeApp image.colorType, ?_, readDensity_payload _, ?_⟩
  · rw [← hc.apps]
    rfl
  · subst hct
    cases image.colorType <;> decide

/-- C35: directly after SOI there is a JFIF segment from which the density can be read back. -/
theorem C35_density : Spec.Encodes p strict fun bytes d =>
    bytes.take 4 = [0xFF, 0xD8, 0xFF, 0xE0] ∧ d.markers.head? = some 0xE0 ∧
    ∃ payload, d.apps.head? = some (0, payload) ∧ Spec.readDensity payload = some (Spec.latest Spec.wantDensity .none calls) := by
  refine encodes_of hpf hc hp hs h8 hst fun image t hct _ _ _ => ⟨?_, ?_, jfifPayload e.density, ?_, ?_⟩
  · simp only [Encoder.file, fileBytes]; rfl
  · rfl
  · rfl
  · rw [readDensity_payload, ← hc.settings.1.density]
    rfl

/-- C36: the first Adobe segment of the file has the transform of the color type; without one (and none added by the user) there is no
Adobe segment. The number of components matches the color type. -/
theorem C36_adobe (huser : Spec.wantedTransform ct = none → ∀ s ∈ calls.flatMap Spec.Call.segments, s.1 ≠ 14) :
    Spec.Encodes p strict fun _ d => d.apps.findSome? Spec.adobeTransform = Spec.wantedTransform ct ∧
      ∃ f, d.frame = some f ∧ f.comps.length = Spec.componentCount ct ∧
        f.comps.map (·.id) = List.range f.comps.length := by
  refine encodes_of hpf hc hp hs h8 hst fun image t hct _ _ _ => ⟨?_, _, rfl, ?_⟩
  · have h0 : Spec.adobeTransform (0, jfifPayload e.density) = none := by simp [Spec.adobeTransform]
    subst hct
    simp only [Encoder.decoded, fileDec, frameDec, fileApps, List.findSome?_cons, h0, List.findSome?_append]
    have hno : Spec.wantedTransform image.colorType = none →
        List.findSome? Spec.adobeTransform (e.appSegments.map fun a => (a.1.toNat, a.2)) = none := by
      intro hn
      rw [List.findSome?_eq_none_iff]
      intro a ha
      simp only [List.mem_map] at ha
      obtain ⟨b, hb, rfl⟩ := ha
      rw [hc.apps] at hb
      have := huser hn b hb
      have h14 : b.1.toNat ≠ 14 := fun h => this (UInt8.toNat_inj.mp h)
      simp [Spec.adobeTransform, h14]
    revert hno
    cases image.colorType <;> simp only [Spec.wantedTransform, adobeApp] <;> intro hno
    · simpa using hno trivial
    · simpa using hno trivial
    · simp [Spec.adobeTransform]
    · simp [Spec.adobeTransform]
  · subst hct
    simp only [mkFrame, comps_expected]
    cases image.colorType <;> exact ⟨rfl, rfl⟩

/-- C34: a non-empty profile added by a call can be reassembled from the application segments of the file, provided no other call added
ICC chunks. -/
theorem C34_icc_in_file {l1 l2 : List Spec.Call} {profile : Bytes} (hcalls : calls = l1 ++ .addIccProfile profile :: l2) (hne : profile ≠ [])
    (hlen : profile.length ≤ 254 * 65519) (hother : ∀ s ∈ (l1 ++ l2).flatMap Spec.Call.segments, Spec.iccChunk s = none) :
    Spec.Encodes p strict fun _ d => Spec.iccProfile (d.apps.map fun a => (UInt8.ofNat a.1, a.2)) = some profile := by
  obtain ⟨bytes, d, h1, h2, jfif, adobe, h3, h4, h5⟩ := C33_segments_in_file hpf hc hp hs h8 hst
  refine ⟨bytes, d, h1, h2, ?_⟩
  have hid : ((calls.flatMap Spec.Call.segments).map fun s => (s.1.toNat, s.2)).map (fun a => (UInt8.ofNat a.1, a.2)) =
      calls.flatMap Spec.Call.segments := by
    rw [List.map_map]
    conv_rhs => rw [← List.map_id (calls.flatMap Spec.Call.segments)]
    refine List.map_congr_left fun a _ => ?_
    simp
  have hadobe : (adobe.map fun a => (UInt8.ofNat a.1, a.2)).filterMap Spec.iccChunk = [] := by
    rw [List.filterMap_eq_nil_iff]
    intro a ha
    simp only [List.mem_map] at ha
    obtain ⟨b, hb, rfl⟩ := ha
    have : Spec.adobeTransform b ∈ (Spec.wantedTransform ct).toList.map some := by rw [← h5]; exact List.mem_map_of_mem hb
    have h14 : b.1 = 14 := by
      simp only [List.mem_map] at this
      obtain ⟨x, _, hx⟩ := this
      by_contra hn
      simp [Spec.adobeTransform, hn] at hx
    simp [Spec.iccChunk, h14]
  have hnone : ∀ l : List Spec.Call, (∀ s ∈ l.flatMap Spec.Call.segments, Spec.iccChunk s = none) →
      (l.flatMap Spec.Call.segments).filterMap Spec.iccChunk = [] := by
    intro l hl
    rw [List.filterMap_eq_nil_iff]
    exact hl
  have hmain : (d.apps.map fun a => (UInt8.ofNat a.1, a.2)).filterMap Spec.iccChunk = (Spec.iccSegments profile).filterMap Spec.iccChunk := by
    rw [h3, List.map_append, hid, hcalls]
    simp only [List.map_cons, List.flatMap_append, List.flatMap_cons, List.filterMap_append, List.filterMap_cons, hadobe]
    rw [hnone l1 fun s hs => hother s (by simp only [List.flatMap_append, List.mem_append]; exact Or.inl hs),
      hnone l2 fun s hs => hother s (by simp only [List.flatMap_append, List.mem_append]; exact Or.inr hs)]
    simp [Spec.Call.segments, hlen, Spec.iccChunk]
  have hp2 : Spec.iccProfile (Spec.iccSegments profile) = some profile := by
    obtain ⟨segs, hs1, -, -, hs2⟩ := C34_icc_accepted pf e profile hlen
    have key : e.addIccProfile pf profile = .ok { e with appSegments := e.appSegments ++ Spec.iccSegments profile } := by
      simp only [Encoder.addIccProfile, max_chunk]
      rw [ceilDiv_eq (by omega)]
      simp only [ok_bind]
      rw [if_neg (by omega), ← iccSegments_eq]
      exact iccLoop_ok pf ((profile.length + 65519 - 1) / 65519) (chunks 65519 profile) 0 e
        (fun c hc => chunks_mem_length _ _ _ hc) (by rw [chunks_length, Nat.zero_add]; omega)
    rw [key] at hs1
    simp only [Except.ok.injEq, Encoder.mk.injEq, true_and, and_true, List.append_cancel_left_eq] at hs1
    rw [hs1]
    exact hs2 hne
  change Spec.iccProfile (d.apps.map fun a => (UInt8.ofNat a.1, a.2)) = some profile
  unfold Spec.iccProfile at hp2 ⊢
  rw [hmain]
  exact hp2

/-- C21: the k-th entry of the DQT table the frame header assigns to a component is the entry in effect for the k-th zig-zag
coefficient (the one quantisation uses, see C22). -/
theorem C21_tables_in_file : Spec.Encodes p strict fun _ d =>
    ∃ f q0 q1, d.frame = some f ∧ Spec.AreTables e.getQuantizationTables q q0 q1 ∧ ∀ fc ∈ f.comps, (fc.tq = 0 ∨ fc.tq = 1) ∧
      ∃ l, d.qts fc.tq = some l ∧ l.length = 64 ∧
        ∀ k, k < 64 → (if fc.tq = 0 then q0 else q1).get (zigzag.getD k 0) = .ok (l.getD k 0) := by
  refine encodes_of hpf hc hp hs h8 hst fun image t hct _ _ _ => ?_
  refine ⟨_, mkQ e.steps0, mkQ e.steps1, rfl, ⟨?_, ?_⟩, ?_⟩
  · rw [← hc.settings.1.quality]; exact newWithQuality_eq _ _ _
  · rw [← hc.settings.1.quality]; exact newWithQuality_eq _ _ _
  · have h88 := eightBit_steps h8
    have hent : ∀ s : List Nat, s.length = 64 → (∀ v ∈ s, v ≤ 255) → ∀ k, k < 64 →
        (mkQ s).get (zigzag.getD k 0) = .ok ((ZIGZAG.map fun z => s.getD z 1).getD k 0) := by
      intro s hl hv k hk
      have hz : ZIGZAG.getD k 0 < 64 := ZIGZAG_getD_lt hk
      rw [zigzag_eq, mkQ_get' s (by omega)]
      rw [getD_map_lt _ _ 0 0 hk]
      have := hv _ (getD_mem (s := s) (k := ZIGZAG.getD k 0) (by omega))
      rw [Nat.mod_eq_of_lt (by omega)]
    intro fc hfc
    have htq : fc.tq = 0 ∨ fc.tq = 1 := by
      simp only [mkFrame, comps_expected] at hfc
      revert hfc
      cases image.colorType <;> simp only [Spec.expectedComps, List.mem_cons, List.not_mem_nil, or_false] <;> rintro (rfl | rfl | rfl | rfl) <;> simp
    refine ⟨htq, ?_⟩
    rcases htq with h0 | h0
    · rw [h0, if_pos rfl]
      exact ⟨_, rfl, rfl, hent _ (steps_length _ _ _) h88.1⟩
    · rw [h0, if_neg (by omega)]
      exact ⟨_, rfl, rfl, hent _ (steps_length _ _ _) h88.2⟩

/-- C08: the Huffman tables of the file are valid: code lengths 1..16, as many distinct values as announced, prefix free codes without
the all-ones code. (That these are the codes the encoder used is part of C01 - C03: the decoder builds its codes from these tables.) -/
theorem C08_tables_in_file : Spec.Encodes p strict fun _ d => ∀ i t, (d.dc i = some t ∨ d.ac i = some t) →
    t.counts.length = 16 ∧ t.values.length = t.counts.sum ∧ t.values.Nodup ∧ t.codeWords.length = t.values.length ∧
    (∀ c ∈ t.codeWords, 1 ≤ c.length ∧ c.length ≤ 16 ∧ false ∈ c) ∧
    t.codeWords.Pairwise fun a b => ¬ a <+: b ∧ ¬ b <+: a := by
  refine encodes_of hpf hc hp hs h8 hst fun image t _ _ _ hwk i T hT => ?_
  have hwf : T.WellFormed := by
    have htabs := hwk.cod.tabs
    simp only [Encoder.decoded, fileDec, frameDec, Dec.init] at hT
    by_cases h3 : (initComponents e.samplingFactor image.colorType).length ≥ 3
    · simp only [if_pos h3, upd] at hT
      rcases hT with hT | hT
      · split at hT
        · cases hT; exact (htabs.dc1 h3).ok.wf
        · split at hT
          · cases hT; exact htabs.dc0.ok.wf
          · cases hT
      · split at hT
        · cases hT; exact (htabs.ac1 h3).ok.wf
        · split at hT
          · cases hT; exact htabs.ac0.ok.wf
          · cases hT
    · simp only [if_neg h3, upd] at hT
      rcases hT with hT | hT
      · split at hT
        · cases hT; exact htabs.dc0.ok.wf
        · cases hT
      · split at hT
        · cases hT; exact htabs.ac0.ok.wf
        · cases hT
  refine ⟨hwf.counts_len, hwf.values_len, hwf.values_nodup, hwf.codeWords_length, ?_, hwf.prefixFree⟩
  intro c hcm
  simp only [HuffTable.codeWords, List.mem_map] at hcm
  obtain ⟨lc, hlc, rfl⟩ := hcm
  obtain ⟨h1, h2, h3⟩ := hwf.code_bounds lc hlc
  rw [toBits_length]
  exact ⟨h1, h2, false_mem_toBits h3⟩

/-- C30: with `n` scans there is one DC scan per component, followed by `n - 1` rounds of AC scans. Their bands follow one another from 1 to
63; for `n ≤ 33` none is empty, for `n ≥ 34` the first one is: it starts at 1 and ends at 0. -/
theorem C30_bands (n : UInt8) (hn : e.getProgressiveScans = some n) : Spec.Encodes p strict fun _ d =>
    ∃ bands : List (Nat × Nat), d.scans.map (·.scan) =
        Spec.dcScans (Spec.expectedComps e.getSamplingFactor.factors.1 e.getSamplingFactor.factors.2 ct) ++
        bands.flatMap (Spec.acScans (Spec.expectedComps e.getSamplingFactor.factors.1 e.getSamplingFactor.factors.2 ct)) ∧
      bands.length = n.toNat - 1 ∧ bands.head?.map (·.1) = some 1 ∧ bands.getLast?.map (·.2) = some 63 ∧
      bands.IsChain (fun a b => b.1 = a.2 + 1) ∧ (n.toNat ≤ 33 → ∀ b ∈ bands, b.1 ≤ b.2) ∧ (34 ≤ n.toNat → bands.head? = some (1, 0)) := by
  refine encodes_of hpf hc hp hs h8 hst fun image t hct _ _ _ => ?_
  have hr := hc.wf.scans n hn
  refine ⟨(bandList n.toNat).map fun b => (b.1, b.2 - 1), ?_, bandList_spec hr.1 hr.2⟩
  have hm : e.mode = .progressive n.toNat := by
    unfold Encoder.mode
    rw [show e.progressiveScans = some n from hn]
  subst hct
  have hcs := initComponents_scanComp e.samplingFactor image.colorType
  rw [decoded_scans, hm]
  simp only [Mode.scans, List.map_append, List.map_map, List.map_flatMap, List.flatMap_map]
  refine congrArg₂ (· ++ ·) ?_ ?_
  · have h6 := congrArg (List.map fun c => (⟨[c], 0, 0⟩ : Scan)) hcs
    simpa [List.map_map, Function.comp_def, ScanDesc.scan, Spec.dcScans, Encoder.getSamplingFactor] using h6
  · refine List.flatMap_congr fun b _ => ?_
    have h6 := congrArg (List.map fun c => (⟨[c], b.1, b.2 - 1⟩ : Scan)) hcs
    simpa [List.map_map, Function.comp_def, ScanDesc.scan, Spec.acScans, Encoder.getSamplingFactor] using h6

omit hst in
/-- C30, FALSE for 34 and more scans: a decoder that follows T.81 to the letter does not accept the file. -/
theorem C30_false_above_33 (n : UInt8) (hn : e.getProgressiveScans = some n) (h34 : 34 ≤ n.toNat) :
    ∃ bytes, Spec.Writes p bytes ∧ decode true bytes = none := by
  obtain ⟨bytes, d, h1, h2, bands, h3, -, -, -, -, -, h4⟩ := C30_bands (strict := false) hpf hc hp hs h8 (by intro h; cases h) n hn
  refine ⟨bytes, h1, ?_⟩
  cases hd : decode true bytes with
  | none => rfl
  | some d' =>
    exfalso
    obtain ⟨h5, h6⟩ := decode_mono hd
    rw [h2] at h5
    cases h5
    have hb : (1, 0) ∈ bands := List.mem_of_mem_head? (h4 h34)
    have hmem : ∃ s ∈ d.scans.map (·.scan), s.ss = 1 ∧ s.se = 0 := by
      rw [h3]
      have hne : Spec.expectedComps e.getSamplingFactor.factors.1 e.getSamplingFactor.factors.2 ct ≠ [] := by cases ct <;> simp [Spec.expectedComps]
      obtain ⟨c, hcm⟩ := List.exists_mem_of_ne_nil _ hne
      refine ⟨⟨[Spec.scanComp c], 1, 0⟩, ?_, rfl, rfl⟩
      rw [List.mem_append, List.mem_flatMap]
      exact Or.inr ⟨_, hb, List.mem_map_of_mem hcm⟩
    obtain ⟨s, hsm, hs1, hs2⟩ := hmem
    obtain ⟨l, hl, rfl⟩ := List.mem_map.mp hsm
    have := h6 l hl
    omega

/-- C38: limits of baseline: any two DC coefficients differ by less than 2^11, AC coefficients have less than 10 bits; scans with several
components have at most 10 blocks per MCU, and sampling factors of at most 2. -/
theorem C38_limits : Spec.Encodes p strict fun _ d =>
    (∀ c y x y' x', |d.coefs c y x 0 - d.coefs c y' x' 0| < 2 ^ 11) ∧ (∀ c y x k, 1 ≤ k → k < 64 → |d.coefs c y x k| < 2 ^ 10) ∧
    ∃ f, d.frame = some f ∧ ∀ s ∈ d.scans, 1 < s.scan.comps.length →
      ((scanFrameComps f s.scan).map fun c => c.h * c.v).sum ≤ 10 ∧ ∀ c ∈ f.comps, c.h ≤ 2 ∧ c.v ≤ 2 := by
  refine encodes_of hpf hc hp hs h8 hst fun image t hct hw hh _ => ?_
  have hb : CoefBounds (e.coefs (dctFn simd) image P) := coefsOf_bounds (opOk_for simd) (steps_length _ _ _) (steps_length _ _ _)
    (steps_range _ _ _) (steps_range _ _ _) _ _ _ _ _ _
  have hcf : ∀ c y x k, (e.decoded (dctFn simd) image P t).coefs c y x k = e.coefs (dctFn simd) image P c y x k ∨
      (e.decoded (dctFn simd) image P t).coefs c y x k = 0 := fun c y x k => coefsAfter_or _ _ c y x k
  refine ⟨?_, ?_, _, rfl, ?_⟩
  · intro c y x y' x'
    have h1 := hb.dc c y x
    have h2 := hb.dc c y' x'
    rw [abs_lt]
    rcases hcf c y x 0 with h3 | h3 <;> rcases hcf c y' x' 0 with h4 | h4 <;> rw [h3, h4] <;> constructor <;> omega
  · intro c y x k hk1 hk2
    have h1 := hb.ac c y x k hk1 hk2
    rw [abs_lt]
    rcases hcf c y x k with h3 | h3 <;> rw [h3] <;> constructor <;> omega
  · intro s hsm hlen
    obtain ⟨hg, -⟩ := initComponents_grid e.samplingFactor image.colorType
    simp only [Encoder.decoded, fileDec, List.mem_map] at hsm
    obtain ⟨sd, hsd, rfl⟩ := hsm
    have hint : e.mode = .interleaved := by
      cases hm : e.mode with
      | interleaved => rfl
      | sequential =>
        rw [hm] at hsd
        simp only [Mode.scans, List.mem_map] at hsd
        obtain ⟨c, -, rfl⟩ := hsd
        simp [ScanDesc.log, ScanDesc.scan] at hlen
      | progressive n =>
        rw [hm] at hsd
        simp only [Mode.scans, List.mem_append, List.mem_map, List.mem_flatMap] at hsd
        rcases hsd with ⟨c, -, rfl⟩ | ⟨b, -, c, -, rfl⟩ <;> simp [ScanDesc.log, ScanDesc.scan] at hlen
    rw [hint] at hsd
    simp only [Mode.scans, List.mem_singleton] at hsd
    subst hsd
    have hbase := (baseline_mode e).mp hint
    have hsf := (interleaved_iff e.samplingFactor).mpr ⟨hbase.2.2.1, hbase.2.2.2⟩
    revert hsf
    simp only [ScanDesc.log, ScanDesc.scan, mkFrame, comps_expected, scanFrameComps]
    cases e.samplingFactor <;> cases image.colorType <;> decide

end

/-! ### Concrete cases -/

-- a call of `encode` as in the hypotheses: progressive with 40 scans, restart interval, two kinds of segments, CMYK pixels
example : ∃ e, Configured ⟨false, 4⟩ 90 [.setProgressiveScans 40, .setRestartInterval 3, .addAppSegment 5 [1, 2, 3], .addIccProfile [9, 8, 7],
      .setDensity (.inch 300 200)] e ∧
    Spec.Supported ⟨false, 4⟩ true e .cmyk 17 3 (Spec.samplesOf .cmyk (List.replicate 204 5) 17) ∧ Spec.EightBit e.getQuantizationTables ∧ ScansFine false e ∧ e.getProgressiveScans = some 40 ∧
    Spec.EncodeCall ⟨false, 4⟩ true e (e.encode ⟨false, 4⟩ true (List.replicate 204 5) 17 3 .cmyk) .cmyk 17 3
      (Spec.samplesOf .cmyk (List.replicate 204 5) 17) := by
  obtain ⟨e, h1, h2⟩ := reachable_exists ⟨false, 4⟩ 90 [.setProgressiveScans 40, .setRestartInterval 3, .addAppSegment 5 [1, 2, 3],
    .addIccProfile [9, 8, 7], .setDensity (.inch 300 200)] (by decide)
  refine ⟨e, h1, ⟨by decide, by decide, Or.inr (Or.inl (by unfold Spec.frameOf; rw [h2.scans, h2.sampling]; decide)), ?_⟩, ?_, (by intro h; cases h), by rw [h2.scans]; rfl, ?_⟩
  · left; rw [h2.optimized]; rfl
  · rw [h2.quant]
    rintro t (h | h) <;> cases h
  · exact Spec.EncodeCall.data _ 17 3 .cmyk (by rw [List.length_replicate]; decide) (by rw [Spec.SliceOk, List.length_replicate]; decide)

example : Spec.scanMarkers [1, 0xFF, 0, 2, 0xFF, 0xD0, 0xFF, 0xD1, 7] = some [0xD0, 0xD1] := by decide
example : Spec.restartCount 3 7 = 2 ∧ Spec.restartCount 3 6 = 1 ∧ Spec.restartCount 7 7 = 0 ∧ Spec.restartCount 0 100 = 0 := by decide
example : ¬ Spec.MarkerFree [0xFF, 0xD9] := by
  intro h
  rcases h 0 rfl with h | ⟨k, hk, h⟩
  · revert h; decide
  · revert h; revert k; decide

end Jpeg
