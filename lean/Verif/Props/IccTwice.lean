import Verif.Props.File
/-! C34, a limit: two calls of `add_icc_profile` leave a file from which no profile can be read. -/
namespace Jpeg
open _root_.Spec

/-- The first segment of a profile is numbered 1. -/
theorem iccSegments_first {profile : Bytes} (hne : profile ≠ []) :
    ∃ n d rest, (Spec.iccSegments profile).filterMap Spec.iccChunk = (1, n, d) :: rest := by
  have hpos : 0 < profile.length := List.length_pos_iff.mpr hne
  have : _root_.Spec.ceilDiv profile.length 65519 = (_root_.Spec.ceilDiv profile.length 65519 - 1) + 1 := by
    unfold _root_.Spec.ceilDiv; omega
  unfold Spec.iccSegments
  generalize _root_.Spec.ceilDiv profile.length 65519 = m at *
  rw [this, List.range_succ_eq_map, List.map_cons, List.filterMap_cons]
  simp [Spec.iccChunk, Spec.iccSignature]

theorem iccProfile_none {segs : List (UInt8 × Bytes)} {A B C : List (UInt8 × UInt8 × Bytes)} {n n' : UInt8} {d d' : Bytes}
    (h : segs.filterMap Spec.iccChunk = A ++ (1, n, d) :: B ++ (1, n', d') :: C) : Spec.iccProfile segs = none := by
  unfold Spec.iccProfile
  rw [h]
  dsimp only
  rw [if_neg]
  rintro ⟨-, h2⟩
  have h3 := congrArg (List.map Prod.fst) h2
  rw [List.map_map, List.map_map] at h3
  have hnd : ((List.range (A ++ (1, n, d) :: B ++ (1, n', d') :: C).length).map (Prod.fst ∘ fun i => (i + 1, (A ++ (1, n, d) :: B ++ (1, n', d') :: C).length))).Nodup := by
    refine List.Nodup.map ?_ List.nodup_range
    intro a b hab
    simpa using hab
  rw [← h3] at hnd
  simp only [List.map_append, List.map_cons, List.nodup_append, Function.comp] at hnd
  have := hnd.2.2 1 (by simp) 1 (by simp)
  exact this rfl

section
variable {pf : Platform} (hpf : pf.Valid) {q : UInt8} {calls : List Spec.Call} {e : Encoder} (hc : Configured pf q calls e) {simd : Bool}
  {p : Prog (R Unit)} {ct : JpegColorType} {w h : UInt16} {P : Nat → Nat → Nat → UInt8} (hp : Spec.EncodeCall pf simd e p ct w h P)
  (hs : Spec.Supported pf simd e ct w h P) (h8 : Spec.EightBit e.getQuantizationTables) {strict : Bool} (hst : ScansFine strict e)
include hpf hc hp hs h8 hst

/-- C34, a limit of the code: if two calls add non-empty profiles (equal or not; both calls report success), the segments in the file do not form a profile: the numbering starts
twice. -/
theorem C34_two_profiles_false {l1 l2 l3 : List Spec.Call} {profile profile' : Bytes}
    (hcalls : calls = l1 ++ .addIccProfile profile :: l2 ++ .addIccProfile profile' :: l3) (hne : profile ≠ []) (hne' : profile' ≠ [])
    (hlen : profile.length ≤ 254 * 65519) (hlen' : profile'.length ≤ 254 * 65519) :
    Spec.Encodes p strict fun _ d => Spec.iccProfile (d.apps.map fun a => (UInt8.ofNat a.1, a.2)) = none := by
  obtain ⟨bytes, d, h1, h2, jfif, adobe, h3, h4, h5⟩ := C33_segments_in_file hpf hc hp hs h8 hst
  refine ⟨bytes, d, h1, h2, ?_⟩
  have hid : ((calls.flatMap Spec.Call.segments).map fun s => (s.1.toNat, s.2)).map (fun a => (UInt8.ofNat a.1, a.2)) =
      calls.flatMap Spec.Call.segments := by
    rw [List.map_map]
    conv_rhs => rw [← List.map_id (calls.flatMap Spec.Call.segments)]
    refine List.map_congr_left fun a _ => ?_
    simp
  obtain ⟨n, x, r, e1⟩ := iccSegments_first hne
  obtain ⟨n', x', r', e2⟩ := iccSegments_first hne'
  change Spec.iccProfile (d.apps.map fun a => (UInt8.ofNat a.1, a.2)) = none
  have hsplit : ∃ A B C, (d.apps.map fun a => (UInt8.ofNat a.1, a.2)).filterMap Spec.iccChunk = A ++ (1, n, x) :: B ++ (1, n', x') :: C := by
    rw [h3, List.map_append, hid, hcalls]
    simp only [List.flatMap_append, List.flatMap_cons, List.filterMap_append, Spec.Call.segments, if_pos hlen, if_pos hlen', e1, e2]
    exact ⟨_ ++ _, r ++ _, r' ++ _, by simp only [List.append_assoc, List.cons_append]; rfl⟩
  obtain ⟨A, B, C, hABC⟩ := hsplit
  exact iccProfile_none hABC

end

-- a configuration that satisfies the hypotheses
example : ∃ e, Configured ⟨true, 8⟩ 80 ([.setProgressive true] ++ .addIccProfile [1, 2, 3] :: [.addAppSegment 5 [1]] ++ .addIccProfile [1, 2, 3] :: []) e ∧
    Spec.Supported ⟨true, 8⟩ true e .luma 1 1 (Spec.samplesOf .luma [7] 1) ∧ ScansFine true e ∧ Spec.EightBit e.getQuantizationTables := by
  obtain ⟨e, h1, h2⟩ := reachable_exists ⟨true, 8⟩ 80 ([.setProgressive true] ++ .addIccProfile [1, 2, 3] :: [.addAppSegment 5 [1]] ++ .addIccProfile [1, 2, 3] :: []) (by decide)
  refine ⟨e, h1, ⟨by decide, by decide, Or.inl rfl, Or.inl ?_⟩, ?_, ?_⟩
  · rw [h2.optimized]; rfl
  · intro _ n hn
    rw [h2.scans] at hn; cases hn; decide
  · intro t ht
    rw [h2.quant] at ht
    rcases ht with h | h <;> cases h

end Jpeg
