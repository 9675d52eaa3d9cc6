import Verif.Spec.Size
import Verif.Proofs.Size
import Verif.Props.Stream
/-! C52: the size of the output. -/
namespace Jpeg
open _root_.Spec

/-- C52: the output of an encode has at most `Spec.enoughBytes` bytes. -/
theorem C52_size_bound {pf : Platform} (hpf : pf.Valid) {q : UInt8} {calls : List Spec.Call} {e : Encoder} (hc : Configured pf q calls e)
    {simd : Bool} {p : Prog (R Unit)} {ct : JpegColorType} {w h : UInt16} {P : Nat → Nat → Nat → UInt8} (hp : Spec.EncodeCall pf simd e p ct w h P)
    (hs : Spec.Supported pf simd e ct w h P) :
    ∃ f, Spec.Writes p f ∧ f.length ≤ Spec.enoughBytes (calls.flatMap Spec.Call.segments) (Spec.componentCount ct) w.toNat h.toNat
      ((e.getProgressiveScans.map UInt8.toNat).getD 1) e.getRestartInterval.isSome := by
  obtain ⟨image, hd, rfl, rfl, rfl, rfl⟩ := hp.image_of
  obtain ⟨t, ht⟩ := hs.works hc.wf
  refine ⟨_, encode_run hpf hd hc.wf hs ht, ?_⟩
  have hgrid := (initComponents_grid e.samplingFactor image.colorType).1
  have hlen : (initComponents e.samplingFactor image.colorType).length = Spec.componentCount image.colorType := by
    cases image.colorType <;> rfl
  have hone := init_one e.samplingFactor image.colorType
  have hm : ∀ n, e.mode = .progressive n → 2 ≤ n ∧ n ≤ 64 := by
    intro n hn
    have := hc.wf.mode_ok false (by simp) image.colorType
    rw [hn] at this
    exact ⟨this.1, this.2.1⟩
  have hper : e.mode.perComponent = (e.getProgressiveScans.map UInt8.toNat).getD 1 := by
    unfold Encoder.mode Encoder.getProgressiveScans
    cases e.progressiveScans with
    | some n => rfl
    | none => simp only [Option.map_none, Option.getD_none]; split <;> rfl
  have hS : e.mode.perComponent ≤ 64 := by
    cases hmm : e.mode with
    | progressive n => exact (hm n hmm).2
    | interleaved => decide
    | sequential => decide
  have hfile := file_len (den := e.density) (ct := image.colorType) (apps := e.appSegments) (s0 := e.steps0) (s1 := e.steps1) hgrid hone ht.cod.tabs ht.cod.units hm
  have happs : e.appSegments = calls.flatMap Spec.Call.segments := hc.apps
  have hn4 : Spec.componentCount image.colorType ≤ 4 := by cases image.colorType <;> decide
  rw [hlen, happs, hper] at hfile
  rw [hper] at hS
  unfold Encoder.file Spec.enoughBytes
  rw [happs]
  generalize fileBytes e.density image.colorType (calls.flatMap Spec.Call.segments) e.mode image.width image.height
    (initComponents e.samplingFactor image.colorType) e.steps0 e.steps1 t e.restartInterval (e.coefs (dctFn simd) image P) = f at *
  generalize Spec.componentCount image.colorType = n at *
  generalize (e.getProgressiveScans.map UInt8.toNat).getD 1 = S at *
  generalize ((calls.flatMap Spec.Call.segments).map fun s => s.2.length + 4).sum = A at *
  change _ ≤ 6400 + A + n * area image.width image.height * _
  have hri : e.getRestartInterval = e.restartInterval := rfl
  rw [hri]
  have hnS : n * S ≤ 4 * 64 := Nat.mul_le_mul hn4 hS
  generalize hB : area image.width image.height = B at *
  cases hr : e.restartInterval with
  | none =>
    rw [hr] at hfile
    simp only [Option.map_none, Option.getD_none, intervalBound, if_true, Option.isSome_none, Bool.false_eq_true, if_false] at hfile ⊢
    have e1 : n * (64 * S + 1665 * B + 15 * 1 * S) = 79 * (n * S) + 1665 * (n * B) := by ring
    rw [e1] at hfile
    have e2 : n * B * (417 + 0) = 417 * (n * B) := by ring
    rw [e2]
    omega
  | some r =>
    rw [hr] at hfile
    simp only [Option.isSome_some, if_true] at hfile ⊢
    have hI : intervalBound ((Option.map UInt16.toNat (some r)).getD 0) image.width image.height ≤ B := by
      unfold intervalBound
      have := area_pos image.width image.height
      split <;> omega
    have e0 : n * (64 * S + 1665 * B + 15 * intervalBound ((Option.map UInt16.toNat (some r)).getD 0) image.width image.height * S) ≤
        n * (64 * S + 1665 * B + 15 * B * S) :=
      Nat.mul_le_mul_left _ (Nat.add_le_add_left (Nat.mul_le_mul_right _ (Nat.mul_le_mul_left _ hI)) _)
    have e1 : n * (64 * S + 1665 * B + 15 * B * S) = 64 * (n * S) + 1665 * (n * B) + 15 * (n * B * S) := by ring
    have e2 : n * B * (417 + 4 * S) = 417 * (n * B) + 4 * (n * B * S) := by ring
    rw [e2]
    omega

-- a configuration that satisfies the hypotheses; the bound for a colour image with 1920x1080 pixels
example : ∃ e P p, Configured ⟨true, 8⟩ 80 [.setRestartInterval 1, .addAppSegment 5 [1, 2, 3]] e ∧ Platform.Valid ⟨true, 8⟩ ∧
    Spec.EncodeCall ⟨true, 8⟩ true e p .ycbcr 2 1 P ∧ Spec.Supported ⟨true, 8⟩ true e .ycbcr 2 1 P := by
  obtain ⟨e, h1, h2⟩ := reachable_exists ⟨true, 8⟩ 80 [.setRestartInterval 1, .addAppSegment 5 [1, 2, 3]] (by decide)
  exact ⟨e, _, _, h1, by decide, .data [7, 8, 9, 250, 251, 252] 2 1 .rgb (by decide) (by unfold Spec.SliceOk; decide),
    by decide, by decide, Or.inl rfl, Or.inl (by rw [h2.optimized]; rfl)⟩
example : Spec.enoughBytes [(5, [1, 2, 3])] 3 1920 1080 1 false = 41957441 := by decide

end Jpeg
