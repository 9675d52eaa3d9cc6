import Verif.Proofs.Damage
import Verif.Props.Sections
/-! C73: damage stays inside a restart interval. -/
namespace Jpeg
open _root_.Spec

/-- After the first SOS there are only SOS markers. -/
theorem markers_after {X : List Nat} (hX : 0xDA ∉ X) (n : Nat) {M1 M2 : List Nat} (h : X ++ List.replicate n 0xDA = M1 ++ 0xDA :: M2) : 0xDD ∉ M2 := by
  rcases List.append_eq_append_iff.mp h with ⟨a, h1, h2⟩ | ⟨a, h1, h2⟩
  · intro hm
    have : 0xDD ∈ List.replicate n 0xDA := by rw [h2]; simp [hm]
    have := List.eq_of_mem_replicate this
    omega
  · cases a with
    | nil =>
      intro hm
      have : 0xDD ∈ List.replicate n 0xDA := by
        rw [List.nil_append] at h2; rw [← h2]; exact List.mem_cons_of_mem _ hm
      have := List.eq_of_mem_replicate this
      omega
    | cons b a =>
      exfalso
      simp only [List.cons_append, List.cons.injEq] at h2
      apply hX
      rw [h1, ← h2.1]
      simp

theorem wantedMarkers_split (calls : List Spec.Call) (e : Encoder) (ct : JpegColorType) :
    ∃ X n, Spec.wantedMarkers calls e ct = X ++ List.replicate n 0xDA ∧ 0xDA ∉ X := by
  refine ⟨_, _, rfl, ?_⟩
  have : 0xDA ∉ (calls.flatMap Spec.Call.segments).map (fun s => 0xE0 + s.1.toNat) := by
    simp only [List.mem_map, not_exists, not_and]
    intro a _ h
    omega
  simp only [List.mem_append, this, not_or]
  refine ⟨⟨⟨⟨⟨⟨by decide, ?_⟩, by simp⟩, ?_⟩, by decide⟩, ?_⟩, ?_⟩
  · split <;> decide
  · split <;> decide
  · split <;> decide
  · split <;> decide

/-- C73: with a restart interval of `n` MCUs, the data of every scan consists of one part for each `n` MCUs (without restart interval: of one part).
Whatever happens to the data of some of these parts (as long as no markers appear or get lost), a decoder that skips the parts it does not understand still gets
every coefficient except those which the damaged parts contain. -/
theorem C73_damage_is_local {pf : Platform} (hpf : pf.Valid) {q : UInt8} {calls : List Spec.Call} {e : Encoder} (hc : Configured pf q calls e) {simd : Bool}
    {p : Prog (R Unit)} {ct : JpegColorType} {w h : UInt16} {P : Nat → Nat → Nat → UInt8} (hp : Spec.EncodeCall pf simd e p ct w h P)
    (hs : Spec.Supported pf simd e ct w h P) (h8 : Spec.EightBit e.getQuantizationTables) {strict : Bool} (hst : ScansFine strict e) :
    Spec.Encodes p strict fun bytes d =>
      let f := Spec.frameOf e ct w h
      ∀ s ∈ d.scans,
        let ints := intervals ((e.getRestartInterval.map UInt16.toNat).getD 0) (layout f (scanFrameComps f s.scan))
        ∃ A parts B, bytes = A ++ joinParts 0 parts ++ B ∧ s.data = joinParts 0 parts ∧ parts.length = ints.length ∧ (∀ x ∈ parts, NoMarker x) ∧
          ∀ parts' : List (List UInt8), parts'.length = parts.length → (∀ x ∈ parts', NoMarker x) →
            ∃ v, conceal strict (A ++ joinParts 0 parts' ++ B) = some v ∧ v.frame = d.frame ∧ v.qts = d.qts ∧ v.apps = d.apps ∧
              ∀ c y x k, ¬ Damaged s.scan ints parts parts' c y x k → v.coefs c y x k = d.coefs c y x k := by
  obtain ⟨bytes, d, hw, hd, ⟨⟨-, -, -, hfr⟩, hri, -, -⟩, -, -, hmk, -⟩ :=
    ((C32_frame_header hpf hc hp hs h8 hst).and (C05_restart_markers hpf hc hp hs h8 hst)).and (C56_sections hpf hc hp hs h8 hst)
  refine ⟨bytes, d, hw, hd, fun s hsm => ?_⟩
  obtain ⟨f, A, B, parts, ri, M1, M2, h1, h2, h3, h4, h5, h6, h7, h9⟩ := decode_damage hd hsm
  obtain ⟨X, n, hX, hno⟩ := wantedMarkers_split calls e ct
  rw [hmk, hX] at h2
  have hr := h3 (markers_after hno n h2)
  rw [hri] at hr
  have hff : f = Spec.frameOf e ct w h := Option.some.inj (h1.symm.trans hfr)
  subst hff
  subst hr
  refine ⟨A, parts, B, h5, h4, h6, h7, fun parts' hl hn => ?_⟩
  obtain ⟨v, hv, hR⟩ := h9 parts' hl hn
  exact ⟨v, hv, hR.frame, hR.qts, hR.apps, hR.coefs⟩

-- a 24x8 grey image with restart interval 1 has three parts; damage of the second one does not concern the blocks at its left and right
example : let f : Frame := ⟨false, 8, 24, [⟨0, 1, 1, 0⟩]⟩
    let s : Scan := ⟨[⟨0, 0, 0⟩], 0, 63⟩
    intervals 1 (layout f (scanFrameComps f s)) = [[[(0, 0, 0)]], [[(0, 0, 1)]], [[(0, 0, 2)]]] ∧
    ∀ (a b b' c : List UInt8) (k : Nat), ¬ Damaged s [[[(0, 0, 0)]], [[(0, 0, 1)]], [[(0, 0, 2)]]] [a, b, c] [a, b', c] 0 0 0 k ∧
      ¬ Damaged s [[[(0, 0, 0)]], [[(0, 0, 1)]], [[(0, 0, 2)]]] [a, b, c] [a, b', c] 0 0 2 k ∧
      (b ≠ b' → k ≤ 63 → Damaged s [[[(0, 0, 0)]], [[(0, 0, 1)]], [[(0, 0, 2)]]] [a, b, c] [a, b', c] 0 0 1 k) := by
  refine ⟨by decide, fun a b b' c k => ⟨?_, ?_, fun hb hk => ⟨1, [[(0, 0, 1)]], by simpa using fun h => hb h.symm, rfl, (0, 0, 1), by simp, ⟨0, 0, 0⟩, rfl, rfl, rfl, Nat.zero_le _, hk⟩⟩⟩
  all_goals
    rintro ⟨i, m, h1, h2, u, hu, sc, -, -, h3, -⟩
    match i with
    | 0 => exact h1 rfl
    | 1 =>
      obtain rfl := Option.some.inj h2
      simp only [List.flatten_cons, List.flatten_nil, List.append_nil, List.mem_singleton] at hu
      subst hu
      cases h3
    | 2 => exact h1 rfl
    | i + 3 => cases h2

-- a configuration with restarts, in progressive mode, that satisfies the hypotheses
example : ∃ e p P, Configured ⟨true, 8⟩ 90 [.setProgressive true, .setRestartInterval 1] e ∧ Platform.Valid ⟨true, 8⟩ ∧
    Spec.EncodeCall ⟨true, 8⟩ true e p .luma 9 1 P ∧ Spec.Supported ⟨true, 8⟩ true e .luma 9 1 P ∧ Spec.EightBit e.getQuantizationTables ∧ ScansFine true e ∧
    e.getRestartInterval = some 1 := by
  obtain ⟨e, h1, h2⟩ := reachable_exists ⟨true, 8⟩ 90 [.setProgressive true, .setRestartInterval 1] (by decide)
  have hq : e.getQuantizationTables = (.default, .default) := by rw [h2.quant]; rfl
  refine ⟨e, _, _, h1, by decide, .data [9, 9, 1, 2, 3, 4, 5, 6, 7] 9 1 .luma (by decide) (by unfold Spec.SliceOk; decide), ⟨by decide, by decide, Or.inl rfl, Or.inl ?_⟩, ?_, ?_, ?_⟩
  · rw [h2.optimized]; rfl
  · intro t ht; rw [hq] at ht; rcases ht with h | h <;> cases h
  · intro _ n hn
    rw [h2.scans] at hn; cases hn; decide
  · rw [h2.restart]; rfl

end Jpeg
