import Verif.Props.File
/-! C58: only the latest settings and the application segments matter, not the history of calls. -/
namespace Jpeg.Spec

/-- Two histories of configuration calls leave the same settings (of `Encoder::new` with `quality`) and add the same application segments in the
same order. -/
structure SameEffect (calls calls' : List Call) : Prop where
  density : latest wantDensity .none calls = latest wantDensity .none calls'
  sampling : ∀ d, latest wantSampling d calls = latest wantSampling d calls'
  quant : latest wantQuant (.default, .default) calls = latest wantQuant (.default, .default) calls'
  scans : latest wantScans none calls = latest wantScans none calls'
  restart : latest wantRestart none calls = latest wantRestart none calls'
  optimized : latest wantOptimized false calls = latest wantOptimized false calls'
  segments : calls.flatMap Call.segments = calls'.flatMap Call.segments

end Jpeg.Spec

namespace Jpeg
open Jpeg.Spec

theorem Configured.rest {pf : Platform} {q : UInt8} {calls : List Call} {e : Encoder} (h : Configured pf q calls e) :
    ∃ e0, Encoder.new pf q = .ok e0 ∧ e.components = e0.components ∧ e.huffmanTables = e0.huffmanTables := by
  obtain ⟨e0, h0, h1⟩ := h
  refine ⟨e0, h0, ?_⟩
  clear h0
  induction calls generalizing e0 with
  | nil => cases h1; exact ⟨rfl, rfl⟩
  | cons c cs ih =>
    rw [forFoldR] at h1
    cases hc : applyCall pf e0 c with
    | error f => rw [hc] at h1; cases h1
    | ok e1 =>
      rw [hc] at h1
      obtain ⟨i1, i2⟩ := ih e1 h1
      have : e1.components = e0.components ∧ e1.huffmanTables = e0.huffmanTables := by
        cases c with
        | addAppSegment nr d =>
          obtain ⟨segs, hh⟩ := applyCall_app pf e0 nr d
          rw [hh] at hc; cases hc; exact ⟨rfl, rfl⟩
        | addIccProfile d =>
          obtain ⟨segs, hh⟩ := applyCall_icc pf e0 d
          rw [hh] at hc; cases hc; exact ⟨rfl, rfl⟩
        | setProgressiveScans n =>
          simp only [applyCall, Encoder.setProgressiveScans, assert_decide] at hc
          split at hc
          · cases hc; exact ⟨rfl, rfl⟩
          · cases hc
        | _ => cases hc; exact ⟨rfl, rfl⟩
      exact ⟨i1.trans this.1, i2.trans this.2⟩

/-- C58: encoders with the same quality, whose histories of calls have the same effect, behave in the same way for every input. -/
theorem C58_history {pf : Platform} {q : UInt8} {calls calls' : List Call} {e e' : Encoder} (h : Configured pf q calls e) (h' : Configured pf q calls' e')
    (hs : SameEffect calls calls') (simd : Bool) :
    (∀ data w h ct, e.encode pf simd data w h ct = e'.encode pf simd data w h ct) ∧ ∀ image, e.encodeImage pf simd image = e'.encodeImage pf simd image := by
  obtain ⟨e0, hn, a1, a2⟩ := h.rest
  obtain ⟨e0', hn', b1, b2⟩ := h'.rest
  rw [hn] at hn'
  cases hn'
  obtain ⟨s, -⟩ := h.settings
  obtain ⟨s', -⟩ := h'.settings
  have : e = e' := by
    have d := s.density.trans (hs.density.trans s'.density.symm)
    have sa := s.sampling.trans ((hs.sampling _).trans s'.sampling.symm)
    have qu := s.quant.trans (hs.quant.trans s'.quant.symm)
    have sc := s.scans.trans (hs.scans.trans s'.scans.symm)
    have re := s.restart.trans (hs.restart.trans s'.restart.symm)
    have op := s.optimized.trans (hs.optimized.trans s'.optimized.symm)
    have ql := s.quality.trans s'.quality.symm
    have ap := h.apps.trans (hs.segments.trans h'.apps.symm)
    cases e
    cases e'
    simp only [Encoder.getDensity, Encoder.getSamplingFactor, Encoder.getQuantizationTables, Encoder.getProgressiveScans, Encoder.getRestartInterval,
      Encoder.getOptimizedHuffmanTables] at *
    subst d sa qu sc re op ql ap
    rw [a1, a2, ← b1, ← b2]
  subst this
  exact ⟨fun _ _ _ _ => rfl, fun _ => rfl⟩

theorem latest_append {α : Type} (f : Call → Option α) (d : α) (l l' : List Call) : latest f d (l ++ l') = latest f (latest f d l) l' := by
  unfold latest
  rw [List.reverse_append, List.filterMap_append]
  cases l'.reverse.filterMap f <;> simp

theorem latest_congr {α : Type} (f : Call → Option α) (d : α) (l m m' r : List Call) (h : ∀ d, latest f d m = latest f d m') :
    latest f d (l ++ (m ++ r)) = latest f d (l ++ (m' ++ r)) := by
  rw [latest_append, latest_append, latest_append, latest_append, h]

/-- Calls that set different things. -/
def Unrelated (c c' : Call) : Prop :=
  (wantDensity c = none ∨ wantDensity c' = none) ∧ (wantSampling c = none ∨ wantSampling c' = none) ∧ (wantQuant c = none ∨ wantQuant c' = none) ∧
  (wantScans c = none ∨ wantScans c' = none) ∧ (wantRestart c = none ∨ wantRestart c' = none) ∧ (wantOptimized c = none ∨ wantOptimized c' = none) ∧
  (c.segments = [] ∨ c'.segments = [])

theorem latest_swap {α : Type} (f : Call → Option α) (d : α) (l r : List Call) {c c' : Call} (h : f c = none ∨ f c' = none) :
    latest f d (l ++ c :: c' :: r) = latest f d (l ++ c' :: c :: r) := by
  refine latest_congr f d l [c, c'] [c', c] r fun d => ?_
  unfold latest
  rcases h with h | h <;> cases hc : f c <;> cases hc' : f c' <;> simp_all [List.filterMap_cons]

/-- C58: two neighbouring calls that set different things can be exchanged (two `add_app_segment` or `add_icc_profile` calls cannot, unless one fails). -/
theorem C58_exchange {pf : Platform} {q : UInt8} {l r : List Call} {c c' : Call} {e e' : Encoder} (h : Configured pf q (l ++ c :: c' :: r) e)
    (h' : Configured pf q (l ++ c' :: c :: r) e') (hu : Unrelated c c') (simd : Bool) :
    (∀ data w h ct, e.encode pf simd data w h ct = e'.encode pf simd data w h ct) ∧ ∀ image, e.encodeImage pf simd image = e'.encodeImage pf simd image := by
  obtain ⟨h1, h2, h3, h4, h5, h6, h7⟩ := hu
  refine C58_history h h' ⟨latest_swap _ _ _ _ h1, fun _ => latest_swap _ _ _ _ h2, latest_swap _ _ _ _ h3, latest_swap _ _ _ _ h4, latest_swap _ _ _ _ h5,
    latest_swap _ _ _ _ h6, ?_⟩ simd
  rcases h7 with h7 | h7 <;> simp [List.flatMap_append, List.flatMap_cons, h7]

/-- C58: a call of `add_app_segment` or `add_icc_profile` that reports an error has no effect. -/
theorem C58_failed_call {pf : Platform} {q : UInt8} {l r : List Call} {c : Call} {e e' : Encoder} (h : Configured pf q (l ++ c :: r) e)
    (h' : Configured pf q (l ++ r) e') (hc : match c with
      | .addAppSegment nr data => nr.toNat = 0 ∨ 15 < nr.toNat ∨ 65533 < data.length
      | .addIccProfile data => 254 * 65519 < data.length
      | _ => False) (simd : Bool) :
    (∀ data w h ct, e.encode pf simd data w h ct = e'.encode pf simd data w h ct) ∧ ∀ image, e.encodeImage pf simd image = e'.encodeImage pf simd image := by
  have hl : ∀ {α : Type} (f : Call → Option α) (d : α), f c = none → latest f d (l ++ c :: r) = latest f d (l ++ r) := fun f d hf =>
    latest_congr f d l [c] [] r fun d => by simp [latest, List.filterMap_cons, hf]
  cases c <;> try exact hc.elim
  case addAppSegment nr data =>
    refine C58_history h h' ⟨hl _ _ rfl, fun _ => hl _ _ rfl, hl _ _ rfl, hl _ _ rfl, hl _ _ rfl, hl _ _ rfl, ?_⟩ simd
    have : Call.segments (.addAppSegment nr data) = [] := if_neg (by dsimp only at hc; omega)
    simp [List.flatMap_append, List.flatMap_cons, this]
  case addIccProfile data =>
    refine C58_history h h' ⟨hl _ _ rfl, fun _ => hl _ _ rfl, hl _ _ rfl, hl _ _ rfl, hl _ _ rfl, hl _ _ rfl, ?_⟩ simd
    have : Call.segments (.addIccProfile data) = [] := if_neg (by dsimp only at hc; omega)
    simp [List.flatMap_append, List.flatMap_cons, this]

-- a detour over other settings, with a segment number that is rejected
example : SameEffect [.setProgressive true, .setDensity .none, .addAppSegment 3 [1], .setRestartInterval 5, .addAppSegment 16 [2], .setProgressive false]
    [.addAppSegment 3 [1], .setRestartInterval 9, .setRestartInterval 5] :=
  ⟨rfl, fun _ => rfl, rfl, rfl, rfl, rfl, by decide⟩

example : Unrelated (.setRestartInterval 5) (.setProgressiveScans 9) ∧ ¬ Unrelated (.setProgressive true) (.setProgressiveScans 9) := by
  constructor
  · simp [Unrelated, wantDensity, wantSampling, wantQuant, wantRestart, wantScans, wantOptimized, Call.segments]
  · simp [Unrelated, wantScans]

end Jpeg
