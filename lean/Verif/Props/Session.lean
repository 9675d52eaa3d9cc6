import Verif.Props.Api
import Verif.Proofs.Tables
/-! Encoders a user can have: created by `Encoder::new` and changed by configuration calls. -/
namespace Jpeg
open Jpeg.Spec

/-- `e` is what a user has after `Encoder::new(_, quality)` and the configuration calls `calls` (none of which panicked). -/
def Configured (pf : Platform) (quality : UInt8) (calls : List Call) (e : Encoder) : Prop :=
  ∃ e0, Encoder.new pf quality = .ok e0 ∧ forFoldR calls e0 (applyCall pf) = .ok e

/-- Some sequence of configuration calls leads to `e`. -/
def Reachable (pf : Platform) (e : Encoder) : Prop := ∃ quality calls, Configured pf quality calls e

/-- What holds of every encoder a user can have. -/
structure Encoder.Wf (e : Encoder) : Prop where
  t0 : FullPair e.huffmanTables.1
  t1 : FullPair e.huffmanTables.2
  apps : ∀ a ∈ e.appSegments, (1 ≤ a.1.toNat ∧ a.1.toNat ≤ 15) ∧ a.2.length ≤ 65533
  scans : ∀ n, e.progressiveScans = some n → 2 ≤ n.toNat ∧ n.toNat ≤ 64
  restart : ∀ n, e.restartInterval = some n → n ≠ 0

theorem applyCall_wf {pf : Platform} {e e' : Encoder} {c : Call} (h : e.Wf) (hc : applyCall pf e c = .ok e') : e'.Wf := by
  cases c with
  | addAppSegment nr d =>
    simp only [applyCall] at hc
    cases h1 : e.addAppSegment nr d with
    | ok e1 =>
      rw [h1] at hc
      obtain ⟨⟨a, b, c⟩, rfl⟩ := (C33_add_app_segment_ok e e1 nr d).mp h1
      cases hc
      refine ⟨h.t0, h.t1, ?_, h.scans, h.restart⟩
      intro s hs
      simp only [List.mem_append, List.mem_singleton] at hs
      rcases hs with hs | rfl
      · exact h.apps s hs
      · exact ⟨⟨a, b⟩, c⟩
    | error f =>
      rw [h1] at hc
      cases f <;> cases hc
      exact h
  | addIccProfile d =>
    simp only [applyCall] at hc
    by_cases hd : d.length ≤ 254 * 65519
    · obtain ⟨segs, h1, h2, _⟩ := C34_icc_accepted pf e d hd
      rw [h1] at hc
      cases hc
      refine ⟨h.t0, h.t1, ?_, h.scans, h.restart⟩
      intro s hs
      simp only [List.mem_append] at hs
      rcases hs with hs | hs
      · exact h.apps s hs
      · obtain ⟨a, b⟩ := h2 s hs
        rw [a]
        exact ⟨by decide, b⟩
    · rw [C34_icc_rejected pf e d (by omega)] at hc
      cases hc
      exact h
  | setProgressiveScans n =>
    simp only [applyCall, Encoder.setProgressiveScans, assert_decide] at hc
    split at hc
    · rename_i hn
      cases hc
      refine ⟨h.t0, h.t1, h.apps, ?_, h.restart⟩
      rintro m ⟨⟩
      rw [UInt8.le_iff_toNat_le, UInt8.le_iff_toNat_le] at hn
      exact hn
    · cases hc
  | setProgressive b =>
    cases hc
    refine ⟨h.t0, h.t1, h.apps, ?_, h.restart⟩
    intro m hm
    cases b
    · cases hm
    · simp only [Encoder.setProgressive, if_true, Option.some.injEq] at hm
      subst hm
      decide
  | setRestartInterval n =>
    cases hc
    refine ⟨h.t0, h.t1, h.apps, h.scans, ?_⟩
    intro m hm
    simp only [Encoder.setRestartInterval] at hm
    split at hm
    · cases hm
    · rename_i hn
      cases hm
      exact hn
  | _ => cases hc; exact ⟨h.t0, h.t1, h.apps, h.scans, h.restart⟩

theorem forFoldR_wf {pf : Platform} (calls : List Call) {e e' : Encoder} (h : e.Wf) (hc : forFoldR calls e (applyCall pf) = .ok e') : e'.Wf := by
  induction calls generalizing e with
  | nil => cases hc; exact h
  | cons c cs ih =>
    simp only [forFoldR] at hc
    cases h1 : applyCall pf e c with
    | error f => rw [h1] at hc; cases hc
    | ok e1 => rw [h1] at hc; exact ih (applyCall_wf h h1) hc

theorem Reachable.wf {pf : Platform} {e : Encoder} (h : Reachable pf e) : e.Wf := by
  obtain ⟨q, calls, e0, h0, h1⟩ := h
  refine forFoldR_wf calls ?_ h1
  obtain ⟨t0, t1, f0, f1, hn⟩ := encoder_new_ok q
  rw [hn pf] at h0
  cases h0
  exact ⟨f0, f1, by simp, by simp, by simp⟩

/-- Without a panicking call there is such an encoder. -/
theorem reachable_exists (pf : Platform) (q : UInt8) (calls : List Call) (h : calls.any Call.panics = false) :
    ∃ e, Configured pf q calls e ∧ SettingsAre e q calls := by
  obtain ⟨t0, t1, f0, f1, hn⟩ := encoder_new_ok q
  have := C37_history pf q _ (hn pf) calls
  rw [h] at this
  obtain ⟨e, h1, h2⟩ := this
  exact ⟨e, ⟨_, hn pf, h1⟩, h2⟩

theorem Configured.settings {pf : Platform} {q : UInt8} {calls : List Call} {e : Encoder} (h : Configured pf q calls e) :
    SettingsAre e q calls ∧ calls.any Call.panics = false := by
  obtain ⟨e0, h0, h1⟩ := h
  have := C37_history pf q e0 h0 calls
  split at this
  · rw [this] at h1; cases h1
  · rename_i hp
    obtain ⟨e1, h2, h3⟩ := this
    rw [h2] at h1
    cases h1
    exact ⟨h3, by simpa using hp⟩

/-- The same configuration can be made on every platform, with the same result. -/
theorem applyCall_pf (pf pf' : Platform) (e : Encoder) (c : Call) : applyCall pf e c = applyCall pf' e c := by
  cases c with
  | addIccProfile d =>
    have : e.addIccProfile pf d = e.addIccProfile pf' d := by
      by_cases hd : d.length ≤ 254 * 65519
      · have key : ∀ pf, e.addIccProfile pf d = .ok { e with appSegments := e.appSegments ++ (chunks 65519 d).mapIdx fun j c =>
            (2, iccSignature ++ u8 (0 + j + 1) :: u8 ((d.length + 65519 - 1) / 65519) :: c) } := by
          intro pf
          simp only [Encoder.addIccProfile, max_chunk]
          rw [ceilDiv_eq (by omega)]
          simp only [ok_bind]
          rw [if_neg (by omega)]
          exact iccLoop_ok pf ((d.length + 65519 - 1) / 65519) (chunks 65519 d) 0 e
            (fun c hc => chunks_mem_length _ _ _ hc) (by rw [chunks_length, Nat.zero_add]; omega)
        rw [key, key]
      · rw [C34_icc_rejected pf e d (by omega), C34_icc_rejected pf' e d (by omega)]
    simp only [applyCall, this]
  | _ => rfl

theorem Configured.platform {pf : Platform} {q : UInt8} {calls : List Call} {e : Encoder} (h : Configured pf q calls e) (pf' : Platform) :
    Configured pf' q calls e := by
  obtain ⟨e0, h0, h1⟩ := h
  obtain ⟨t0, t1, f0, f1, hn⟩ := encoder_new_ok q
  refine ⟨e0, ?_, ?_⟩
  · rw [hn pf', ← hn pf, h0]
  · rw [← h1]
    have : applyCall pf' = applyCall pf := by funext e c; exact applyCall_pf pf' pf e c
    rw [this]

end Jpeg
