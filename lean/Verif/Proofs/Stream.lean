import Verif.Spec.Stream
import Verif.Proofs.Basic
/-! The reader of Spec/Stream.lean: lemmas for C51. -/
namespace Jpeg
open _root_.Spec

theorem skip_cons (fuel : Nat) (m l1 l0 : UInt8) (rest : Bytes) :
    skipSegments (fuel + 1) (0xFF :: m :: l1 :: l0 :: rest) =
      if m = 0xD9 then some (l1 :: l0 :: rest)
      else if 256 * l1.toNat + l0.toNat < 2 ∨ rest.length < 256 * l1.toNat + l0.toNat - 2 then none
      else if m = 0xDA then (skipEntropy (rest.drop (256 * l1.toNat + l0.toNat - 2))).bind (skipSegments fuel)
      else skipSegments fuel (rest.drop (256 * l1.toNat + l0.toNat - 2)) := rfl

theorem skip_eoi (fuel : Nat) (rest : Bytes) : skipSegments (fuel + 1) (0xFF :: 0xD9 :: rest) = some rest := rfl

/-! ### The reader does not look beyond the image -/

theorem skipEntropy_mono (l q : Bytes) : ∀ r, skipEntropy l = some r → skipEntropy (l ++ q) = some (r ++ q) := by
  induction l using skipEntropy.induct with
  | case1 => intro r h; cases h
  | case2 => intro r h; cases h
  | case3 c l hc ih =>
    intro r h
    rw [skipEntropy, if_pos rfl, if_pos hc] at h
    rw [List.cons_append, List.cons_append, skipEntropy, if_pos rfl, if_pos hc]
    exact ih r h
  | case4 c l hc =>
    intro r h
    rw [skipEntropy, if_pos rfl, if_neg hc] at h
    rw [List.cons_append, List.cons_append, skipEntropy, if_pos rfl, if_neg hc]
    cases h
    rfl
  | case5 b c l hb ih =>
    intro r h
    rw [skipEntropy, if_neg hb] at h
    rw [List.cons_append, List.cons_append, skipEntropy, if_neg hb]
    exact ih r h

theorem skipSegments_mono (q : Bytes) : ∀ (n : Nat) (l r : Bytes), skipSegments n l = some r → ∀ m, n ≤ m → skipSegments m (l ++ q) = some (r ++ q) := by
  intro n
  induction n with
  | zero => intro l r h; cases h
  | succ n ih =>
    intro l r h m hm
    obtain ⟨m, rfl⟩ : ∃ m', m = m' + 1 := ⟨m - 1, by omega⟩
    match l, h with
    | [], h => cases h
    | [b], h =>
      exfalso
      unfold skipSegments at h
      split at h <;> simp_all
    | b :: c :: rest, h =>
      have hb : b = 0xFF := by
        by_contra hb
        unfold skipSegments at h
        split at h <;> simp_all
      subst hb
      by_cases h9 : c = 0xD9
      · subst h9
        rw [skip_eoi] at h
        cases h
        rfl
      · match rest, h with
        | [], h => exfalso; unfold skipSegments at h; simp only [if_neg h9] at h; cases h
        | [_], h => exfalso; unfold skipSegments at h; simp only [if_neg h9] at h; cases h
        | l1 :: l0 :: rest, h =>
          simp only [List.cons_append]
          rw [skip_cons, if_neg h9] at h ⊢
          split at h
          · cases h
          · rename_i hlen
            rw [if_neg (by rw [List.length_append]; omega), List.drop_append_of_le_length (by omega)]
            by_cases ha : c = 0xDA
            · rw [if_pos ha] at h ⊢
              cases hse : skipEntropy (rest.drop (256 * l1.toNat + l0.toNat - 2)) with
              | none => rw [hse] at h; cases h
              | some r' =>
                rw [hse] at h
                rw [skipEntropy_mono _ q _ hse]
                exact ih _ _ h m (by omega)
            · rw [if_neg ha] at h ⊢
              exact ih _ _ h m (by omega)

theorem afterImage_mono (l q r : Bytes) (h : afterImage l = some r) : afterImage (l ++ q) = some (r ++ q) := by
  unfold afterImage at h
  split at h
  · rename_i rest
    change skipSegments (rest ++ q).length (rest ++ q) = _
    exact skipSegments_mono q _ _ _ h _ (by rw [List.length_append]; omega)
  · cases h

/-- An image that can be found in a stream. -/
def Framed (f : Bytes) : Prop := ∀ rest, afterImage (f ++ rest) = some rest

theorem Framed.truncated {f : Bytes} (h : Framed f) {n : Nat} (hn : n < f.length) : afterImage (f.take n) = none := by
  cases hc : afterImage (f.take n) with
  | none => rfl
  | some r =>
    have := afterImage_mono _ (f.drop n) _ hc
    have h0 := h []
    rw [List.append_nil] at h0
    rw [List.take_append_drop, h0] at this
    have := congrArg List.length (Option.some.inj this)
    simp at this
    omega

theorem Framed.split {files : List Bytes} (h : ∀ f ∈ files, Framed f) (left : Bytes) :
    splitImages files.length (files.flatten ++ left) = (files, left) := by
  induction files with
  | nil => rfl
  | cons f files ih =>
    rw [List.flatten_cons, List.append_assoc, List.length_cons, splitImages, h f (by simp)]
    simp only
    rw [ih fun g hg => h g (by simp [hg])]
    simp

end Jpeg
