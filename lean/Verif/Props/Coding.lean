import Verif.Proofs.Coding
/-! C39 magnitude coding, C40 zig-zag order. -/
namespace Jpeg

/-- For every coefficient or DC difference up to 16383 in magnitude (larger ones do not occur, C38): the writer's
size/bits are the T.81 category and additional bits, EXTEND recovers the value, the statistics pass of the optimiser
computes the same category; on every platform. -/
theorem C39_magnitude_coding (pf : Platform) (v : Int) (h : |v| ≤ 16383) :
    ∃ size bits : Nat, getCode pf v = .ok (size, bits) ∧ bits < 2 ^ size ∧ Spec.IsCategory v size ∧
      Spec.extend bits size = v ∧ getNumBits pf v = .ok size := by
  have h' : v.natAbs ≤ 16383 := by have := abs_le.mp h; omega
  refine ⟨_, _, getCode_eq pf v h', addBits_lt v, ?_, extend_addBits v, getNumBits_eq pf v (by omega)⟩
  by_cases h0 : v = 0
  · left; exact ⟨h0, by rw [h0]; rfl⟩
  · right; exact bitLen_pos (show 0 < v.natAbs by omega)

/-- Size and bits determine the value. -/
theorem C39_injective (pf : Platform) (v w : Int) (hv : |v| ≤ 16383) (hw : |w| ≤ 16383)
    (h : getCode pf v = getCode pf w) : v = w := by
  obtain ⟨s, b, h1, _, _, e1, _⟩ := C39_magnitude_coding pf v hv
  obtain ⟨s', b', h2, _, _, e2, _⟩ := C39_magnitude_coding pf w hw
  rw [h1, h2] at h
  simp only [Except.ok.injEq, Prod.mk.injEq] at h
  rw [← e1, ← e2, h.1, h.2]

example : getCode ⟨true, 8⟩ (-5) = .ok (3, 2) ∧ Spec.extend 2 3 = -5 := by decide

/-- The order of the coefficients is the zig-zag scan of Figure A.6. -/
theorem C40_zigzag : ZIGZAG = Spec.zigzag := by decide

/-- It is a permutation of 0..63. -/
theorem C40_permutation : ZIGZAG.Perm (List.range 64) := by decide

end Jpeg
