import Verif.Props.Restarts
/-! C62: which rows of an image buffer are used. -/
namespace Jpeg

/-- C62: a custom image buffer is asked for rows `0 .. height - 1` only: two buffers of the same kind and size that answer alike for these rows (and in
any way, for example with a panic, for other numbers) cannot be told apart. Holds for every encoder, every buffer and every writer. -/
theorem C62_rows_requested (pf : Platform) (simd : Bool) (e : Encoder) (image image' : ImageBuffer) (hct : image.colorType = image'.colorType)
    (hw : image.width = image'.width) (hh : image.height = image'.height)
    (hrows : ∀ y rows, y < image.height → image.fillBuffers y rows = image'.fillBuffers y rows) :
    e.encodeImage pf simd image = e.encodeImage pf simd image' := by
  obtain ⟨ct, w, h, f⟩ := image
  obtain ⟨ct', w', h', f'⟩ := image'
  dsimp only at hct hw hh hrows
  subst hct hw hh
  by_cases h0 : w = 0 ∨ h = 0
  · simp only [Encoder.encodeImage, Encoder.encodeImageInternal, if_pos h0]
  have hpos : 0 < h.toNat := by
    rcases Nat.eq_zero_or_pos h.toNat with h1 | h1
    · exact absurd (Or.inr (UInt16.toNat_inj.mp h1)) h0
    · exact h1
  have hline : ∀ y b rows, fillLine ⟨ct, w, h, f⟩ y b rows = fillLine ⟨ct, w, h, f'⟩ y b rows := by
    intro y b rows
    simp only [fillLine]
    rw [hrows]
    rw [UInt16.lt_iff_toNat_lt, UInt16.toNat_ofNat']
    have := h.toNat_lt
    rw [Nat.mod_eq_of_lt (by omega)]
    omega
  have hmcu : ∀ v b y rows, fillMcuRow pf ⟨ct, w, h, f⟩ v b y rows = fillMcuRow pf ⟨ct, w, h, f'⟩ v b y rows := by
    intro v b y rows
    simp only [fillMcuRow, hline]
  have hblocks : ∀ (e : Encoder) op q, encodeBlocks pf e op ⟨ct, w, h, f⟩ q = encodeBlocks pf e op ⟨ct, w, h, f'⟩ q := by
    intro e op q
    simp only [encodeBlocks, hline]
  have hhead : ∀ (e : Encoder) q, e.writeFrameHeader pf ⟨ct, w, h, f⟩ q = e.writeFrameHeader pf ⟨ct, w, h, f'⟩ q := fun _ _ => rfl
  have hscans : ∀ (e : Encoder) op q, e.encodeScans pf op ⟨ct, w, h, f⟩ q = e.encodeScans pf op ⟨ct, w, h, f'⟩ q := by
    intro e op q
    simp only [Encoder.encodeScans, Encoder.encodeProgressive, Encoder.encodeSequential, Encoder.encodeInterleaved, hblocks, hmcu, hhead]
  simp only [Encoder.encodeImage, Encoder.encodeImageInternal, hscans]

-- a buffer that panics for every other row number meets the hypotheses together with one that never does
example : let good : ImageBuffer := ⟨.luma, 8, 3, fun y rows => .ok { rows with b0 := rows.b0.push (UInt8.ofNat y.toNat) }⟩
    let bad : ImageBuffer := ⟨.luma, 8, 3, fun y rows => if y < 3 then .ok { rows with b0 := rows.b0.push (UInt8.ofNat y.toNat) } else .error (.panic .index)⟩
    (∀ y rows, y < good.height → good.fillBuffers y rows = bad.fillBuffers y rows) ∧ ∀ rows, good.fillBuffers 3 rows ≠ bad.fillBuffers 3 rows := by
  refine ⟨fun y rows hy => ?_, fun rows h => ?_⟩
  · dsimp only at hy ⊢
    rw [if_pos hy]
  · simp at h

end Jpeg
