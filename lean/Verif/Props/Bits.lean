import Verif.Proofs.Final
import Verif.Props.RoundTrip
/-! C07: bit packing. C26: AVX2 against scalar code. -/
namespace Jpeg
open _root_.Spec

/-! ### C07 -/

/-- What the entropy coder hands to the writer for one piece of entropy coded data: pairs `(value, size)`, then the end of the data and a
restart marker. -/
def codedPiece (pf : Platform) (n : Nat) (ws : List (Nat × Nat)) : WM Unit := do
  WM.forEach ws fun w => writeBits pf w.1 w.2
  finalizeBitBuffer pf
  writeMarker pf (.rst n)

theorem forEach_bits (pf : Platform) (hpf : pf.Valid) (ws : List (Nat × Nat)) (h : ∀ w ∈ ws, w.1 < 2 ^ w.2 ∧ w.2 ≤ 31) :
    EmitsBits pf (WM.forEach ws fun w => writeBits pf w.1 w.2) (ws.flatMap fun w => toBits w.2 w.1) () := by
  induction ws with
  | nil => exact EmitsBits.pure pf ()
  | cons w ws ih =>
    obtain ⟨h1, h2⟩ := h w (by simp)
    exact (writeBits_emits pf hpf w.1 w.2 h1 h2).bind (ih fun x hx => h x (by simp [hx]))

/-- A byte 0xFF in entropy coded data is followed by a zero byte (T.81 B.1.1.5). -/
def Spec.stuffed (l : List UInt8) : List UInt8 := l.flatMap fun b => if b = 0xFF then [0xFF, 0x00] else [b]

/-- The bits of one piece are the bits of its bytes, followed by fewer than eight one-bits up to the next byte boundary. -/
def Spec.IsPacked (ws : List (Nat × Nat)) (raw : List UInt8) : Prop :=
  ∃ pad, pad < 8 ∧ bytesToBits raw = (ws.flatMap fun w => toBits w.2 w.1) ++ List.replicate pad true

theorem codedPiece_emits (pf : Platform) (hpf : pf.Valid) (n : Nat) (hn : n < 8) (ws : List (Nat × Nat)) (h : ∀ w ∈ ws, w.1 < 2 ^ w.2 ∧ w.2 ≤ 31) :
    ∃ raw, Spec.IsPacked ws raw ∧ Emits (codedPiece pf n ws) (BitState.init pf) (stuff raw ++ [0xFF, u8 (0xD0 + n)]) () (BitState.init pf) := by
  obtain ⟨raw, pend, s, h1, h2, h3⟩ := forEach_bits pf hpf ws h _ _ (BitRel.init pf)
  obtain ⟨raw', pad, h4, h5, h6⟩ := finalize_emits pf hpf s pend h2
  refine ⟨raw ++ raw', ⟨pad, h5, ?_⟩, ?_⟩
  · rw [List.nil_append] at h3
    rw [h3, bytesToBits_append, h6, List.append_assoc]
  · unfold codedPiece
    refine Emits.congr (h1.bind' (h4.bind' (writeMarker_emits (v := 0xD0 + n) ?_ _))) ?_
    · exact ckU_ok (by omega) (by norm_num; omega)
    · rw [stuff_append, List.append_assoc]

/-- C07: any number of pieces of bits, each any list of bit strings of up to 31 bits: the bits appear in order, most significant first;
every piece is padded with fewer than eight one-bits (none if it is byte aligned), and 0xFF bytes are stuffed. -/
theorem C07_bit_packing (pf : Platform) (hpf : pf.Valid) (pieces : List (Nat × List (Nat × Nat)))
    (h : ∀ p ∈ pieces, p.1 < 8 ∧ ∀ w ∈ p.2, w.1 < 2 ^ w.2 ∧ w.2 ≤ 31) :
    ∃ raws : List (List UInt8), List.Forall₂ (fun p raw => Spec.IsPacked p.2 raw) pieces raws ∧
      ∀ out, ((WM.forEach pieces fun p => codedPiece pf p.1 p.2).program pf).run vecSink out =
        (out ++ (List.zipWith (fun (p : Nat × List (Nat × Nat)) raw => Spec.stuffed raw ++ [0xFF, UInt8.ofNat (0xD0 + p.1)]) pieces raws).flatten, .ok ()) := by
  suffices hs : ∃ raws : List (List UInt8), List.Forall₂ (fun (p : Nat × List (Nat × Nat)) raw => Spec.IsPacked p.2 raw) pieces raws ∧
      Emits (WM.forEach pieces fun p => codedPiece pf p.1 p.2) (BitState.init pf)
        (List.zipWith (fun (p : Nat × List (Nat × Nat)) raw => Spec.stuffed raw ++ [0xFF, UInt8.ofNat (0xD0 + p.1)]) pieces raws).flatten () (BitState.init pf) by
    obtain ⟨raws, h1, h2⟩ := hs
    refine ⟨raws, h1, fun out => ?_⟩
    rw [Prog.run_vec, WM.program_exec h2]
  induction pieces with
  | nil => exact ⟨[], .nil, Emits.pure () _⟩
  | cons p ps ih =>
    obtain ⟨raws, h1, h2⟩ := ih fun x hx => h x (by simp [hx])
    obtain ⟨hn, hw⟩ := h p (by simp)
    obtain ⟨raw, h3, h4⟩ := codedPiece_emits pf hpf p.1 hn p.2 hw
    exact ⟨raw :: raws, .cons h3 h1, h4.bind h2⟩

/-- The padding is determined by the number of bits: aligned data gets none. -/
theorem C07_no_padding_when_aligned {ws : List (Nat × Nat)} {raw : List UInt8} (h : Spec.IsPacked ws raw)
    (ha : (ws.map (·.2)).sum % 8 = 0) : bytesToBits raw = ws.flatMap fun w => toBits w.2 w.1 := by
  obtain ⟨pad, h1, h2⟩ := h
  have hl : (ws.flatMap fun w => toBits w.2 w.1).length = (ws.map (·.2)).sum := by simp [List.length_flatMap]
  have := congrArg List.length h2
  rw [bytesToBits_length, List.length_append, List.length_replicate, hl] at this
  rw [show pad = 0 by omega] at h2
  simpa using h2

-- three pieces: unaligned, aligned with an 0xFF byte, empty
example : ∀ p ∈ [(0, [(5, 3), (1, 1)]), (7, [(2147483647, 31), (1, 1), (255, 8)]), (3, [])],
    p.1 < 8 ∧ ∀ w ∈ p.2, w.1 < 2 ^ w.2 ∧ w.2 ≤ 31 := by decide
example : Spec.IsPacked [(5, 3), (1, 1)] [0xBF] ∧ ¬ Spec.IsPacked [(5, 3), (1, 1)] [0xB0] := by
  refine ⟨⟨4, by decide, by decide⟩, ?_⟩
  rintro ⟨pad, h1, h2⟩
  revert h2
  revert pad
  decide

/-! ### C26 -/

/-- C26: on sample blocks the AVX2 forward DCT differs from the scalar one at most in rows 0 and 4 at odd columns, and there the result is
the scalar one or one less. -/
theorem C26_fdct (pf : Platform) (block : List Int) (hl : block.length = 64) (hb : ∀ v ∈ block, -128 ≤ v ∧ v ≤ 127) :
    ∃ scalar avx2, defaultOperations.fdct pf block = .ok scalar ∧ avx2Operations.fdct pf block = .ok avx2 ∧
      scalar.length = 64 ∧ avx2.length = 64 ∧ ∀ row col, row < 8 → col < 8 →
        (avx2.getD (8 * row + col) 0 = scalar.getD (8 * row + col) 0 ∨
          (row = 0 ∨ row = 4) ∧ col % 2 = 1 ∧ avx2.getD (8 * row + col) 0 = scalar.getD (8 * row + col) 0 - 1) := by
  refine ⟨fdctP block, Avx2.fdctA block, opOk_default.run pf block hl hb, opOk_avx2.run pf block hl hb, opOk_default.len block hl,
    Avx2.fdctA_length block, ?_⟩
  intro row col hr hc
  have h := Avx2.fdctA_spec block (show 8 * row + col < 64 by omega)
  by_cases h1 : (8 * row + col) % 2 = 1 ∧ (8 * row + col < 8 ∨ 32 ≤ 8 * row + col ∧ 8 * row + col < 40)
  · by_cases h2 : (Avx2.fdctA block).getD (8 * row + col) 0 = (fdctP block).getD (8 * row + col) 0
    · exact Or.inl h2
    · exact Or.inr ⟨by omega, by omega, by omega⟩
  · exact Or.inl (h.2.2 h1)

/-- C26 is false: a single sample of 1 (all others 0) gives different results. -/
theorem C26_false : ∃ block : List Int, block.length = 64 ∧ (∀ v ∈ block, -128 ≤ v ∧ v ≤ 127) ∧ ∀ pf,
    ∃ scalar avx2, defaultOperations.fdct pf block = .ok scalar ∧ avx2Operations.fdct pf block = .ok avx2 ∧
      scalar.getD 1 0 = 2 ∧ avx2.getD 1 0 = 1 := by
  have hl : (1 :: List.replicate 63 (0 : Int)).length = 64 := by decide
  have hb : ∀ v ∈ 1 :: List.replicate 63 (0 : Int), -128 ≤ v ∧ v ≤ 127 := by decide
  exact ⟨_, hl, hb, fun pf => ⟨_, _, opOk_default.run pf _ hl hb, opOk_avx2.run pf _ hl hb, by decide +kernel, by decide +kernel⟩⟩

/-- C26: the AVX2 colour conversion gives exactly the scalar result, for every image and every line: both append the same samples. -/
theorem C26_color (pf : Platform) (data : Bytes) (w h : UInt16) (ct : ColorType) (hlen : w.toNat * h.toNat * ct.bytesPerPixel ≤ data.length)
    (hsl : Spec.SliceOk pf data) (y : Nat) (hy : y < h.toNat) (rows : Rows)
    (hcap : ∀ c, c < 4 → (rows.buf c).data.length + w.toNat ≤ (rows.buf c).cap) :
    ∃ r, (imageFor pf false data w h ct).fillBuffers (UInt16.ofNat y) rows = .ok r ∧
      (imageFor pf true data w h ct).fillBuffers (UInt16.ofNat y) rows = .ok r := by
  obtain ⟨hw, hh⟩ := imageFor_width pf false data w h ct
  obtain ⟨hw', hh'⟩ := imageFor_width pf true data w h ct
  have hct : (imageFor pf true data w h ct).colorType = (imageFor pf false data w h ct).colorType := by cases ct <;> rfl
  have hn : (imageFor pf false data w h ct).colorType.numComponents ≤ 4 := by
    rw [imageFor_color]
    cases ct <;> decide
  have h1 := delivers_builtin (pf := pf) (ct := ct) false hlen hsl y (by rw [hh]; exact hy) rows (by rw [hw]; intro c hc; exact hcap c (by omega))
  have h2 := delivers_builtin (pf := pf) (ct := ct) true hlen hsl y (by rw [hh']; exact hy) rows
    (by rw [hw', hct]; intro c hc; exact hcap c (by omega))
  rw [hct, hw'] at h2
  rw [hw] at h1
  exact ⟨_, h1, h2⟩

end Jpeg
