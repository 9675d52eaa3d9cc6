import Verif.Proofs.Prog
import Verif.Proofs.Bits
import Mathlib.Tactic.IntervalCases
/-! The bit buffer: `write_bits` appends bits, `finalize_bit_buffer` pads with ones. -/
namespace Jpeg
open Spec

/-- Byte stuffing: a zero byte after every 0xFF. -/
def stuff (l : List UInt8) : List UInt8 := l.flatMap fun b => if b = 0xFF then [0xFF, 0x00] else [b]

theorem stuff_append (a b : List UInt8) : stuff (a ++ b) = stuff a ++ stuff b := by simp [stuff]

/-- The bit state holds exactly the pending bits `pend`. -/
structure BitRel (pf : Platform) (s : BitState) (pend : Bits) : Prop where
  free : s.free = (pf.wordBits : Int) - pend.length
  len : pend.length ≤ pf.wordBits
  low : s.buffer % 2 ^ pend.length = ofBits pend
  lt : s.buffer < 2 ^ pf.wordBits

/-- `m` appends the bits `bits` and returns `a`. -/
def EmitsBits {α : Type} (pf : Platform) (m : WM α) (bits : Bits) (a : α) : Prop :=
  ∀ s pend, BitRel pf s pend → ∃ raw pend' s', Emits m s (stuff raw) a s' ∧ BitRel pf s' pend' ∧
    pend ++ bits = bytesToBits raw ++ pend'

theorem EmitsBits.pure {α : Type} (pf : Platform) (a : α) : EmitsBits pf (WM.pure a) [] a := fun s pend h =>
  ⟨[], pend, s, Emits.pure a s, h, by simp [bytesToBits]⟩

theorem EmitsBits.bind {α β : Type} {pf : Platform} {m : WM α} {f : α → WM β} {b1 b2 : Bits} {a : α} {b : β}
    (h1 : EmitsBits pf m b1 a) (h2 : EmitsBits pf (f a) b2 b) : EmitsBits pf (WM.bind m f) (b1 ++ b2) b := by
  intro s pend hs
  obtain ⟨raw1, p1, s1, e1, r1, q1⟩ := h1 s pend hs
  obtain ⟨raw2, p2, s2, e2, r2, q2⟩ := h2 s1 p1 r1
  refine ⟨raw1 ++ raw2, p2, s2, (e1.bind e2).congr (stuff_append ..).symm, r2, ?_⟩
  rw [← List.append_assoc, q1, List.append_assoc, q2, bytesToBits_append, List.append_assoc]

theorem EmitsBits.bind' {α β : Type} {pf : Platform} {m : WM α} {f : α → WM β} {b1 b2 : Bits} {a : α} {b : β}
    (h1 : EmitsBits pf m b1 a) (h2 : EmitsBits pf (f a) b2 b) : EmitsBits pf (m >>= f) (b1 ++ b2) b := h1.bind h2

theorem EmitsBits.lift {α : Type} {pf : Platform} {r : R α} {a : α} (h : r = .ok a) : EmitsBits pf (WM.lift r) [] a := by
  subst h; exact EmitsBits.pure pf a

theorem EmitsBits.lift_bind {α β : Type} {pf : Platform} {r : R α} {f : α → WM β} {b2 : Bits} {a : α} {b : β}
    (h : r = .ok a) (h2 : EmitsBits pf (f a) b2 b) : EmitsBits pf (WM.lift r >>= f) b2 b :=
  (EmitsBits.lift h).bind' h2

theorem EmitsBits.congr {α : Type} {pf : Platform} {m : WM α} {b b' : Bits} {a : α} (h : EmitsBits pf m b a)
    (e : b = b') : EmitsBits pf m b' a := e ▸ h

theorem BitRel.init (pf : Platform) : BitRel pf (BitState.init pf) [] :=
  ⟨by simp [BitState.init], by simp, by simp [Nat.mod_one, ofBits], by simp [BitState.init]⟩

theorem bytesToBits_toBeBytes (n B : Nat) :
    bytesToBits ((List.range n).map fun i => u8 (B / 256 ^ (n - 1 - i))) = toBits (8 * n) B := by
  induction n with
  | zero => rfl
  | succ n ih =>
    rw [List.range_succ_eq_map, List.map_cons, bytesToBits_cons, List.map_map]
    have h1 : (List.range n).map ((fun i => u8 (B / 256 ^ (n + 1 - 1 - i))) ∘ Nat.succ) =
        (List.range n).map fun i => u8 (B / 256 ^ (n - 1 - i)) := by
      apply List.map_congr_left
      intro i _
      simp only [Function.comp]
      rw [show n + 1 - 1 - i.succ = n - 1 - i by omega]
    rw [h1, ih, show 8 * (n + 1) = 8 + 8 * n by omega, toBits_add]
    congr 1
    simp only [u8, UInt8.toNat_ofNat', Nat.add_sub_cancel, Nat.sub_zero]
    rw [toBits_mod 8 _ 8 (by omega), show (256 : Nat) ^ n = 2 ^ (8 * n) by rw [Nat.pow_mul]]

theorem ofBits_toBits_append (a b : Bits) : toBits (a.length + b.length) (ofBits a * 2 ^ b.length + ofBits b) = a ++ b := by
  rw [← ofBits_append, ← List.length_append, toBits_ofBits]

/-- byte `i` (from the least significant) equal to 0xFF makes the test positive -/
theorem mayContainFF_of_byte (pf : Platform) (hpf : pf.Valid) (B i : Nat) (hB : B < 2 ^ pf.wordBits)
    (hi : i < pf.wordBytes) (h : B / 256 ^ i % 256 = 255) : mayContainFF pf B = true := by
  unfold mayContainFF
  simp only [bne_iff_ne, ne_eq]
  intro h0
  have hb : ((B &&& 0x8080808080808080 % 2 ^ pf.wordBits) &&&
      (2 ^ pf.wordBits - 1 - (B + 0x0101010101010101 % 2 ^ pf.wordBits) % 2 ^ pf.wordBits)).testBit (8 * i + 7) = false := by
    rw [h0]; simp
  have hx : (B + 0x0101010101010101 % 2 ^ pf.wordBits) % 2 ^ pf.wordBits < 2 ^ pf.wordBits :=
    Nat.mod_lt _ (Nat.two_pow_pos _)
  rw [Nat.sub_sub, Nat.add_comm 1, Nat.testBit_and, Nat.testBit_and, Nat.testBit_two_pow_sub_succ hx] at hb
  simp only [Nat.testBit_eq_decide_div_mod_eq] at hb
  clear h0 hx
  rcases hpf with hw | hw
  · simp only [Platform.wordBits, hw] at *
    interval_cases i <;> norm_num at h hb hB <;> omega
  · simp only [Platform.wordBits, hw] at *
    interval_cases i <;> norm_num at h hb hB <;> omega

theorem wordBits_eq_bytes (pf : Platform) : pf.wordBits = 8 * pf.wordBytes := by
  simp [Platform.wordBits, Nat.mul_comm]

theorem stuff_of_no_ff {l : List UInt8} (h : ∀ b ∈ l, b ≠ 0xFF) : stuff l = l := by
  induction l with
  | nil => rfl
  | cons x xs ih =>
    rw [show x :: xs = [x] ++ xs from rfl, stuff_append, ih (fun b hb => h b (by simp [hb]))]
    have := h x (by simp)
    simp [stuff, this]

theorem toBeBytes_no_ff (pf : Platform) (hpf : pf.Valid) (B : Nat) (hB : B < 2 ^ pf.wordBits)
    (h : mayContainFF pf B = false) : ∀ b ∈ toBeBytes pf B, b ≠ 0xFF := by
  intro b hb hff
  simp only [toBeBytes, List.mem_map, List.mem_range] at hb
  obtain ⟨i, hi, rfl⟩ := hb
  have hn := congrArg UInt8.toNat hff
  simp only [u8, UInt8.toNat_ofNat'] at hn
  have := mayContainFF_of_byte pf hpf B (pf.wordBytes - 1 - i) hB (by omega) (by simpa using hn)
  simp [this] at h

theorem u8_eq_ff (n : Nat) : u8 n = 0xFF ↔ n % 256 = 255 := by
  constructor
  · intro h
    have := congrArg UInt8.toNat h
    simpa [u8] using this
  · intro h
    apply UInt8.toNat_inj.mp
    simpa [u8] using h

theorem u8_mod (n : Nat) : u8 (n % 256) = u8 n := by
  apply UInt8.toNat_inj.mp
  simp [u8]

/-- one byte of the buffer -/
theorem flushByte_emits (pf : Platform) (hpf : pf.Valid) (f : Int) (s : BitState) (h0 : 0 ≤ f)
    (h1 : f ≤ (pf.wordBits : Int) - 8) :
    Emits (flushByteFromBitBuffer pf f) s (stuff [u8 (s.buffer / 2 ^ ((pf.wordBits : Int) - 8 - f).toNat)]) () s := by
  have hw := hpf.wordBits_eq
  have hv : ∀ n : Nat, n &&& 255 = n % 256 := fun n => Nat.and_two_pow_sub_one_eq_mod n 8
  unfold flushByteFromBitBuffer
  refine Emits.get_bind ?_
  refine Emits.lift_bind (ckI8_ok (by omega) (by omega)) ?_
  refine Emits.lift_bind (ckI8_ok (by omega) (by omega)) ?_
  refine Emits.lift_bind (a := s.buffer / 2 ^ ((pf.wordBits : Int) - 8 - f).toNat) ?_ ?_
  · unfold shrU ckShift
    rw [if_pos (by omega)]; rfl
  · rw [hv]
    dsimp only
    by_cases hff : s.buffer / 2 ^ ((pf.wordBits : Int) - 8 - f).toNat % 256 = 255
    · rw [if_pos hff]
      refine Emits.congr (Emits.bind' (Emits.writeAll _ s) (Emits.writeAll _ s)) ?_
      rw [u8_mod, (u8_eq_ff _).mpr hff]; rfl
    · rw [if_neg hff]
      refine Emits.congr (Emits.bind' (Emits.writeAll _ s) (Emits.pure _ s)) ?_
      simp [stuff, u8_mod, (u8_eq_ff _).not.mpr hff]

theorem Emits.forEach {α : Type} {l : List α} {body : α → WM Unit} {f : α → Bytes} {s : BitState}
    (h : ∀ x ∈ l, Emits (body x) s (f x) () s) : Emits (WM.forEach l body) s (l.map f).flatten () s := by
  induction l with
  | nil => exact Emits.pure () s
  | cons x xs ih =>
    exact Emits.bind (h x (by simp)) (ih fun y hy => h y (by simp [hy]))

theorem stuff_map {α : Type} (l : List α) (g : α → UInt8) : stuff (l.map g) = (l.map fun x => stuff [g x]).flatten := by
  induction l with
  | nil => rfl
  | cons x xs ih =>
    rw [List.map_cons, List.map_cons, List.flatten_cons, ← ih, show g x :: xs.map g = [g x] ++ xs.map g from rfl, stuff_append]

theorem writeBitBuffer_emits (pf : Platform) (hpf : pf.Valid) (s : BitState) (hs : s.buffer < 2 ^ pf.wordBits) :
    Emits (writeBitBuffer pf) s (stuff (toBeBytes pf s.buffer)) () s := by
  have hw := hpf.wordBits_eq
  unfold writeBitBuffer
  refine Emits.get_bind ?_
  cases hm : mayContainFF pf s.buffer
  · simp only [Bool.false_eq_true, if_false]
    exact (Emits.writeAll _ s).congr (stuff_of_no_ff (toBeBytes_no_ff pf hpf _ hs hm)).symm
  · simp only [if_true]
    refine (Emits.forEach (f := fun i : Nat => stuff [u8 (s.buffer / 256 ^ (pf.wordBytes - 1 - i))]) ?_).congr ?_
    · intro i hi
      simp only [List.mem_range] at hi
      have hwb := wordBits_eq_bytes pf
      refine (flushByte_emits pf hpf _ s (by omega) (by omega)).congr ?_
      have : (256 : Nat) ^ (pf.wordBytes - 1 - i) = 2 ^ ((pf.wordBits : Int) - 8 - ((i * 8 : Nat) : Int)).toNat := by
        rw [show (256 : Nat) = 2 ^ 8 from rfl, ← Nat.pow_mul]
        congr 1
        omega
      rw [this]
    · rw [show pf.wordBits / 8 = pf.wordBytes by have := wordBits_eq_bytes pf; omega]
      exact (stuff_map _ _).symm

/-- `write_bits(value, size)` appends the `size` bits of `value`. -/
theorem writeBits_emits (pf : Platform) (hpf : pf.Valid) (value size : Nat) (hv : value < 2 ^ size) (hsz : size ≤ 31) :
    EmitsBits pf (writeBits pf value size) (toBits size value) () := by
  have hw := hpf.wordBits_eq
  intro s pend hs
  obtain ⟨hfree, hlen, hlow, hlt⟩ := hs
  have hbm : ((size : Nat) : Int).bmod 256 = size := by
    apply Int.bmod_eq_of_le <;> omega
  have hvw : value < 2 ^ pf.wordBits := lt_of_lt_of_le hv (Nat.pow_le_pow_right (by omega) (by omega))
  unfold writeBits
  rw [hbm]
  dsimp only
  by_cases hneg : (pf.wordBits : Int) - pend.length - size < 0
  · -- the buffer is full: write it
    obtain ⟨a, ha⟩ : ∃ a : Nat, a + pend.length = pf.wordBits := ⟨pf.wordBits - pend.length, by omega⟩
    obtain ⟨b, hb⟩ : ∃ b : Nat, a + b = size := ⟨size - a, by omega⟩
    have hlo : value / 2 ^ b < 2 ^ a := by
      rw [Nat.div_lt_iff_lt_mul (Nat.two_pow_pos _), ← Nat.pow_add, hb]; exact hv
    have hhi : s.buffer * 2 ^ a % 2 ^ pf.wordBits = ofBits pend * 2 ^ a := by
      rw [← ha, Nat.add_comm, Nat.pow_add, Nat.mul_mod_mul_right, hlow]
    have hor : ofBits pend * 2 ^ a ||| value / 2 ^ b = ofBits pend * 2 ^ a + value / 2 ^ b := by
      rw [Nat.mul_comm, Nat.two_pow_add_eq_or_of_lt hlo]
    have hB : ofBits pend * 2 ^ a + value / 2 ^ b < 2 ^ pf.wordBits := by
      have := ofBits_lt (pend ++ toBits a (value / 2 ^ b))
      rw [ofBits_append, ofBits_toBits, toBits_length, Nat.mod_eq_of_lt hlo, List.length_append, toBits_length] at this
      rwa [Nat.add_comm pend.length, ha] at this
    refine ⟨toBeBytes pf (ofBits pend * 2 ^ a + value / 2 ^ b), toBits b value, ⟨value, (pf.wordBits : Int) - b⟩, ?_, ?_, ?_⟩
    · refine Emits.get_bind ?_
      refine Emits.lift_bind (ckI8_ok (by omega) (by omega)) ?_
      rw [if_pos (by omega)]
      refine Emits.lift_bind (ckI8_ok (by omega) (by omega)) ?_
      refine Emits.lift_bind (ckI8_ok (by omega) (by omega)) ?_
      refine Emits.lift_bind (a := ofBits pend * 2 ^ a) ?_ ?_
      · unfold shlU ckShift
        rw [if_pos (by omega), show ((size : Int) + (s.free - size)).toNat = a by omega, ok_bind, hhi]
      refine Emits.lift_bind (a := value / 2 ^ b) ?_ ?_
      · unfold shrU ckShift
        rw [if_pos (by omega), show (-(s.free - (size : Int))).toNat = b by omega, ok_bind]
      rw [hor]
      refine Emits.set_bind ?_
      refine Emits.congr (Emits.bind' (writeBitBuffer_emits pf hpf _ hB) ?_) (List.append_nil _)
      refine Emits.lift_bind (ckI8_ok (by omega) (by omega)) ?_
      rw [show s.free - (size : Int) + pf.wordBits = (pf.wordBits : Int) - b by omega]
      exact Emits.set _ _
    · refine ⟨by simp, by simp; omega, ?_, hvw⟩
      rw [toBits_length, ofBits_toBits]
    · have := ofBits_toBits_append pend (toBits a (value / 2 ^ b))
      rw [toBits_length, ofBits_toBits, Nat.mod_eq_of_lt hlo, Nat.add_comm, ha] at this
      unfold toBeBytes
      rw [bytesToBits_toBeBytes, ← wordBits_eq_bytes, this, ← hb, toBits_add, List.append_assoc]
  · obtain ⟨f, hf⟩ : ∃ f : Nat, f + size + pend.length = pf.wordBits := ⟨pf.wordBits - pend.length - size, by omega⟩
    have hsz' : size < pf.wordBits := by omega
    have hmul : s.buffer * 2 ^ size % 2 ^ pf.wordBits = s.buffer % 2 ^ (pf.wordBits - size) * 2 ^ size := by
      conv_lhs => rw [show pf.wordBits = (pf.wordBits - size) + size by omega, Nat.pow_add, Nat.mul_mod_mul_right]
    have hor : s.buffer * 2 ^ size % 2 ^ pf.wordBits ||| value =
        s.buffer % 2 ^ (pf.wordBits - size) * 2 ^ size + value := by
      rw [hmul, Nat.mul_comm, Nat.two_pow_add_eq_or_of_lt hv]
    refine ⟨[], pend ++ toBits size value, ⟨s.buffer * 2 ^ size % 2 ^ pf.wordBits ||| value, f⟩, ?_, ?_, by simp [bytesToBits]⟩
    · refine Emits.get_bind ?_
      refine Emits.lift_bind (ckI8_ok (by omega) (by omega)) ?_
      rw [if_neg (by omega)]
      refine Emits.lift_bind (a := s.buffer * 2 ^ size % 2 ^ pf.wordBits) ?_ ?_
      · unfold shlU ckShift
        rw [if_pos (by omega)]; rfl
      rw [show s.free - (size : Int) = f by omega]
      exact Emits.set _ _
    · refine ⟨by simp; omega, by simp; omega, ?_, ?_⟩
      · rw [hor, ofBits_append, ofBits_toBits, Nat.mod_eq_of_lt hv, List.length_append, toBits_length, Nat.pow_add,
          ← hlow, Nat.add_mod, Nat.mod_eq_of_lt (a := value)]
        · rw [Nat.mul_mod_mul_right, Nat.mod_mod_of_dvd _ (Nat.pow_dvd_pow 2 (by omega))]
          apply Nat.mod_eq_of_lt
          have h1 : s.buffer % 2 ^ pend.length < 2 ^ pend.length := Nat.mod_lt _ (Nat.two_pow_pos _)
          have h2 : (s.buffer % 2 ^ pend.length + 1) * 2 ^ size ≤ 2 ^ pend.length * 2 ^ size := Nat.mul_le_mul_right _ h1
          rw [Nat.add_mul] at h2
          omega
        · calc value < 1 * 2 ^ size := by omega
            _ ≤ 2 ^ pend.length * 2 ^ size := Nat.mul_le_mul_right _ (Nat.two_pow_pos _)
      · exact Nat.or_lt_two_pow (Nat.mod_lt _ (Nat.two_pow_pos _)) hvw

/-- `flush_bit_buffer` writes all complete bytes. -/
theorem flushBitBuffer_emits (pf : Platform) (hpf : pf.Valid) (fuel : Nat) (s : BitState) (pend : Bits)
    (h : BitRel pf s pend) (hfuel : pend.length / 8 < fuel) :
    ∃ raw pend' s', Emits (flushBitBuffer pf fuel) s (stuff raw) () s' ∧ pend'.length < 8 ∧
      pend = bytesToBits raw ++ pend' := by
  have hw := hpf.wordBits_eq
  induction fuel generalizing s pend with
  | zero => omega
  | succ n ih =>
    unfold flushBitBuffer
    have hfree := h.free
    have hlen := h.len
    by_cases hc : s.free ≤ (pf.wordBits : Int) - 8
    · have h8 : 8 ≤ pend.length := by omega
      obtain ⟨p1, p2, hp, hp1⟩ : ∃ p1 p2 : Bits, pend = p1 ++ p2 ∧ p1.length = 8 :=
        ⟨pend.take 8, pend.drop 8, by simp, by simp [h8]⟩
      have hpl : pend.length = 8 + p2.length := by rw [hp, List.length_append, hp1]
      have hrel : BitRel pf { s with free := s.free + 8 } p2 := by
        refine ⟨by dsimp only; omega, by omega, ?_, h.lt⟩
        have h2 := congrArg (· % 2 ^ p2.length) h.low
        dsimp only at h2 ⊢
        rw [hpl, Nat.mod_mod_of_dvd _ (Nat.pow_dvd_pow 2 (by omega)), hp, ofBits_append, Nat.mul_add_mod_self_right,
          Nat.mod_eq_of_lt (ofBits_lt _)] at h2
        exact h2
      obtain ⟨raw, pend', s', he, hl, hq⟩ := ih _ _ hrel (by omega)
      refine ⟨u8 (s.buffer / 2 ^ p2.length) :: raw, pend', s', ?_, hl, ?_⟩
      · refine Emits.get_bind ?_
        rw [if_pos hc]
        rw [show u8 (s.buffer / 2 ^ p2.length) :: raw = [u8 (s.buffer / 2 ^ p2.length)] ++ raw from rfl, stuff_append]
        refine Emits.bind' (a := ()) (s1 := s) ?_ ?_
        · have := flushByte_emits pf hpf s.free s (by omega) hc
          rwa [show ((pf.wordBits : Int) - 8 - s.free).toNat = p2.length by omega] at this
        · refine Emits.get_bind ?_
          refine Emits.lift_bind (ckI8_ok (by omega) (by omega)) ?_
          refine Emits.set_bind ?_
          exact he
      · rw [bytesToBits_cons, List.append_assoc, ← hq]
        have h2 : s.buffer / 2 ^ p2.length % 2 ^ 8 = ofBits p1 := by
          have h3 := h.low
          rw [hpl, Nat.add_comm 8, Nat.pow_add, hp, ofBits_append] at h3
          have h4 := congrArg (· / 2 ^ p2.length) h3
          rw [Nat.mod_mul_right_div_self] at h4
          rw [h4, Nat.mul_comm, Nat.mul_add_div (Nat.two_pow_pos _), Nat.div_eq_of_lt (ofBits_lt _), Nat.add_zero]
        have h3 : (u8 (s.buffer / 2 ^ p2.length)).toNat = ofBits p1 := by
          rw [← h2]; simp [u8]
        rw [h3]
        have := toBits_ofBits p1
        rw [hp1] at this
        rw [this]
        exact hp
    · refine ⟨[], pend, s, ?_, by omega, by simp [bytesToBits]⟩
      refine Emits.get_bind ?_
      rw [if_neg hc]
      exact Emits.pure _ _

/-- `finalize_bit_buffer`: everything pending is written, the last byte filled with ones; the buffer is empty. -/
theorem finalize_emits (pf : Platform) (hpf : pf.Valid) (s : BitState) (pend : Bits) (h : BitRel pf s pend) :
    ∃ raw pad, Emits (finalizeBitBuffer pf) s (stuff raw) () (BitState.init pf) ∧ pad < 8 ∧
      bytesToBits raw = pend ++ List.replicate pad true := by
  have hw := hpf.wordBits_eq
  obtain ⟨raw1, p1, s1, e1, r1, q1⟩ := writeBits_emits pf hpf 0x7F 7 (by norm_num) (by norm_num) s pend h
  have hl1 := r1.len
  obtain ⟨raw2, p2, s2, e2, l2, q2⟩ := flushBitBuffer_emits pf hpf 33 s1 p1 r1 (by omega)
  have hq : pend ++ List.replicate 7 true = bytesToBits (raw1 ++ raw2) ++ p2 := by
    rw [bytesToBits_append, List.append_assoc, ← q2, ← q1]; rfl
  refine ⟨raw1 ++ raw2, 7 - p2.length, ?_, by omega, ?_⟩
  · unfold finalizeBitBuffer
    rw [stuff_append]
    refine Emits.bind' e1 ?_
    refine Emits.congr (Emits.bind' e2 (Emits.set _ _)) (List.append_nil _)
  · have hl := congrArg List.length hq
    simp only [List.length_append, List.length_replicate, bytesToBits_length] at hl
    have ht := congrArg (List.take (bytesToBits (raw1 ++ raw2)).length) hq
    rw [List.take_append, List.take_left, List.take_of_length_le (by rw [bytesToBits_length, List.length_append]; omega),
      List.take_replicate] at ht
    rw [← ht, bytesToBits_length, List.length_append]
    congr 2
    omega

end Jpeg
