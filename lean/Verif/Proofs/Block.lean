import Verif.Proofs.BitWriter
import Verif.Proofs.Coding
import Verif.Proofs.Huffman
import Verif.Spec.Jpeg
/-! Coding of one block: the encoder's bits, and that the T.81 decoder inverts them. -/
namespace Jpeg
open Spec

/-- One Huffman coded symbol followed by `size` additional bits `val`. -/
structure Tok where
  sym : Nat
  size : Nat
  val : Nat

/-- The DHT view of a table. -/
def HuffmanTable.spec (t : HuffmanTable) : HuffTable := ⟨t.length, t.values⟩

/-- The code word of a symbol. -/
def HuffmanTable.codeBits (t : HuffmanTable) (v : Nat) : Bits :=
  match t.lookup[v]? with
  | some (s, c) => toBits s c
  | none => []

def Tok.bits (t : HuffmanTable) (k : Tok) : Bits := t.codeBits k.sym ++ toBits k.size k.val

def toksBits (t : HuffmanTable) (l : List Tok) : Bits := (l.map (Tok.bits t)).flatten

theorem toksBits_append (t : HuffmanTable) (a b : List Tok) : toksBits t (a ++ b) = toksBits t a ++ toksBits t b := by
  simp [toksBits]

theorem toksBits_cons (t : HuffmanTable) (a : Tok) (b : List Tok) : toksBits t (a :: b) = a.bits t ++ toksBits t b := rfl
@[simp] theorem toksBits_nil (t : HuffmanTable) : toksBits t [] = [] := rfl

def ZRL : Tok := ⟨0xF0, 0, 0⟩
def EOB : Tok := ⟨0, 0, 0⟩
def coefTok (run : Nat) (v : Int) : Tok := ⟨run * 16 + catOf v, catOf v, addBits v⟩
def dcTok (diff : Int) : Tok := ⟨catOf diff, catOf diff, addBits diff⟩

/-- The symbols for the coefficients `l` of a band after `z` zeros. -/
def acToks : List Int → Nat → List Tok
  | [], z => if z > 0 then [EOB] else []
  | v :: vs, z =>
    if v = 0 then acToks vs (z + 1)
    else List.replicate (z / 16) ZRL ++ coefTok (z % 16) v :: acToks vs 0

/-- Every symbol of `l` has a code in `t`. -/
def HasSyms (t : HuffmanTable) (l : List Tok) : Prop := ∀ k ∈ l, k.sym ∈ t.values

/-- Looking up a symbol: in a build without checks the code of a symbol that has none is empty. -/
theorem TableOk.find {t : HuffmanTable} (ht : TableOk t) {pf : Platform} {v : Nat} (hv : pf.checked = true → v ∈ t.values) (h256 : v < 256) :
    ∃ size code, t.lookup[v]? = some (size, code) ∧ t.getForValue pf v = .ok (size, code) ∧ size ≤ 16 ∧ code < 2 ^ size := by
  by_cases h : v ∈ t.values
  · obtain ⟨size, code, hl, hg, h1, h2, h3, -⟩ := ht.get h
    exact ⟨size, code, hl, hg pf, h2, h3⟩
  · have hl := ht.none v h256 h
    refine ⟨0, 0, hl, ?_, by omega, by simp⟩
    have hck : pf.checked = false := by
      cases hc : pf.checked
      · rfl
      · exact absurd (hv hc) h
    simp only [HuffmanTable.getForValue, idx, hl, ok_bind, debugAssert, hck]
    rfl

theorem huffmanEncode_emits {pf : Platform} (hpf : pf.Valid) {t : HuffmanTable} (ht : TableOk t) {v : Nat} (hv : pf.checked = true → v ∈ t.values)
    (h256 : v < 256) : EmitsBits pf (huffmanEncode pf v t) (t.codeBits v) () := by
  obtain ⟨size, code, hl, hg, h2, h3⟩ := ht.find hv h256
  unfold huffmanEncode HuffmanTable.codeBits
  rw [hl]
  refine EmitsBits.lift_bind hg ?_
  exact writeBits_emits pf hpf code size h3 (by omega)

theorem huffmanEncodeValue_emits {pf : Platform} (hpf : pf.Valid) {t : HuffmanTable} (ht : TableOk t) {size sym value : Nat}
    (hv : pf.checked = true → sym ∈ t.values) (h256 : sym < 256) (hs : size ≤ 15) (hval : value < 2 ^ size) :
    EmitsBits pf (huffmanEncodeValue pf size sym value t) (Tok.bits t ⟨sym, size, value⟩) () := by
  obtain ⟨nb, code, hl, hg, h2, h3⟩ := ht.find hv h256
  have hsh : code * 2 ^ size < 2 ^ (nb + size) := by
    rw [Nat.pow_add]; exact Nat.mul_lt_mul_of_pos_right h3 (Nat.two_pow_pos _)
  have hsum : value + code * 2 ^ size < 2 ^ (nb + size) := by
    rw [Nat.pow_add]
    have : (code + 1) * 2 ^ size ≤ 2 ^ nb * 2 ^ size := Nat.mul_le_mul_right _ h3
    rw [Nat.add_mul] at this
    omega
  have h32 : (2 : Nat) ^ (nb + size) ≤ 2 ^ 31 := Nat.pow_le_pow_right (by omega) (by omega)
  unfold huffmanEncodeValue Tok.bits HuffmanTable.codeBits
  rw [hl]
  refine EmitsBits.lift_bind hg ?_
  dsimp only
  refine EmitsBits.lift_bind (a := code * 2 ^ size) ?_ ?_
  · unfold shlU ckShift
    rw [if_pos (by omega), ok_bind, Nat.mod_eq_of_lt (by norm_num at h32 ⊢; omega)]; rfl
  refine EmitsBits.lift_bind (ckU8_ok (by omega) (by omega)) ?_
  have hor : value ||| code * 2 ^ size = code * 2 ^ size + value := by
    rw [Nat.or_comm, Nat.mul_comm, Nat.two_pow_add_eq_or_of_lt hval]
  rw [hor, show ((size : Int) + nb).toNat = nb + size by omega]
  refine (writeBits_emits pf hpf _ _ (by omega) (by omega)).congr ?_
  rw [toBits_add, Nat.add_comm _ value, Nat.add_mul_div_right _ _ (Nat.two_pow_pos _), Nat.div_eq_of_lt hval, Nat.zero_add]
  congr 1
  rw [← toBits_mod size (value + _) size (Nat.le_refl _), Nat.add_mul_mod_self_right, toBits_mod _ _ _ (Nat.le_refl _)]

theorem writeDc_emits {pf : Platform} (hpf : pf.Valid) {t : HuffmanTable} (ht : TableOk t) {v p : Int}
    (hd : (v - p).natAbs ≤ 16383) (hv : pf.checked = true → catOf (v - p) ∈ t.values) :
    EmitsBits pf (writeDc pf v p t) ((dcTok (v - p)).bits t) () := by
  unfold writeDc
  refine EmitsBits.lift_bind (ckI16_ok (by omega) (by omega)) ?_
  refine EmitsBits.lift_bind (getCode_eq pf _ hd) ?_
  have h14 : catOf (v - p) ≤ 14 := bitLen_le (show _ < 2 ^ 14 by omega)
  exact huffmanEncodeValue_emits hpf ht hv (by omega) (by omega) (addBits_lt _)

theorem writeZrl_emits {pf : Platform} (hpf : pf.Valid) {t : HuffmanTable} (ht : TableOk t) (fuel z : Nat) (hf : z / 16 < fuel)
    (hz : z < 256) (hv : pf.checked = true → 16 ≤ z → 0xF0 ∈ t.values) :
    EmitsBits pf (writeZrl pf t fuel z) (toksBits t (List.replicate (z / 16) ZRL)) (z % 16) := by
  induction fuel generalizing z with
  | zero => omega
  | succ n ih =>
    unfold writeZrl
    by_cases h : z > 15
    · rw [if_pos h]
      have hz16 : z / 16 = (z - 16) / 16 + 1 := by omega
      rw [hz16, List.replicate_succ, toksBits_cons, show z % 16 = (z - 16) % 16 by omega]
      have e1 : ZRL.bits t = t.codeBits 0xF0 := by simp [Tok.bits, ZRL, toBits]
      rw [e1]
      refine EmitsBits.bind' (huffmanEncode_emits hpf ht (fun hc => hv hc (by omega)) (by omega)) ?_
      refine EmitsBits.lift_bind (ckU8_ok (by omega) (by omega)) ?_
      rw [show ((z : Int) - 16).toNat = z - 16 by omega]
      exact ih (z - 16) (by omega) (by omega) (fun hc h => hv hc (by omega))
    · rw [if_neg h, show z / 16 = 0 by omega, show z % 16 = z by omega]
      exact EmitsBits.pure pf z

/-- Tokens of the loop without the final EOB, and the remaining run. -/
def loopToks : List Int → Nat → List Tok × Nat
  | [], z => ([], z)
  | v :: vs, z =>
    if v = 0 then loopToks vs (z + 1)
    else (List.replicate (z / 16) ZRL ++ coefTok (z % 16) v :: (loopToks vs 0).1, (loopToks vs 0).2)

theorem acToks_eq (l : List Int) (z : Nat) :
    acToks l z = (loopToks l z).1 ++ if (loopToks l z).2 > 0 then [EOB] else [] := by
  induction l generalizing z with
  | nil => simp [acToks, loopToks]
  | cons v vs ih =>
    simp only [acToks, loopToks]
    split
    · exact ih _
    · rw [ih 0]; simp

theorem writeAcLoop_emits {pf : Platform} (hpf : pf.Valid) {t : HuffmanTable} (ht : TableOk t) (l : List Int) (z : Nat)
    (hz : z + l.length < 256) (hl : ∀ v ∈ l, v.natAbs ≤ 1023) (hs : pf.checked = true → HasSyms t (loopToks l z).1) :
    EmitsBits pf (writeAcLoop pf t l z) (toksBits t (loopToks l z).1) (loopToks l z).2 := by
  induction l generalizing z with
  | nil => exact EmitsBits.pure pf z
  | cons v vs ih =>
    unfold writeAcLoop
    simp only [loopToks] at hs ⊢
    have hvs : ∀ v ∈ vs, v.natAbs ≤ 1023 := fun x hx => hl x (by simp [hx])
    simp only [List.length_cons] at hz
    by_cases h0 : v = 0
    · simp only [if_pos h0] at hs ⊢
      refine EmitsBits.lift_bind (ckU8_ok (by omega) (by omega)) ?_
      exact ih (z + 1) (by omega) hvs hs
    · simp only [if_neg h0] at hs ⊢
      have hva := hl v (by simp)
      have hcat : catOf v ≤ 10 := bitLen_le (by omega)
      rw [toksBits_append, toksBits_cons]
      refine EmitsBits.bind' (writeZrl_emits hpf ht 17 z (by omega) (by omega) ?_) ?_
      · intro hc h
        refine hs hc ZRL (List.mem_append_left _ ?_)
        simp; omega
      refine EmitsBits.lift_bind (getCode_eq pf v (by omega)) ?_
      dsimp only
      refine EmitsBits.lift_bind (a := z % 16 * 16) ?_ ?_
      · unfold shlU ckShift
        rw [if_pos (by omega), ok_bind, show (Int.toNat 4) = 4 from rfl, Nat.mod_eq_of_lt (by omega)]
      have hor : z % 16 * 16 ||| catOf v = z % 16 * 16 + catOf v := by
        rw [Nat.mul_comm, ← Nat.two_pow_add_eq_or_of_lt (i := 4) (by omega)]
      rw [hor]
      refine EmitsBits.bind' (huffmanEncodeValue_emits hpf ht ?_ (by omega) (by omega) (addBits_lt v)) ?_
      · exact fun hc => hs hc (coefTok (z % 16) v) (by simp)
      · exact ih 0 (by omega) hvs (fun hc k hk => hs hc k (by simp [hk]))

/-- `write_ac_block` on the band `start..stop` of a block. -/
theorem writeAcBlock_emits {pf : Platform} (hpf : pf.Valid) {t : HuffmanTable} (ht : TableOk t) (block band : List Int) (start stop : Nat)
    (hband : slice block start stop = .ok band) (hz : band.length < 256)
    (hl : ∀ v ∈ band, v.natAbs ≤ 1023) (hs : pf.checked = true → HasSyms t (acToks band 0)) :
    EmitsBits pf (writeAcBlock pf block start stop t) (toksBits t (acToks band 0)) () := by
  rw [acToks_eq] at hs ⊢
  rw [toksBits_append]
  unfold writeAcBlock
  refine EmitsBits.lift_bind hband ?_
  refine EmitsBits.bind' (writeAcLoop_emits hpf ht band 0 (by omega) hl (fun hc k hk => hs hc k (by simp [hk]))) ?_
  split
  · rename_i h
    have e1 : toksBits t [EOB] = t.codeBits 0 := by simp [toksBits, Tok.bits, EOB, toBits]
    rw [e1]
    exact huffmanEncode_emits hpf ht (fun hc => hs hc EOB (by simp [h])) (by omega)
  · exact EmitsBits.pure pf ()

/-! ### Decoding -/

theorem decode_sym {t : HuffmanTable} (ht : TableOk t) {v : Nat} (hv : v ∈ t.values) (rest : Bits) :
    t.spec.decode (t.codeBits v ++ rest) = some (v, rest) := by
  obtain ⟨size, code, hl, hg, h1, h2, h3, hm⟩ := ht.get hv
  unfold HuffmanTable.codeBits
  rw [hl]
  exact ht.wf.decode_code hm rest

theorem receive_toBits (n v : Nat) (hv : v < 2 ^ n) (rest : Bits) : receive n (toBits n v ++ rest) = some (v, rest) := by
  unfold receive
  rw [if_pos (by simp)]
  simp [List.take_append, List.drop_append, ofBits_toBits, Nat.mod_eq_of_lt hv]

theorem decodeDiff_tok {t : HuffmanTable} (ht : TableOk t) {d : Int} (hd : d.natAbs ≤ 2047) (hv : catOf d ∈ t.values) (rest : Bits) :
    decodeDiff t.spec ((dcTok d).bits t ++ rest) = some (d, rest) := by
  have hc : catOf d ≤ 11 := bitLen_le (by omega)
  unfold decodeDiff dcTok Tok.bits
  dsimp only
  rw [List.append_assoc, decode_sym ht hv]
  simp only [Option.bind_eq_bind, Option.bind_some, if_pos hc]
  rw [receive_toBits _ _ (addBits_lt d)]
  simp [extend_addBits]

theorem decodeAc_succ (progressive : Bool) (t : HuffTable) (fuel n : Nat) (bits : Bits) :
    decodeAc progressive t (fuel + 1) (n + 1) bits = (t.decode bits).bind fun x =>
      if x.1 % 16 = 0 then
        if x.1 / 16 = 15 then
          if n + 1 > 16 then (decodeAc progressive t fuel (n + 1 - 16) x.2).bind fun y =>
            some (List.replicate 16 0 ++ y.1, y.2.1, y.2.2)
          else none
        else if x.1 / 16 = 0 then some (List.replicate (n + 1) 0, 0, x.2)
        else if progressive then (receive (x.1 / 16) x.2).bind fun y =>
          some (List.replicate (n + 1) 0, 2 ^ (x.1 / 16) + y.1 - 1, y.2)
        else none
      else if x.1 % 16 ≤ 10 ∧ x.1 / 16 < n + 1 then (receive (x.1 % 16) x.2).bind fun y =>
        (decodeAc progressive t fuel (n + 1 - x.1 / 16 - 1) y.2).bind fun w =>
        some (List.replicate (x.1 / 16) 0 ++ extend y.1 (x.1 % 16) :: w.1, w.2.1, w.2.2)
      else none := rfl

theorem decodeAc_zrl {t : HuffmanTable} (ht : TableOk t) (prog : Bool) (m fuel n : Nat) (rest : Bits)
    (hv : 0 < m → 0xF0 ∈ t.values) (hn : 16 * m < n) (l : List Int) (e : Nat) (rest' : Bits)
    (h : decodeAc prog t.spec fuel (n - 16 * m) rest = some (l, e, rest')) :
    decodeAc prog t.spec (fuel + m) n (toksBits t (List.replicate m ZRL) ++ rest) =
      some (List.replicate (16 * m) 0 ++ l, e, rest') := by
  induction m generalizing n with
  | zero => simpa using h
  | succ m ih =>
    have e1 : ZRL.bits t = t.codeBits 0xF0 := by simp [Tok.bits, ZRL, toBits]
    obtain ⟨n', rfl⟩ : ∃ n', n = n' + 1 := ⟨n - 1, by omega⟩
    rw [List.replicate_succ, toksBits_cons, e1, List.append_assoc, ← Nat.add_assoc]
    rw [decodeAc_succ]
    rw [decode_sym ht (hv (by omega))]
    have := ih (n' + 1 - 16) (fun _ => hv (by omega)) (by omega) (by
      rw [show n' + 1 - 16 - 16 * m = n' + 1 - 16 * (m + 1) by omega]; exact h)
    simp only [Option.bind_some]
    rw [if_pos (by norm_num), if_pos (by norm_num), if_pos (by omega), this]
    simp only [Option.bind_some, Option.some.injEq, Prod.mk.injEq, and_true]
    rw [← List.append_assoc, List.replicate_append_replicate, show 16 + 16 * m = 16 * (m + 1) by omega]

theorem decodeAc_toks {t : HuffmanTable} (ht : TableOk t) (prog : Bool) (l : List Int) (z fuel : Nat) (rest : Bits)
    (hl : ∀ v ∈ l, v.natAbs ≤ 1023) (hs : HasSyms t (acToks l z)) (hf : (z + l.length) ≤ fuel) :
    decodeAc prog t.spec fuel (z + l.length) (toksBits t (acToks l z) ++ rest) =
      some (List.replicate z 0 ++ l, 0, rest) := by
  induction l generalizing z fuel with
  | nil =>
    simp only [acToks] at hs ⊢
    by_cases hz : z > 0
    · rw [if_pos hz] at hs ⊢
      have e1 : toksBits t [EOB] = t.codeBits 0 := by simp [toksBits, Tok.bits, EOB, toBits]
      obtain ⟨f, rfl⟩ : ∃ f, fuel = f + 1 := ⟨fuel - 1, by simp at hf; omega⟩
      obtain ⟨z', rfl⟩ : ∃ f, z = f + 1 := ⟨z - 1, by omega⟩
      rw [e1, List.length_nil, Nat.add_zero]
      rw [decodeAc_succ]
      rw [decode_sym ht (v := 0) (hs EOB (by simp))]
      simp
    · have : z = 0 := by omega
      subst this
      simp [decodeAc]
  | cons v vs ih =>
    simp only [acToks] at hs ⊢
    have hvs : ∀ v ∈ vs, v.natAbs ≤ 1023 := fun x hx => hl x (by simp [hx])
    simp only [List.length_cons] at hf ⊢
    by_cases h0 : v = 0
    · rw [if_pos h0] at hs ⊢
      have := ih (z + 1) fuel hvs hs (by omega)
      rw [show z + (vs.length + 1) = z + 1 + vs.length by omega, this, h0]
      simp only [Option.some.injEq, Prod.mk.injEq, and_true]
      rw [List.replicate_succ', List.append_assoc]; rfl
    · rw [if_neg h0] at hs ⊢
      have hva := hl v (by simp)
      have hcat : catOf v ≤ 10 := bitLen_le (by omega)
      have hcat0 : catOf v ≠ 0 := fun h => h0 ((catOf_zero_iff v).mp h)
      rw [toksBits_append, toksBits_cons, List.append_assoc, List.append_assoc]
      have key : ∀ fuel', z % 16 + 1 + vs.length ≤ fuel' → decodeAc prog t.spec fuel' (z % 16 + 1 + vs.length)
          ((coefTok (z % 16) v).bits t ++ (toksBits t (acToks vs 0) ++ rest)) =
            some (List.replicate (z % 16) 0 ++ v :: vs, 0, rest) := by
        intro fuel' hf'
        obtain ⟨f, rfl⟩ : ∃ f, fuel' = f + 1 := ⟨fuel' - 1, by omega⟩
        rw [show z % 16 + 1 + vs.length = (z % 16 + vs.length) + 1 by omega]
        rw [decodeAc_succ]
        have hsym : (z % 16 * 16 + catOf v) ∈ t.values := hs (coefTok (z % 16) v) (by simp)
        unfold coefTok Tok.bits
        dsimp only
        rw [List.append_assoc, decode_sym ht hsym]
        simp only [Option.bind_some]
        rw [show (z % 16 * 16 + catOf v) % 16 = catOf v by omega, show (z % 16 * 16 + catOf v) / 16 = z % 16 by omega,
          if_neg hcat0, if_pos ⟨hcat, by omega⟩, receive_toBits _ _ (addBits_lt v)]
        simp only [Option.bind_some]
        have := ih 0 f hvs (fun k hk => hs k (by simp [hk])) (by omega)
        rw [show z % 16 + vs.length + 1 - z % 16 - 1 = 0 + vs.length by omega, this]
        simp [extend_addBits]
      obtain ⟨f, rfl⟩ : ∃ f, fuel = f + z / 16 := ⟨fuel - z / 16, by omega⟩
      have hz := decodeAc_zrl ht prog (z / 16) f (z + (vs.length + 1)) ((coefTok (z % 16) v).bits t ++ (toksBits t (acToks vs 0) ++ rest))
        (fun h => hs ZRL (List.mem_append_left _ (by simp; omega))) (by omega) _ 0 rest (by
          rw [show z + (vs.length + 1) - 16 * (z / 16) = z % 16 + 1 + vs.length by omega]
          exact key f (by omega))
      rw [hz]
      simp only [Option.some.injEq, Prod.mk.injEq, and_true]
      rw [← List.append_assoc, List.replicate_append_replicate, show 16 * (z / 16) + z % 16 = z by omega]

end Jpeg
