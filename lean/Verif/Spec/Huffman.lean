/-! Bit strings and Huffman tables as in ITU-T T.81 Annex C and F.2.2.3. Uses no model definition. -/
namespace Spec

abbrev Bits := List Bool

/-- The `n` low bits of `v`, most significant first. -/
def toBits : Nat → Nat → Bits
  | 0, _ => []
  | n + 1, v => (v / 2 ^ n % 2 == 1) :: toBits n v

/-- The number with binary digits `b`, most significant first. -/
def ofBits (b : Bits) : Nat := b.foldl (fun n x => 2 * n + x.toNat) 0

/-- The bits of a byte sequence. -/
def bytesToBits (l : List UInt8) : Bits := (l.map fun b => toBits 8 b.toNat).flatten

/-- Annex C, Figures C.1 and C.2: the codes `(length, code)` in order of increasing length. `counts` are the numbers
of codes of length `len`, `len + 1`, ...; `first` is the first code of length `len`. -/
def assignCodes : (counts : List Nat) → (len first : Nat) → List (Nat × Nat)
  | [], _, _ => []
  | n :: ns, len, first => (List.range n).map (fun i => (len, first + i)) ++ assignCodes ns (len + 1) (2 * (first + n))

/-- What a DHT segment specifies: the 16 counts (BITS) and the values (HUFFVAL). -/
structure HuffTable where
  counts : List Nat
  values : List Nat
deriving DecidableEq, Repr

/-- The code words as bit strings, in the order of the values. -/
def HuffTable.codeWords (t : HuffTable) : List Bits := (assignCodes t.counts 1 0).map fun lc => toBits lc.1 lc.2

/-- Code words with their values. -/
def HuffTable.codes (t : HuffTable) : List (Bits × Nat) := t.codeWords.zip t.values

/-- `a` is a proper or improper initial part of `b`. -/
def isPrefix : Bits → Bits → Bool
  | [], _ => true
  | _ :: _, [] => false
  | a :: as, b :: bs => a == b && isPrefix as bs

/-- F.2.2.3 DECODE: the value whose code word starts the bit string, and the remaining bits. -/
def HuffTable.decode (t : HuffTable) (bits : Bits) : Option (Nat × Bits) :=
  (t.codes.find? fun e => isPrefix e.1 bits).map fun e => (e.2, bits.drop e.1.length)

/-- `Σ counts[i] * 2^(16 - (i+1))`: the part of the code space in use, out of `2^16`. -/
def kraft : (counts : List Nat) → (len : Nat) → Nat
  | [], _ => 0
  | n :: ns, len => n * 2 ^ (16 - len) + kraft ns (len + 1)

/-- A DHT table is well formed (B.2.4.2, C.2): 16 counts, as many values as announced (at most 256), distinct byte
values, and the code assignment fits without using the code word of all ones. -/
structure HuffTable.WellFormed (t : HuffTable) : Prop where
  counts_len : t.counts.length = 16
  values_len : t.values.length = t.counts.sum
  values_nodup : t.values.Nodup
  values_byte : ∀ v ∈ t.values, v < 256
  kraft : Spec.kraft t.counts 1 < 2 ^ 16

instance (t : HuffTable) : Decidable t.WellFormed :=
  decidable_of_iff (t.counts.length = 16 ∧ t.values.length = t.counts.sum ∧ t.values.Nodup ∧ (∀ v ∈ t.values, v < 256) ∧
    Spec.kraft t.counts 1 < 2 ^ 16)
    ⟨fun ⟨a, b, c, d, e⟩ => ⟨a, b, c, d, e⟩, fun ⟨a, b, c, d, e⟩ => ⟨a, b, c, d, e⟩⟩

end Spec
