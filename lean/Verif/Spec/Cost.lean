import Verif.Spec.Huffman
/-! How many bits symbols take. -/
namespace Spec

/-- Length of the code word of a value; 0 if it has none. -/
def HuffTable.lengthOf (t : HuffTable) (v : Nat) : Nat :=
  match t.codes.find? fun c => c.2 == v with
  | some c => c.1.length
  | none => 0

/-- Bits for the code words of a sequence of symbols. -/
def HuffTable.cost (t : HuffTable) (symbols : List Nat) : Nat := (symbols.map t.lengthOf).sum

-- code words 00, 01, 10 and 110
example : HuffTable.cost ⟨[0, 3, 1, 0, 0, 0, 0, 0, 0, 0, 0, 0, 0, 0, 0, 0], [7, 8, 9, 200]⟩ [200, 8, 8, 7, 200] = 12 := by decide

end Spec
