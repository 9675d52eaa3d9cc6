import Mathlib.Algebra.BigOperators.Group.Finset.Basic
import Mathlib.Algebra.Order.Field.Rat
/-! Codes of least cost. Uses no model definition. -/
namespace Jpeg.Spec

/-- The code lengths `l` of the symbols `U` with weights `w` satisfy Kraft's inequality, and no others that do have a smaller weighted sum. -/
def BestCode (U : Finset Nat) (w l : Nat → Nat) : Prop :=
  (U.sum fun s => (1 / 2 : ℚ) ^ l s) ≤ 1 ∧
    ∀ l' : Nat → Nat, (U.sum fun s => (1 / 2 : ℚ) ^ l' s) ≤ 1 → (U.sum fun s => w s * l s) ≤ U.sum fun s => w s * l' s

/-- No best code for the symbols has a code word of more than 32 bits. -/
def ShortCodes (U : Finset Nat) (w : Nat → Nat) : Prop := ∀ l, BestCode U w l → ∀ s ∈ U, l s ≤ 32

/-- Tables are claimed to be found for these symbols (see C11): there are less than `fib 35 - 1`; or not more than fit into the counters, and at most
32 different ones or no best code for them and a reserved code point has more than 32 bits. -/
def CountsFit (syms : List Nat) : Prop :=
  syms.length < 9227464 ∨ (syms.length < 4294967295 ∧
    (syms.toFinset.card ≤ 32 ∨ ShortCodes (insert 256 syms.toFinset) fun s => syms.count s + if s = 256 then 1 else 0))

end Jpeg.Spec
