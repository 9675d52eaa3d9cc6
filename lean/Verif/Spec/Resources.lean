import Verif.Model.Free
import Verif.Spec.Size
/-! Counting what a call does with its writer and its image buffer. -/
namespace Jpeg.Spec

/-- The writer `S`, with a counter of the bytes it was handed (also in calls that failed). -/
def metered {σ : Type} (S : Sink σ) : Sink (σ × Nat) where
  writeAll s c := (((S.writeAll s.1 c).1, s.2 + c.length), (S.writeAll s.1 c).2)

/-- The image buffer `B`, with a counter of the calls of `fill_buffers`. -/
def counted {τ : Type} (B : FreeImage τ) : FreeImage (τ × Nat) where
  color t := (((B.color t.1).1, t.2), (B.color t.1).2)
  width t := (((B.width t.1).1, t.2), (B.width t.1).2)
  height t := (((B.height t.1).1, t.2), (B.height t.1).2)
  fill t y rows := (((B.fill t.1 y rows).1, t.2 + 1), (B.fill t.1 y rows).2)

/-- No answer of the image buffer is larger than `w`x`h` pixels with `n` components. The answers may change from call to call. -/
structure AtMost {τ : Type} (B : FreeImage τ) (w h n : Nat) : Prop where
  width : ∀ t a, (B.width t).2 = .ok a → a.toNat ≤ w
  height : ∀ t a, (B.height t).2 = .ok a → a.toNat ≤ h
  color : ∀ t a, (B.color t).2 = .ok a → componentCount a ≤ n

end Jpeg.Spec
