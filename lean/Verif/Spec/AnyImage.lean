import Verif.Spec.Output
/-! What is said about image buffers that break the contract of the trait. -/
namespace Jpeg.Spec

/-- The writer `S`, with a record of the bytes it accepted: those of its successful `write_all` calls. -/
def keeping {σ : Type} (S : Sink σ) : Sink (σ × Bytes) :=
  ⟨fun s c => (((S.writeAll s.1 c).1, match (S.writeAll s.1 c).2 with
    | none => s.2 ++ c
    | some _ => s.2), (S.writeAll s.1 c).2)⟩

/-- Optimised Huffman tables are off; or no restart marker comes before the last block of a component (see C10), and there are so few blocks that the symbol
counters cannot overflow (at most 63 symbols per block; 68 million blocks are always fine). -/
def TablesSafe (e : Encoder) (ct : JpegColorType) (w h : UInt16) : Prop :=
  e.getOptimizedHuffmanTables = false ∨
    (∀ n, e.getRestartInterval = some n → ∀ fc ∈ (frameOf e ct w h).comps, blockCount (frameOf e ct w h) fc ≤ n.toNat) ∧
    ∀ t, 63 * codedBlocks (frameOf e ct w h) t < 4294967295

end Jpeg.Spec
