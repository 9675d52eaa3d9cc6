import Verif.Model.Encoder
/-! What an image buffer delivers, and which samples the blocks of a component consist of. -/
namespace Jpeg

/-- Four buffers given by a function. -/
def Rows.ofFn (f : Nat → Buf) : Rows := ⟨f 0, f 1, f 2, f 3⟩
/-- Buffer `i` of four. -/
def Rows.buf (r : Rows) (i : Nat) : Buf :=
  match i with
  | 0 => r.b0
  | 1 => r.b1
  | 2 => r.b2
  | _ => r.b3

/-- The contract of `ImageBuffer::fill_buffers` (src/image_buffer.rs:86-98): for every line `y` of the image it appends
the `width` samples `P c y 0`, `P c y 1`, ... to buffer `c` of every component `c` and leaves the other
buffers alone. It may rely on the capacity the encoder has reserved. -/
def Delivers (image : ImageBuffer) (P : Nat → Nat → Nat → UInt8) : Prop :=
  ∀ y, y < image.height.toNat → ∀ rows : Rows,
    (∀ c, c < image.colorType.numComponents → (rows.buf c).data.length + image.width.toNat ≤ (rows.buf c).cap) →
    image.fillBuffers (UInt16.ofNat y) rows = .ok (Rows.ofFn fun c =>
      if c < image.colorType.numComponents then
        ⟨(rows.buf c).data ++ (List.range image.width.toNat).map (P c y), (rows.buf c).cap⟩
      else rows.buf c)

namespace Spec

/-- The sample of component `c` at `(y, x)`; outside the image the nearest sample of the image. -/
def sampleAt (w h : Nat) (P : Nat → Nat → Nat → UInt8) (c y x : Nat) : UInt8 := P c (min y (h - 1)) (min x (w - 1))

/-- The 64 level shifted samples of block `(by, bx)` of component `c`, of which every `sy`-th line and `sx`-th column
is taken. -/
def blockSamples (w h : Nat) (P : Nat → Nat → Nat → UInt8) (c sy sx by_ bx : Nat) : List Int :=
  (List.range 64).map fun i =>
    ((sampleAt w h P c ((8 * by_ + i / 8) * sy) ((8 * bx + i % 8) * sx)).toNat : Int) - 128

end Spec
end Jpeg
