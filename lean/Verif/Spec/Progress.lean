import Verif.Spec.Live
/-! Vocabulary for output that appears while rows are still being read. -/
namespace Jpeg.Spec

/-- The top `n` rows of `image`. -/
def topRows (n : UInt16) (image : ImageBuffer) : ImageBuffer := { image with height := n }

/-- `image`, except that a panic ends the run as soon as row `n` (or a later one) is requested. What the writer holds then is what it holds whenever the encoder
is about to read that row: the encoder knows nothing about the answer yet. -/
def stoppingAt (n : UInt16) (k : PanicKind) (image : ImageBuffer) : ImageBuffer :=
  { image with fillBuffers := fun y rows => if y < n then image.fillBuffers y rows else .error (.panic k) }

/-- Big endian. -/
def be16 (v : UInt16) : Bytes := [UInt8.ofNat (v.toNat / 256), UInt8.ofNat (v.toNat % 256)]

/-- `front` ends with the beginning of the frame header of a baseline file: marker SOF0, segment length, sample precision 8. What follows is the image height. -/
def BeforeHeight (front : Bytes) : Prop := ∃ len, [0xFF, 0xC0, 0, len, 8] <:+ front

/-- The run of `p` on any `Vec<u8>` appends `bytes` and ends with the failure `x`. -/
def WritesThenFails (p : Prog (R Unit)) (bytes : Bytes) (x : Fail) : Prop := ∀ out, p.run vecSink out = (out ++ bytes, .error x)

end Jpeg.Spec
