import Verif.Spec.Jpeg
/-! A check of the specification itself: the decoder of Spec/Jpeg.lean, which all round trip theorems are about, applied to a JPEG file that was
neither written by this encoder nor by the model: `python.jpg` of the test data of CPython (Lib/test/imghdrdata, written by another encoder), 16 x 16
pixels, 4:2:0. The coefficients below, put through an (exact) inverse DCT and colour conversion outside Lean, give the picture stored beside it
as `python.ppm` (luma within 7.5 levels of 255, as expected at its quality). This is a test of the decoder on one file, not a theorem about the encoder. -/
namespace Spec

/-- CPython's Lib/test/imghdrdata/python.jpg. -/
def pythonJpg : List UInt8 := [
  255, 216, 255, 224, 0, 16, 74, 70, 73, 70, 0, 1, 1, 1, 0, 1, 0, 1, 0, 0, 255, 219, 0, 67, 0, 3, 2, 2, 2, 2,
  2, 3, 2, 2, 2, 3, 3, 3, 3, 4, 6, 4, 4, 4, 4, 4, 8, 6, 6, 5, 6, 9, 8, 10, 10, 9, 8, 9, 9, 10,
  12, 15, 12, 10, 11, 14, 11, 9, 9, 13, 17, 13, 14, 15, 16, 16, 17, 16, 10, 12, 18, 19, 18, 16, 19, 15, 16, 16, 16, 255,
  219, 0, 67, 1, 3, 3, 3, 4, 3, 4, 8, 4, 4, 8, 16, 11, 9, 11, 16, 16, 16, 16, 16, 16, 16, 16, 16, 16, 16, 16,
  16, 16, 16, 16, 16, 16, 16, 16, 16, 16, 16, 16, 16, 16, 16, 16, 16, 16, 16, 16, 16, 16, 16, 16, 16, 16, 16, 16, 16, 16,
  16, 16, 16, 16, 16, 16, 16, 16, 255, 192, 0, 17, 8, 0, 16, 0, 16, 3, 1, 34, 0, 2, 17, 1, 3, 17, 1, 255, 196, 0,
  22, 0, 1, 1, 1, 0, 0, 0, 0, 0, 0, 0, 0, 0, 0, 0, 0, 0, 7, 4, 5, 255, 196, 0, 36, 16, 0, 1, 4, 1,
  4, 2, 2, 3, 0, 0, 0, 0, 0, 0, 0, 0, 1, 2, 3, 4, 6, 5, 7, 8, 18, 19, 17, 34, 0, 20, 9, 49, 50, 255,
  196, 0, 21, 1, 1, 1, 0, 0, 0, 0, 0, 0, 0, 0, 0, 0, 0, 0, 0, 0, 0, 6, 255, 196, 0, 35, 17, 0, 1, 2,
  5, 3, 5, 0, 0, 0, 0, 0, 0, 0, 0, 0, 0, 1, 2, 17, 3, 4, 5, 6, 33, 0, 18, 49, 21, 22, 97, 129, 225, 255,
  218, 0, 12, 3, 1, 0, 2, 17, 3, 17, 0, 63, 0, 20, 166, 210, 106, 27, 115, 193, 230, 19, 18, 212, 149, 28, 243, 17, 99, 228,
  37, 101, 190, 186, 90, 236, 105, 69, 64, 177, 229, 32, 178, 84, 165, 31, 210, 202, 184, 250, 242, 32, 171, 150, 61, 151, 108, 147, 53, 230,
  155, 119, 215, 230, 109, 167, 23, 129, 165, 87, 28, 127, 28, 234, 113, 226, 75, 57, 215, 227, 34, 83, 242, 26, 105, 222, 212, 113, 74, 56,
  180, 130, 232, 75, 137, 42, 113, 105, 30, 205, 45, 33, 59, 241, 239, 185, 26, 116, 172, 238, 161, 90, 117, 142, 213, 72, 172, 101, 91, 133,
  139, 129, 133, 123, 33, 41, 152, 103, 169, 107, 148, 185, 73, 101, 79, 185, 200, 133, 41, 17, 75, 129, 42, 240, 122, 217, 242, 60, 128, 126,
  85, 190, 13, 246, 98, 161, 64, 204, 232, 230, 154, 61, 92, 183, 67, 179, 215, 122, 101, 88, 177, 217, 81, 33, 136, 191, 100, 184, 211, 241,
  195, 104, 4, 41, 192, 208, 254, 187, 60, 2, 224, 60, 84, 7, 180, 189, 217, 123, 84, 230, 39, 251, 110, 223, 148, 96, 20, 130, 98, 19,
  141, 184, 82, 152, 40, 55, 5, 137, 114, 121, 96, 228, 50, 137, 111, 195, 130, 142, 167, 82, 140, 234, 32, 141, 190, 120, 25, 31, 7, 173,
  127, 255, 217]

/-- The third luma block of that file, zig-zag order. -/
def pythonBlock : List Int :=
  [-53, -264, 145, -49, 10, 29, 66, 41, 99, 42, -55, -39, 21, -4, -13, -20, -15, -26, 6, 16, 10, -6, -12, 1, 0, -5, 3, 3, 10, 3, 10, -2, -6, 2, 7, 4, 0, 2, 1, -1, 2, 2, -3, -10, 1, 4, -1, -2, 2, 0, -1, 1, 0, -4, -6, 0, 1, -1, 0, 1, -1, -1, 1, 0]

set_option maxRecDepth 20000 in
/-- The decoder reads the frame header of that file ... -/
example : ((decode true pythonJpg).bind (·.frame)).map (fun f => (f.progressive, f.height, f.width)) = some (false, 16, 16) ∧
    ((decode true pythonJpg).bind (·.frame)).map (·.comps) = some [⟨1, 2, 2, 0⟩, ⟨2, 1, 1, 1⟩, ⟨3, 1, 1, 1⟩] := by
  decide +kernel

set_option maxRecDepth 20000 in
/-- ... all coefficients of a luma block, and the first ten coefficients of every other block of the three components. -/
example : (decode true pythonJpg).map (fun d => (List.range 64).map (d.coefs 0 1 0)) = some pythonBlock ∧
    (decode true pythonJpg).map (fun d => [d.coefs 0 0 0, d.coefs 0 0 1, d.coefs 0 1 1, d.coefs 1 0 0, d.coefs 2 0 0].map (List.range 10).map) =
      some [[-107, -50, -54, -47, -140, -28, 24, -2, -11, 42], [-131, 37, -155, 12, 121, -50, 55, 126, -6, 45],
        [-43, 224, 236, -21, -13, -15, 25, -99, -75, 6], [-40, 44, 54, 19, 8, 15, 0, -36, -32, -11], [0, -27, -32, -4, -6, -3, 0, 19, 18, 6]] := by
  decide +kernel

end Spec
