import Verif.Model.Encoder
import Verif.Spec.Sample
/-! A check of the model: the picture `python.ppm` of CPython's test data, encoded by the model, compared with `python.jpg`, the same picture written by another
encoder (one that uses the arithmetic of libjpeg, which the colour conversion, DCT and quality scaling of this crate are ported from). This is a test
on one picture, not a theorem about the encoder. -/
namespace Jpeg
open _root_.Spec

/-- The pixels of CPython's Lib/test/imghdrdata/python.ppm. -/
def pythonPpm : List UInt8 := [
  0, 0, 0, 0, 0, 0, 0, 0, 0, 0, 0, 0, 78, 141, 192, 74, 134, 186, 72, 131, 180, 68, 126, 173, 64, 120, 167, 60, 113, 158, 55, 104, 150, 0, 0, 0, 0, 0, 0, 0, 0, 0, 0, 0, 0, 0, 0, 0,
  0, 0, 0, 0, 0, 0, 0, 0, 0, 0, 0, 0, 76, 138, 188, 255, 255, 255, 69, 127, 175, 65, 121, 168, 62, 116, 162, 58, 111, 155, 54, 105, 148, 0, 0, 0, 0, 0, 0, 0, 0, 0, 0, 0, 0, 0, 0, 0,
  0, 0, 0, 0, 0, 0, 0, 0, 0, 0, 0, 0, 73, 133, 183, 70, 128, 177, 66, 123, 170, 62, 117, 163, 59, 112, 157, 55, 106, 150, 54, 105, 148, 0, 0, 0, 0, 0, 0, 0, 0, 0, 0, 0, 0, 0, 0, 0,
  0, 0, 0, 78, 143, 196, 76, 138, 191, 72, 133, 182, 67, 125, 173, 61, 116, 161, 57, 108, 150, 54, 102, 144, 56, 108, 151, 54, 105, 148, 54, 105, 148, 0, 0, 0, 0, 0, 0, 0, 0, 0, 0, 0, 0, 0, 0, 0,
  82, 145, 198, 79, 141, 193, 75, 136, 187, 72, 131, 180, 68, 125, 173, 64, 120, 166, 61, 115, 160, 57, 109, 153, 54, 105, 148, 54, 105, 148, 54, 105, 148, 0, 0, 0, 255, 226, 85, 253, 221, 74, 249, 213, 62, 0, 0, 0,
  80, 143, 195, 76, 137, 188, 72, 132, 181, 69, 127, 175, 65, 121, 168, 61, 116, 161, 58, 111, 155, 54, 105, 148, 54, 105, 148, 54, 105, 148, 50, 96, 135, 0, 0, 0, 255, 222, 75, 255, 218, 65, 253, 213, 54, 0, 0, 0,
  77, 139, 190, 73, 133, 183, 70, 128, 176, 66, 123, 170, 62, 117, 163, 59, 112, 156, 55, 106, 150, 54, 105, 148, 53, 104, 146, 50, 96, 135, 0, 0, 0, 236, 206, 69, 255, 218, 66, 255, 214, 55, 255, 211, 45, 0, 0, 0,
  74, 135, 185, 71, 129, 178, 67, 124, 171, 63, 118, 165, 54, 105, 147, 27, 49, 69, 0, 0, 0, 0, 0, 0, 0, 0, 0, 0, 0, 0, 226, 195, 69, 253, 217, 65, 255, 215, 56, 255, 211, 45, 255, 207, 35, 0, 0, 0,
  70, 129, 178, 68, 125, 173, 64, 120, 166, 54, 103, 145, 0, 0, 0, 242, 225, 110, 253, 233, 106, 255, 230, 97, 255, 227, 87, 255, 223, 77, 255, 219, 66, 255, 215, 56, 255, 211, 46, 255, 207, 36, 253, 203, 27, 0, 0, 0,
  67, 125, 174, 65, 121, 168, 61, 116, 161, 28, 50, 75, 245, 227, 111, 255, 235, 108, 255, 231, 97, 255, 227, 87, 255, 223, 77, 255, 219, 67, 255, 215, 57, 255, 211, 46, 255, 207, 36, 255, 204, 28, 243, 193, 26, 0, 0, 0,
  64, 117, 163, 61, 115, 162, 58, 112, 156, 0, 0, 0, 255, 235, 108, 255, 231, 98, 255, 227, 88, 255, 223, 78, 255, 219, 67, 255, 215, 57, 255, 211, 47, 255, 207, 36, 255, 204, 28, 255, 204, 28, 194, 154, 18, 0, 0, 0,
  0, 0, 0, 0, 0, 0, 0, 0, 0, 0, 0, 0, 255, 231, 98, 255, 227, 88, 255, 223, 78, 232, 199, 61, 235, 197, 52, 235, 194, 42, 235, 190, 33, 235, 187, 24, 235, 187, 24, 198, 155, 18, 0, 0, 0, 0, 0, 0,
  0, 0, 0, 0, 0, 0, 0, 0, 0, 0, 0, 0, 255, 227, 88, 255, 223, 78, 255, 219, 68, 255, 215, 58, 255, 211, 48, 255, 208, 37, 255, 204, 28, 0, 0, 0, 0, 0, 0, 0, 0, 0, 0, 0, 0, 0, 0, 0,
  0, 0, 0, 0, 0, 0, 0, 0, 0, 0, 0, 0, 253, 222, 78, 255, 219, 68, 255, 216, 58, 255, 212, 48, 255, 208, 38, 255, 255, 255, 253, 203, 27, 0, 0, 0, 0, 0, 0, 0, 0, 0, 0, 0, 0, 0, 0, 0,
  0, 0, 0, 0, 0, 0, 0, 0, 0, 0, 0, 0, 241, 208, 63, 250, 211, 57, 253, 210, 47, 255, 208, 38, 255, 204, 28, 250, 199, 25, 192, 151, 18, 0, 0, 0, 0, 0, 0, 0, 0, 0, 0, 0, 0, 0, 0, 0,
  0, 0, 0, 0, 0, 0, 0, 0, 0, 0, 0, 0, 0, 0, 0, 0, 0, 0, 0, 0, 0, 0, 0, 0, 0, 0, 0, 0, 0, 0, 0, 0, 0, 0, 0, 0, 0, 0, 0, 0, 0, 0, 0, 0, 0, 0, 0, 0]

/-- The luma values of the 8 x 8 square in its top left corner, by the colour conversion of the model. -/
def pythonCorner : List UInt8 := (List.range 64).map fun i =>
  match pythonPpm.drop (48 * (i / 8) + 3 * (i % 8)) with
  | r :: g :: b :: _ => (match rgbToYcbcr ⟨true, 8⟩ r g b with | .ok c => c.1 | .error _ => 0)
  | _ => 0

/-- The file the model writes for that square at quality 92. -/
def cornerEncoded : List UInt8 :=
  match Encoder.new ⟨true, 8⟩ 92 with
  | .error _ => []
  | .ok e => ((e.encode ⟨true, 8⟩ false pythonCorner 8 8 .luma).run ⟨fun w c => (c.reverse ++ w, none)⟩ []).1.reverse

set_option maxRecDepth 100000 in
/-- Both files have the same quantisation tables, and the coefficients of the first luma block agree except for one that differs by one. (With the whole picture at 4:2:0 the same is true for
all four luma blocks, 6 of 256 coefficients differ by one; evaluated outside the kernel. The chroma coefficients differ then: that encoder averages four pixels, this one takes one of them, see C29.) -/
example : (match decode true cornerEncoded, decode true pythonJpg with
    | some d, some d' => d.qts 0 == d'.qts 0 && d.qts 1 == d'.qts 1 &&
        ((List.range 64).filter fun k => d.coefs 0 0 0 k != d'.coefs 0 0 0 k).length == 1 &&
        (List.range 64).all fun k => (d.coefs 0 0 0 k - d'.coefs 0 0 0 k).natAbs ≤ 1
    | _, _ => false) = true := by
  decide +kernel

end Jpeg
