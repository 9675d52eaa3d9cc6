import Verif.Spec.Rgb
/-! Inks of CMYK images and their reconstruction. -/
namespace Jpeg.Spec

/-- Ink `c` (cyan, magenta, yellow, black) of the pixel at line `y`, column `x` of CMYK data with `w` columns. -/
def inkAt (data : Bytes) (w y x c : Nat) : UInt8 := data.getD ((y * w + x) * 4 + c) 0

/-- Amount of ink `c` in a file with four components that has an Adobe segment: such files contain the inks inverted (0 is full ink). With transform 0
the components are the inverted inks. With transform 2 the first three components are Y, Cb, Cr of the RGB colour that is the complement of
the inverted inks C, M and Y, so this conversion gives the amount of ink at once. -/
noncomputable def adobeInk (transform : UInt8) (sample : Nat → ℝ) (c : Nat) : ℝ :=
  if transform = 2 then
    match c with
    | 0 => 255 - (255 - _root_.Spec.jfifRed (sample 0) (sample 2))
    | 1 => 255 - (255 - _root_.Spec.jfifGreen (sample 0) (sample 1) (sample 2))
    | 2 => 255 - (255 - _root_.Spec.jfifBlue (sample 0) (sample 1))
    | _ => 255 - sample 3
  else 255 - sample c

end Jpeg.Spec
