import Verif.Spec.Image
/-! What the pixel formats of `encode` mean. -/
namespace Jpeg.Spec

/-- Component `c` (0: Y, 1: Cb, 2: Cr) of a colour: the coefficients 0.299, 0.587, 0.114 (and those of Cb and Cr) as multiples of
1/65536, rounded to the nearest integer. `C19_accuracy` compares this with the documented real formulas. -/
def ycc (r g b : UInt8) (c : Nat) : UInt8 :=
  let r : Int := r.toNat
  let g : Int := g.toNat
  let b : Int := b.toNat
  match c with
  | 0 => UInt8.ofInt ((19595 * r + 38470 * g + 7471 * b + 32767) / 65536)
  | 1 => UInt8.ofInt ((-11059 * r - 21709 * g + 32768 * b + 8388608 + 32767) / 65536)
  | _ => UInt8.ofInt ((32768 * r - 27439 * g - 5329 * b + 8388608 + 32767) / 65536)

/-- Sample of component `c` at line `y`, column `x` of an image of `w` columns given as `data` in pixel format `ct`. -/
def samplesOf (ct : ColorType) (data : Bytes) (w : Nat) (c y x : Nat) : UInt8 :=
  let byte (i : Nat) : UInt8 := data.getD ((y * w + x) * ct.bytesPerPixel + i) 0
  match ct with
  | .luma => byte 0
  | .rgb => ycc (byte 0) (byte 1) (byte 2) c
  | .rgba => ycc (byte 0) (byte 1) (byte 2) c
  | .bgr => ycc (byte 2) (byte 1) (byte 0) c
  | .bgra => ycc (byte 2) (byte 1) (byte 0) c
  | .ycbcr => byte c
  | .cmyk => 255 - byte c
  | .cmykAsYcck => if c = 3 then 255 - byte 3 else ycc (byte 0) (byte 1) (byte 2) c
  | .ycck => byte c

/-- The color type of the file for a pixel format. -/
def fileColor : ColorType → JpegColorType
  | .luma => .luma
  | .rgb | .rgba | .bgr | .bgra | .ycbcr => .ycbcr
  | .cmyk => .cmyk
  | .cmykAsYcck | .ycck => .ycck

end Jpeg.Spec
