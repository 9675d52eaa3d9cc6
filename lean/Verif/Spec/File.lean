import Verif.Spec.Output
import Verif.Spec.Api
/-! What the marker segments and the entropy coded data of a file have to look like. -/
namespace Jpeg.Spec
open _root_.Spec

/-- The run writes a file that a T.81 decoder accepts (`strict`: to the letter), and the file and what is decoded satisfy `Q`. -/
def Encodes (p : Prog (R Unit)) (strict : Bool) (Q : Bytes → Dec → Prop) : Prop :=
  ∃ bytes d, Writes p bytes ∧ decode strict bytes = some d ∧ Q bytes d

/-- `p` is a call of `encode` or `encode_image` on encoder `e` with an image of color type `ct` (as stored in the file), size `w`x`h` and
samples `P`: a slice with enough data in one of the pixel formats, or any image buffer that honours the contract of the trait. -/
inductive EncodeCall (pf : Platform) (simd : Bool) (e : Encoder) : Prog (R Unit) → JpegColorType → UInt16 → UInt16 → (Nat → Nat → Nat → UInt8) → Prop
  | data (data : Bytes) (w h : UInt16) (ct : ColorType) (hlen : w.toNat * h.toNat * ct.bytesPerPixel ≤ data.length) (hsl : SliceOk pf data) :
      EncodeCall pf simd e (e.encode pf simd data w h ct) (fileColor ct) w h (samplesOf ct data w.toNat)
  | image (image : ImageBuffer) (P : Nat → Nat → Nat → UInt8) (hd : Delivers image P) :
      EncodeCall pf simd e (e.encodeImage pf simd image) image.colorType image.width image.height P

/-! ### Entropy coded data -/

/-- The markers inside entropy coded data: what follows the 0xFF bytes, unless it is a stuffed zero. `none` if the data ends with an
0xFF byte. -/
def scanMarkers : List UInt8 → Option (List UInt8)
  | [] => some []
  | [b] => if b = 0xFF then none else some []
  | b :: c :: r =>
    if b = 0xFF then if c = 0 then scanMarkers r else (scanMarkers r).map (c :: ·)
    else scanMarkers (c :: r)

/-- `n` restart markers, counting cyclically from RST0. -/
def restartMarkers (n : Nat) : List UInt8 := (List.range n).map fun i => UInt8.ofNat (0xD0 + i % 8)

/-- Number of restart markers in a scan of `mcus` MCUs: one between any two restart intervals. -/
def restartCount (interval mcus : Nat) : Nat := if interval = 0 then 0 else _root_.Spec.ceilDiv mcus interval - 1

/-- No false markers: an 0xFF byte is followed by a zero byte or is the first byte of a restart marker. -/
def MarkerFree (data : List UInt8) : Prop :=
  ∀ i : Nat, data[i]? = some 0xFF → data[i + 1]? = some 0 ∨ ∃ k, k < 8 ∧ data[i + 1]? = some (UInt8.ofNat (0xD0 + k))

/-- Scans with the DC coefficients only, one per component. -/
def dcScans (cs : List FrameComp) : List Scan := cs.map fun c => ⟨[scanComp c], 0, 0⟩
/-- Scans with the coefficients of a band, one per component. -/
def acScans (cs : List FrameComp) (b : Nat × Nat) : List Scan := cs.map fun c => ⟨[scanComp c], b.1, b.2⟩

/-! ### Application segments -/

/-- The segments of an ICC profile: pieces of at most 65519 bytes. -/
def iccSegments (data : Bytes) : List (UInt8 × Bytes) :=
  (List.range (_root_.Spec.ceilDiv data.length 65519)).map fun j =>
    (2, iccSignature ++ UInt8.ofNat (j + 1) :: UInt8.ofNat (_root_.Spec.ceilDiv data.length 65519) :: (data.drop (65519 * j)).take 65519)

/-- The application segments a call adds; nothing if it reports an error. -/
def Call.segments : Call → List (UInt8 × Bytes)
  | .addAppSegment nr data => if 1 ≤ nr.toNat ∧ nr.toNat ≤ 15 ∧ data.length ≤ 65533 then [(nr, data)] else []
  | .addIccProfile data => if data.length ≤ 254 * 65519 then iccSegments data else []
  | _ => []

/-- The density in a JFIF segment (JFIF 1.02: signature, version, unit, two 16 bit densities, no thumbnail). Unit 0 with equal densities is no
density. -/
def readDensity : Bytes → Option Density
  | [0x4A, 0x46, 0x49, 0x46, 0, 1, _, unit, x1, x0, y1, y0, 0, 0] =>
    let x := UInt16.ofNat (256 * x1.toNat + x0.toNat)
    let y := UInt16.ofNat (256 * y1.toNat + y0.toNat)
    if unit = 0 ∧ x = y then some .none
    else if unit = 1 then some (.inch x y)
    else if unit = 2 then some (.centimeter x y)
    else none
  | _ => none

/-- The colour transform of an Adobe segment (number 14, `Adobe`, version, two flag words, transform). -/
def adobeTransform (seg : Nat × Bytes) : Option UInt8 :=
  if seg.1 = 14 ∧ seg.2.take 5 = [0x41, 0x64, 0x6F, 0x62, 0x65] ∧ seg.2.length = 12 then seg.2[11]? else none

/-- Number of components of a color type. -/
def componentCount : JpegColorType → Nat
  | .luma => 1
  | .ycbcr => 3
  | .cmyk | .ycck => 4

/-- The transform a file of a color type needs: CMYK is not transformed (0), YCCK is (2); the others need no Adobe segment. -/
def wantedTransform : JpegColorType → Option UInt8
  | .cmyk => some 0
  | .ycck => some 2
  | _ => none

/-- Every component consists of equal samples. -/
def Uniform (ct : JpegColorType) (w h : UInt16) (P : Nat → Nat → Nat → UInt8) : Prop :=
  ∀ c, c < componentCount ct → ∀ y x, y < h.toNat → x < w.toNat → P c y x = P c 0 0

end Jpeg.Spec
