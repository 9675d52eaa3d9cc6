import Verif.Spec.Jpeg
/-! A reader that finds the end of a JPEG image in a stream without decoding it (as players of motion JPEG and file carvers do):
it skips marker segments by their length, and entropy coded data up to the next marker that is not a restart marker. -/
namespace Spec

/-- From inside entropy coded data to the next marker other than RST0 - RST7. -/
def skipEntropy : List UInt8 → Option (List UInt8)
  | [] => none
  | [_] => none
  | b :: c :: r =>
    if b = 0xFF then if c = 0 ∨ (0xD0 ≤ c ∧ c ≤ 0xD7) then skipEntropy r else some (b :: c :: r)
    else skipEntropy (c :: r)

/-- From a marker to what follows EOI. -/
def skipSegments : (fuel : Nat) → List UInt8 → Option (List UInt8)
  | fuel + 1, 0xFF :: m :: rest =>
    if m = 0xD9 then some rest
    else
      match rest with
      | l1 :: l0 :: rest =>
        let len := 256 * l1.toNat + l0.toNat
        if len < 2 ∨ rest.length < len - 2 then none
        else if m = 0xDA then (skipEntropy (rest.drop (len - 2))).bind (skipSegments fuel)
        else skipSegments fuel (rest.drop (len - 2))
      | _ => none
  | _, _ => none

/-- What follows the image at the beginning of `stream`; `none` if there is no complete image. -/
def afterImage (stream : List UInt8) : Option (List UInt8) :=
  match stream with
  | 0xFF :: 0xD8 :: rest => skipSegments rest.length rest
  | _ => none

/-- The images in a stream, and what is left when there is no further image. -/
def splitImages : (fuel : Nat) → List UInt8 → List (List UInt8) × List UInt8
  | 0, s => ([], s)
  | fuel + 1, s =>
    match afterImage s with
    | none => ([], s)
    | some rest =>
      let (images, left) := splitImages fuel rest
      (s.take (s.length - rest.length) :: images, left)

end Spec
