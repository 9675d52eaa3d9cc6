import Verif.Model.Basic
/-! src/error.rs: messages and sources of errors. -/
namespace Jpeg

/-- src/error.rs:38-66 `Display for EncodingError`. `write!` with `{}` writes integers in decimal without sign or leading zeros, as `toString` on
`Nat` does. `io`: the message of the `std::io::Error` (`err.fmt(f)`). -/
def EncodingError.display : EncodingError → String
  | .invalidAppSegment nr => "Invalid app segment number: " ++ toString nr.toNat
  | .appSegmentTooLarge length => "App segment exceeds maximum allowed data length of 65533: " ++ toString length
  | .iccTooLarge length => "ICC profile exceeds maximum allowed data length: " ++ toString length
  | .badImageData length required =>
    "Image data too small for dimensions and color_type: " ++ toString length ++ " need at least " ++ toString required
  | .zeroImageDimensions width height => "Image dimensions must be non zero: " ++ toString width.toNat ++ "x" ++ toString height.toNat
  | .io msg => msg
  | .write msg => msg

/-- src/error.rs:68-76 `Error::source`: only `IoError` has one, the `std::io::Error`, known to the model by its message. -/
def EncodingError.source : EncodingError → Option String
  | .io msg => some msg
  | _ => none

end Jpeg
