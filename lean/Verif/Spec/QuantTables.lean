import Verif.Spec.Quant
import Verif.Model.Quantization
/-! The published quantisation tables (mozjpeg `jcparam.c`, which the crate documents as its source), row by row, and which of them a
`QuantizationTableType` stands for. -/
namespace Jpeg.Spec

/-- Custom, tuned for MS-SSIM (mozjpeg `jcparam.c`), luminance. -/
def msSsimLuma : List Nat :=
  [ 12,  17,  20,  21,  30,  34,  56,  63,
    18,  20,  20,  26,  28,  51,  61,  55,
    19,  20,  21,  26,  33,  58,  69,  55,
    26,  26,  26,  30,  46,  87,  86,  66,
    31,  33,  36,  40,  46,  96, 100,  73,
    40,  35,  46,  62,  81, 100, 111,  91,
    46,  66,  76,  86, 102, 121, 120, 101,
    68,  90,  90,  96, 113, 102, 105, 103]

/-- Custom, tuned for MS-SSIM (mozjpeg `jcparam.c`), chrominance. -/
def msSsimChroma : List Nat :=
  [  8,  12,  15,  15,  86,  96,  96,  98,
    13,  13,  15,  26,  90,  96,  99,  98,
    12,  15,  18,  96,  99,  99,  99,  99,
    17,  16,  90,  96,  99,  99,  99,  99,
    96,  96,  99,  99,  99,  99,  99,  99,
    99,  99,  99,  99,  99,  99,  99,  99,
    99,  99,  99,  99,  99,  99,  99,  99,
    99,  99,  99,  99,  99,  99,  99,  99]

/-- Custom, tuned for PSNR-HVS (mozjpeg `jcparam.c`), luminance. -/
def psnrHvsLuma : List Nat :=
  [  9,  10,  12,  14,  27,  32,  51,  62,
    11,  12,  14,  19,  27,  44,  59,  73,
    12,  14,  18,  25,  42,  59,  79,  78,
    17,  18,  25,  42,  61,  92,  87,  92,
    23,  28,  42,  75,  79, 112, 112,  99,
    40,  42,  59,  84,  88, 124, 132, 111,
    42,  64,  78,  95, 105, 126, 125,  99,
    70,  75, 100, 102, 116, 100, 107,  98]

/-- Custom, tuned for PSNR-HVS (mozjpeg `jcparam.c`), chrominance. -/
def psnrHvsChroma : List Nat :=
  [  9,  10,  17,  19,  62,  89,  91,  97,
    12,  13,  18,  29,  84,  91,  88,  98,
    14,  19,  29,  93,  95,  95,  98,  97,
    20,  26,  84,  88,  95,  95,  98,  94,
    26,  86,  91,  93,  97,  99,  98,  99,
    99, 100,  98,  99,  99,  99,  99,  99,
    99,  99,  99,  99,  99,  99,  99,  99,
    97,  97,  99,  99,  99,  99,  97,  99]

/-- ImageMagick table by N. Robidoux. -/
def imageMagickTable : List Nat :=
  [ 16,  16,  16,  18,  25,  37,  56,  85,
    16,  17,  20,  27,  34,  40,  53,  75,
    16,  20,  24,  31,  43,  62,  91, 135,
    18,  27,  31,  40,  53,  74, 106, 156,
    25,  34,  43,  53,  69,  94, 131, 189,
    37,  40,  62,  74,  94, 124, 169, 238,
    56,  53,  91, 106, 131, 169, 226, 311,
    85,  75, 135, 156, 189, 238, 311, 418]

/-- Relevance of human vision to JPEG-DCT compression (1992) Klein, Silverstein and Carney. -/
def kleinSilversteinCarneyTable : List Nat :=
  [ 10,  12,  14,  19,  26,  38,  57,  86,
    12,  18,  21,  28,  35,  41,  54,  76,
    14,  21,  25,  32,  44,  63,  92, 136,
    19,  28,  32,  41,  54,  75, 107, 157,
    26,  35,  44,  54,  70,  95, 132, 190,
    38,  41,  63,  75,  95, 125, 170, 239,
    57,  54,  92, 107, 132, 170, 227, 312,
    86,  76, 136, 157, 190, 239, 312, 419]

/-- DCTune perceptual optimization of compressed dental X-Rays (1997) Watson, Taylor, Borthwick. -/
def dentalXRaysTable : List Nat :=
  [  7,   8,  10,  14,  23,  44,  95, 241,
     8,   8,  11,  15,  25,  47, 102, 255,
    10,  11,  13,  19,  31,  58, 127, 255,
    14,  15,  19,  27,  44,  83, 181, 255,
    23,  25,  31,  44,  72, 136, 255, 255,
    44,  47,  58,  83, 136, 255, 255, 255,
    95, 102, 127, 181, 255, 255, 255, 255,
   241, 255, 255, 255, 255, 255, 255, 255]

/-- A visual detection model for DCT coefficient quantization (12/9/93) Ahumada, Watson, Peterson. -/
def visualDetectionModelTable : List Nat :=
  [ 15,  11,  11,  12,  15,  19,  25,  32,
    11,  13,  10,  10,  12,  15,  19,  24,
    11,  10,  14,  14,  16,  18,  22,  27,
    12,  10,  14,  18,  21,  24,  28,  33,
    15,  12,  16,  21,  26,  31,  36,  42,
    19,  15,  18,  24,  31,  38,  45,  53,
    25,  19,  22,  28,  36,  45,  55,  65,
    32,  24,  27,  33,  42,  53,  65,  77]

/-- An improved detection model for DCT coefficient quantization (1993) Peterson, Ahumada and Watson. -/
def improvedDetectionModelTable : List Nat :=
  [ 14,  10,  11,  14,  19,  25,  34,  45,
    10,  11,  11,  12,  15,  20,  26,  33,
    11,  11,  15,  18,  21,  25,  31,  38,
    14,  12,  18,  24,  28,  33,  39,  47,
    19,  15,  21,  28,  36,  43,  51,  59,
    25,  20,  25,  33,  43,  54,  64,  74,
    34,  26,  31,  39,  51,  64,  77,  91,
    45,  33,  38,  47,  59,  74,  91, 108]

/-- The table a built-in type is documented to stand for (src/quantization.rs:8-38). -/
def builtinTable (luma : Bool) : QuantizationTableType → List Nat
  | .default => if luma then _root_.Spec.annexKLuma else _root_.Spec.annexKChroma
  | .flat => List.replicate 64 16
  | .customMsSsim => if luma then msSsimLuma else msSsimChroma
  | .customPsnrHvs => if luma then psnrHvsLuma else psnrHvsChroma
  | .imageMagick => imageMagickTable
  | .kleinSilversteinCarney => kleinSilversteinCarneyTable
  | .dentalXRays => dentalXRaysTable
  | .visualDetectionModel => visualDetectionModelTable
  | .improvedDetectionModel => improvedDetectionModelTable
  | .custom _ => []

/-- The quantisation step a type and quality stand for at position `z` (row order): the IJG rule for built-in types; custom values are used
as they are, but limited to 1..2048. -/
def wantedStep (type : QuantizationTableType) (quality : UInt8) (luma : Bool) (z : Nat) : Nat :=
  match type with
  | .custom t => _root_.Spec.clamp 1 2048 (t.toList.getD z 0).toNat
  | type => _root_.Spec.ijgStep quality.toNat ((builtinTable luma type).getD z 0)

end Jpeg.Spec
