import Verif.Model.Encoder
import Verif.Spec.Jpeg
/-! The unit tests of the repository, run on the model. These are tests of the model (does it compute what the code computes?), not of the properties. The
expected values are those in /repo; in the repository the tests pass. -/
namespace Jpeg.Conformance

/-- Result of a computation that may panic. -/
def okEq {α : Type} [DecidableEq α] (r : R α) (v : α) : Bool :=
  match r with
  | .ok a => decide (a = v)
  | .error _ => false

/-- src/image_buffer.rs:303-401 `test_rgb_to_ycbcr`: inputs and expected results. -/
def colors : List ((UInt8 × UInt8 × UInt8) × (UInt8 × UInt8 × UInt8)) :=
    [((0, 0, 0), (0, 128, 128)), ((255, 255, 255), (255, 128, 128)), ((255, 0, 0), (76, 85, 255)), ((0, 255, 0), (150, 44, 21)), ((0, 0, 255), (29,
    255, 107)), ((59, 109, 6), (82, 85, 111)), ((29, 60, 11), (45, 109, 116)), ((57, 114, 26), (87, 94, 107)), ((30, 60, 6), (45, 106, 117)), ((41,
    75, 11), (58, 102, 116)), ((145, 184, 108), (164, 97, 115)), ((33, 85, 7), (61, 98, 108)), ((61, 90, 40), (76, 108, 118)), ((75, 127, 45), (102,
    96, 109)), ((30, 56, 14), (43, 111, 118)), ((106, 142, 81), (124, 104, 115)), ((35, 59, 11), (46, 108, 120)), ((170, 203, 123), (184, 94, 118)),
    ((45, 87, 16), (66, 100, 113)), ((59, 109, 21), (84, 92, 110)), ((100, 167, 36), (132, 74, 105)), ((17, 53, 5), (37, 110, 114)), ((226, 244,
    220), (236, 119, 121)), ((192, 214, 120), (197, 85, 125)), ((63, 107, 22), (84, 93, 113)), ((44, 78, 19), (61, 104, 116)), ((72, 106, 54), (90,
    108, 115)), ((99, 123, 73), (110, 107, 120)), ((188, 216, 148), (200, 99, 120)), ((19, 46, 7), (33, 113, 118)), ((56, 95, 40), (77, 107, 113)),
    ((81, 120, 56), (101, 103, 114)), ((9, 30, 0), (20, 117, 120)), ((90, 118, 46), (101, 97, 120)), ((24, 52, 0), (38, 107, 118)), ((32, 69, 9),
    (51, 104, 114)), ((74, 134, 33), (105, 88, 106)), ((37, 74, 7), (55, 101, 115)), ((69, 119, 31), (94, 92, 110)), ((63, 112, 21), (87, 91, 111)),
    ((90, 148, 17), (116, 72, 110)), ((50, 97, 30), (75, 102, 110)), ((99, 129, 72), (114, 105, 118)), ((161, 196, 57), (170, 64, 122)), ((10, 26,
    1), (18, 118, 122)), ((87, 128, 68), (109, 105, 112)), ((111, 155, 73), (132, 94, 113)), ((33, 75, 11), (55, 103, 112)), ((70, 122, 51), (98,
    101, 108)), ((22, 74, 3), (50, 101, 108)), ((88, 142, 45), (115, 89, 109)), ((66, 107, 40), (87, 101, 113)), ((18, 45, 0), (32, 110, 118)),
    ((163, 186, 88), (168, 83, 124)), ((47, 104, 4), (76, 88, 108)), ((147, 211, 114), (181, 90, 104)), ((42, 77, 18), (60, 104, 115)), ((37, 72, 6),
    (54, 101, 116)), ((84, 140, 55), (114, 95, 107)), ((46, 98, 25), (74, 100, 108)), ((48, 97, 20), (74, 98, 110)), ((189, 224, 156), (206, 100,
    116)), ((36, 83, 0), (59, 94, 111)), ((159, 186, 114), (170, 97, 120)), ((75, 118, 46), (97, 99, 112)), ((193, 233, 158), (212, 97, 114)), ((76,
    116, 48), (96, 101, 114)), ((108, 157, 79), (133, 97, 110)), ((180, 208, 155), (194, 106, 118)), ((74, 126, 53), (102, 100, 108)), ((72, 123,
    46), (99, 98, 109)), ((71, 123, 34), (97, 92, 109)), ((130, 184, 72), (155, 81, 110)), ((30, 61, 17), (47, 111, 116)), ((27, 71, 0), (50, 100,
    112)), ((45, 73, 24), (59, 108, 118)), ((139, 175, 93), (155, 93, 117)), ((11, 38, 0), (26, 114, 118)), ((34, 87, 15), (63, 101, 107)), ((43, 76,
    35), (61, 113, 115)), ((18, 35, 7), (27, 117, 122)), ((69, 97, 48), (83, 108, 118)), ((139, 176, 50), (151, 71, 120)), ((21, 51, 7), (37, 111,
    117)), ((209, 249, 189), (230, 105, 113)), ((32, 66, 14), (50, 108, 115)), ((100, 143, 67), (121, 97, 113)), ((40, 96, 14), (70, 96, 107)), ((88,
    130, 64), (110, 102, 112)), ((52, 112, 14), (83, 89, 106)), ((49, 72, 25), (60, 108, 120)), ((144, 193, 75), (165, 77, 113)), ((49, 94, 1), (70,
    89, 113))]

example : ∀ t ∈ colors, okEq (rgbToYcbcr ⟨true, 8⟩ t.1.1 t.1.2.1 t.1.2.2) t.2 = true := by decide +kernel

/-- src/fdct.rs:251-257 -/
def input1 : List Int :=
    [-70, -71, -70, -68, -67, -67, -67, -67, -72, -73, -72, -70, -69, -69, -68, -69, -75, -76, -74, -73, -73, -72, -71, -70, -77, -78, -77, -75, -76,
    -75, -73, -71, -78, -77, -77, -76, -79, -77, -76, -75, -78, -78, -77, -77, -77, -77, -78, -77, -79, -79, -78, -78, -78, -78, -79, -78, -80, -79,
    -78, -78, -81, -80, -78, -76]
/-- src/fdct.rs:259-264 -/
def output1 : List Int :=
    [-4786, -66, 2, -18, 12, 12, 5, -7, 223, -37, -8, 21, 8, 5, -4, 6, 60, 6, -10, 5, 0, -2, -1, 5, 21, 21, -15, 12, -2, -7, 1, 0, -2, -5, 16, -15,
    0, 5, -4, -8, 0, -7, -4, 6, 7, -4, 5, 4, 3, 0, 1, -5, 0, -1, 4, 1, -5, 7, 0, -3, -6, 1, 1, -4]
/-- src/fdct.rs:266-272 -/
def input2 : List Int :=
    [21, 28, 11, 24, -45, -37, -55, -103, 38, -8, 31, 17, -19, 49, 15, -76, 22, -48, -36, -31, -23, 35, -23, -72, 13, -30, -45, -42, -44, -15, -20,
    -44, 13, -30, -45, -42, -44, -15, -20, -44, 13, -30, -45, -42, -44, -15, -20, -44, 13, -30, -45, -42, -44, -15, -20, -44, 13, -30, -45, -42, -44,
    -15, -20, -44]
/-- src/fdct.rs:274-280 -/
def output2 : List Int :=
    [-1420, 717, 187, 910, -244, 579, 222, -191, 461, 487, -497, -29, -220, 179, 63, -95, 213, 414, -235, -187, -108, 74, -73, -70, -63, 311, 13,
    -290, 17, -38, -180, -47, -254, 201, 116, -247, 102, -109, -185, -36, -310, 107, 73, -91, 126, -121, -99, -37, -253, 43, -15, 53, 101, -91, -3,
    -37, -136, 12, -44, 81, 53, -45, 31, -24]

-- src/fdct.rs:276-285 `test_fdct_libjpeg`
example : okEq (fdct ⟨true, 8⟩ input1) output1 = true := by decide +kernel
example : okEq (fdct ⟨true, 8⟩ input2) output2 = true := by decide +kernel
example : okEq (fdct ⟨false, 4⟩ input1) output1 = true := by decide +kernel

-- src/quantization.rs:315-329 `test_new_100`
example : ∀ luma, ((QuantizationTable.newWithQuality .default 100 luma).toOption.map (·.table)) = some (List.replicate 64 (1 <<< 3)) := by decide +kernel

-- src/quantization.rs:332-338 `test_new_100_quantize`
example : ∀ i : Nat, i < 510 → okEq (do
    let q ← QuantizationTable.newWithQuality .default 100 true
    q.quantize ⟨true, 8⟩ (8 * ((i : Int) - 255)) 0) ((i : Int) - 255) = true := by decide +kernel

-- src/encoder.rs:1259-1273 `test_get_num_bits` (for all values: C39)
example : ∀ i : Nat, i < 2 ^ 8 → (do
    let n ← getNumBits ⟨true, 8⟩ (64 * (i : Int) - 2 ^ 13 + 17)
    let c ← getCode ⟨true, 8⟩ (64 * (i : Int) - 2 ^ 13 + 17)
    .ok (decide (n = c.1))).toOption = some true := by decide +kernel

-- src/encoder.rs:1276-1293 `sampling_factors`
example : [SamplingFactor.F_1_1, .F_2_1, .F_1_2, .F_2_2, .F_4_1, .F_4_2, .F_1_4, .F_2_4, .R_4_4_4, .R_4_4_0, .R_4_4_1, .R_4_2_2, .R_4_2_0, .R_4_2_1,
    .R_4_1_1, .R_4_1_0].map SamplingFactor.factors =
  [(1, 1), (2, 1), (1, 2), (2, 2), (4, 1), (4, 2), (1, 4), (2, 4), (1, 1), (1, 2), (1, 4), (2, 1), (2, 2), (2, 4), (4, 1), (4, 2)] := by decide

-- src/encoder.rs:1296-1303 `test_set_progressive`
example : (Encoder.new ⟨true, 8⟩ 100).toOption.map (fun e => ((e.setProgressive true).getProgressiveScans,
    ((e.setProgressive true).setProgressive false).getProgressiveScans)) = some (some 4, none) := by decide +kernel

/-- src/lib.rs:519-530 `test_rgb_optimized_missing_table_frequency`: what is written, and whether the result is `Ok`. -/
def onePixel : Option (Bytes × Bool) := do
  let e ← (Encoder.new ⟨true, 8⟩ 100).toOption
  let e := (e.setSamplingFactor .F_2_2).setOptimizedHuffmanTables true
  let r := (e.encode ⟨true, 8⟩ false [0xfb, 0x15, 0x15] 1 1 .rgb).run vecSink []
  some (r.1, r.2.toOption.isSome)

-- `unwrap` does not panic, and the file decodes; all steps are 1 and the color of the pixel is (90, 89, 243) in YCbCr (8 * (90 - 128) = -304 and so on)
example : onePixel.map (·.2) = some true ∧
    ((onePixel.bind fun r => Spec.decode true r.1).map fun d => (d.coefs 0 0 0 0, d.coefs 1 0 0 0, d.coefs 2 0 0 0)) = some (-304, -312, 920) := by
  decide +kernel

end Jpeg.Conformance
