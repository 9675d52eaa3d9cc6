import Verif.Model.Encoder
/-! C16: the length check on 32 bit release builds (kernel-evaluated counterexamples). -/
namespace Jpeg

/-- 32 bit release build: an empty slice for a 32768x32768 RGBA image is not rejected with `BadImageData`. Without
SIMD the encoder writes the headers and then panics on a slice index ... -/
theorem C16_false : (Encoder.new ⟨false, 4⟩ 90).map (fun e =>
      let r := (e.encode ⟨false, 4⟩ false [] 32768 32768 .rgba).run vecSink []
      (r.2, decide (600 < r.1.length))) = .ok (.error (.panic .index), true) := by
  decide +kernel

/-- ... and with SIMD it reads outside the slice (undefined behaviour). -/
theorem C16_false_simd : (Encoder.new ⟨false, 4⟩ 90).map (fun e =>
      ((e.encode ⟨false, 4⟩ true [] 32768 32768 .rgba).run vecSink []).2) = .ok (.error (.panic .ub)) := by
  decide +kernel

end Jpeg
