import Verif.Spec.Api
import Verif.Proofs.Basic
/-! Properties C15, C16, C28 (first half), C33 (acceptance), C34 (segments), C37. -/
namespace Jpeg
open Spec

/-! ### C15 / C16: input validation -/

theorem requiredLen_eq {pf : Platform} {w h : UInt16} {ct : ColorType}
    (hfit : w.toNat * h.toNat * ct.bytesPerPixel < 2 ^ pf.wordBits) :
    requiredLen pf w h ct = .ok (w.toNat * h.toNat * ct.bytesPerPixel) := by
  have hb : 0 < ct.bytesPerPixel := by cases ct <;> simp [ColorType.bytesPerPixel]
  have h1 : w.toNat * h.toNat < 2 ^ pf.wordBits := lt_of_le_of_lt (Nat.le_mul_of_pos_right _ hb) hfit
  unfold requiredLen ckUsize
  rw [ckU_ok (Int.natCast_nonneg _) (by exact_mod_cast h1)]
  simp only [ok_bind, Int.toNat_natCast]
  rw [ckU_ok (Int.natCast_nonneg _) (by exact_mod_cast hfit), Int.toNat_natCast]

/-- Too little data: `BadImageData` with both lengths, the writer is not touched. `hfit` always holds on
64 bit targets (`C15_fits_64`). -/
theorem C15_short_data_rejected {σ : Type} (pf : Platform) (simd : Bool) (e : Encoder) (data : Bytes) (w h : UInt16)
    (ct : ColorType) (hfit : w.toNat * h.toNat * ct.bytesPerPixel < 2 ^ pf.wordBits)
    (hshort : data.length < w.toNat * h.toNat * ct.bytesPerPixel) (S : Sink σ) (out : σ) :
    (e.encode pf simd data w h ct).run S out =
      (out, .error (.err (.badImageData data.length (w.toNat * h.toNat * ct.bytesPerPixel)))) := by
  unfold Encoder.encode
  rw [requiredLen_eq hfit]
  simp [hshort, Prog.run]

theorem C15_fits_64 (pf : Platform) (h64 : pf.wordBytes = 8) (w h : UInt16) (ct : ColorType) :
    w.toNat * h.toNat * ct.bytesPerPixel < 2 ^ pf.wordBits := by
  have hw : w.toNat ≤ 65535 := by have := w.toNat_lt; omega
  have hh : h.toNat ≤ 65535 := by have := h.toNat_lt; omega
  have hb : ct.bytesPerPixel ≤ 4 := by cases ct <;> simp [ColorType.bytesPerPixel]
  calc w.toNat * h.toNat * ct.bytesPerPixel ≤ 65535 * 65535 * 4 := by gcongr
    _ < 2 ^ pf.wordBits := by simp [Platform.wordBits, h64]

theorem imageFor_width (pf : Platform) (simd : Bool) (data : Bytes) (w h : UInt16) (ct : ColorType) :
    (imageFor pf simd data w h ct).width = w ∧ (imageFor pf simd data w h ct).height = h := by
  cases ct <;> cases simd <;> simp [imageFor, grayImage, rgbImage, rgbaImage, bgrImage, bgraImage, ycbcrImage,
    cmykImage, cmykAsYcckImage, ycckImage, Avx2.rgbImageAvx2, Avx2.rgbaImageAvx2, Avx2.bgrImageAvx2, Avx2.bgraImageAvx2]

/-- A custom image with a zero dimension is rejected, the writer is not touched. -/
theorem C15_zero_dimension_image {σ : Type} (pf : Platform) (simd : Bool) (e : Encoder) (image : ImageBuffer)
    (hz : image.width = 0 ∨ image.height = 0) (S : Sink σ) (out : σ) :
    (e.encodeImage pf simd image).run S out =
      (out, .error (.err (.zeroImageDimensions image.width image.height))) := by
  simp [Encoder.encodeImage, Encoder.encodeImageInternal, hz, WM.program, WM.lift, Prog.bind, Prog.run, Except.map]

/-- A zero width or height is rejected with `ZeroImageDimensions` whatever the data, the writer is not touched. -/
theorem C15_zero_dimension_rejected {σ : Type} (pf : Platform) (simd : Bool) (e : Encoder) (data : Bytes) (w h : UInt16)
    (ct : ColorType) (hz : w = 0 ∨ h = 0) (S : Sink σ) (out : σ) :
    (e.encode pf simd data w h ct).run S out = (out, .error (.err (.zeroImageDimensions w h))) := by
  have h0 : w.toNat * h.toNat * ct.bytesPerPixel = 0 := by
    rcases hz with h | h <;> simp [h]
  unfold Encoder.encode
  rw [requiredLen_eq (by rw [h0]; positivity)]
  obtain ⟨hw, hh⟩ := imageFor_width pf simd data w h ct
  simp only [h0, Nat.not_lt_zero, if_false]
  rw [C15_zero_dimension_image pf simd e _ (by rw [hw, hh]; exact hz), hw, hh]

/-- Enough data and non-zero dimensions: `encode` is `encode_image` of the corresponding image buffer. -/
theorem C15_enough_data_accepted (pf : Platform) (simd : Bool) (e : Encoder) (data : Bytes) (w h : UInt16)
    (ct : ColorType) (hfit : w.toNat * h.toNat * ct.bytesPerPixel < 2 ^ pf.wordBits)
    (hlen : w.toNat * h.toNat * ct.bytesPerPixel ≤ data.length) :
    e.encode pf simd data w h ct = e.encodeImage pf simd (imageFor pf simd data w h ct) := by
  unfold Encoder.encode
  rw [requiredLen_eq hfit]
  simp [Nat.not_lt.mpr hlen]

example : ((3 : UInt16).toNat * (2 : UInt16).toNat * ColorType.rgb.bytesPerPixel < 2 ^ (Platform.mk true 8).wordBits) ∧
    (List.replicate 17 (0 : UInt8)).length < (3 : UInt16).toNat * (2 : UInt16).toNat * ColorType.rgb.bytesPerPixel := by
  decide

/-- 32 bit targets: the length check works when the required length fits in 32 bits. For the remaining sizes see `C16_overflow`. -/
theorem C16_short_data_rejected {σ : Type} (checked simd : Bool) (e : Encoder) (data : Bytes) (w h : UInt16)
    (ct : ColorType) (hfit : w.toNat * h.toNat * ct.bytesPerPixel < 4294967296)
    (hshort : data.length < w.toNat * h.toNat * ct.bytesPerPixel) (S : Sink σ) (out : σ) :
    (e.encode ⟨checked, 4⟩ simd data w h ct).run S out =
      (out, .error (.err (.badImageData data.length (w.toNat * h.toNat * ct.bytesPerPixel)))) :=
  C15_short_data_rejected _ simd e data w h ct (by simpa [Platform.wordBits] using hfit) hshort S out

theorem ckU_big (checked : Bool) {n : Nat} (h : 4294967296 ≤ n) :
    ckU ⟨checked, 4⟩ 32 (n : Int) = if checked then .error (.panic .overflow) else .ok (n % 4294967296) := by
  unfold ckU
  rw [if_neg (by omega)]
  have h3 : ((n : Int) % 2 ^ 32).toNat = n % 4294967296 := by omega
  rw [h3]

theorem requiredLen_big (checked : Bool) {w h : UInt16} {ct : ColorType} (hbig : 4294967296 ≤ w.toNat * h.toNat * ct.bytesPerPixel) :
    requiredLen ⟨checked, 4⟩ w h ct = if checked then .error (.panic .overflow) else .ok (w.toNat * h.toNat * ct.bytesPerPixel % 4294967296) := by
  have hw : w.toNat ≤ 65535 := by have := w.toNat_lt; omega
  have hh : h.toNat ≤ 65535 := by have := h.toNat_lt; omega
  have hwh : w.toNat * h.toNat ≤ 65535 * 65535 := by gcongr
  have h1 : ckU ⟨checked, 4⟩ 32 ((w.toNat * h.toNat : Nat) : Int) = .ok (w.toNat * h.toNat) := by
    generalize w.toNat * h.toNat = n at *
    rw [ckU_ok (Int.natCast_nonneg _) (by omega), Int.toNat_natCast]
  unfold requiredLen ckUsize
  rw [show Platform.wordBits ⟨checked, 4⟩ = 32 from rfl, h1]
  simp only [ok_bind]
  exact ckU_big checked hbig

/-- `encode` after the computation of the required length. -/
theorem encode_required {σ : Type} {pf : Platform} (simd : Bool) (e : Encoder) (data : Bytes) {w h : UInt16} {ct : ColorType} (b : Bool) {n : Nat}
    (hr : requiredLen pf w h ct = if b then .error (.panic .overflow) else .ok n) (S : Sink σ) (out : σ) :
    (e.encode pf simd data w h ct).run S out = if b then (out, .error (.panic .overflow))
      else if data.length < n then (out, .error (.err (.badImageData data.length n)))
      else (e.encodeImage pf simd (imageFor pf simd data w h ct)).run S out := by
  unfold Encoder.encode
  rw [hr]
  cases b
  · simp only [Bool.false_eq_true, if_false]
    split <;> rfl
  · rfl

/-- 32 bit targets, required lengths of 2^32 and more, all of them: debug builds panic at once; release builds compare with the remainder
modulo 2^32 only, so that slices that are too short are accepted (or rejected with a wrong length in the message). -/
theorem C16_overflow {σ : Type} (checked simd : Bool) (e : Encoder) (data : Bytes) (w h : UInt16)
    (ct : ColorType) (hbig : 4294967296 ≤ w.toNat * h.toNat * ct.bytesPerPixel) (S : Sink σ) (out : σ) :
    (e.encode ⟨checked, 4⟩ simd data w h ct).run S out =
      if checked then (out, .error (.panic .overflow))
      else if data.length < w.toNat * h.toNat * ct.bytesPerPixel % 4294967296 then
        (out, .error (.err (.badImageData data.length (w.toNat * h.toNat * ct.bytesPerPixel % 4294967296))))
      else (e.encodeImage ⟨checked, 4⟩ simd (imageFor ⟨checked, 4⟩ simd data w h ct)).run S out := by
  exact encode_required simd e data checked (requiredLen_big checked hbig) S out

-- such sizes exist: 32768 x 32768 RGBA
example : 4294967296 ≤ (32768 : UInt16).toNat * (32768 : UInt16).toNat * ColorType.rgba.bytesPerPixel := by decide

/-! ### C28: sampling factors -/

/-- `from_factors` accepts exactly the eight supported pairs and returns a variant with these factors. -/
theorem C28_from_factors (h v : UInt8) :
    ((∃ s, SamplingFactor.fromFactors h v = some s) ↔
      (h.toNat, v.toNat) ∈ [(1, 1), (1, 2), (1, 4), (2, 1), (2, 2), (2, 4), (4, 1), (4, 2)]) ∧
    ∀ s, SamplingFactor.fromFactors h v = some s → s.factors = (h.toNat, v.toNat) := by
  unfold SamplingFactor.fromFactors
  split <;> (constructor <;> simp_all [SamplingFactor.factors, SamplingFactor.toU8])

/-! ### C33: which app segments are accepted -/

/-- `add_app_segment` accepts exactly numbers 1..15 with at most 65533 bytes; then it appends the
segment and changes nothing else. -/
theorem C33_add_app_segment_ok (e e' : Encoder) (nr : UInt8) (data : Bytes) :
    e.addAppSegment nr data = .ok e' ↔
      (1 ≤ nr.toNat ∧ nr.toNat ≤ 15 ∧ data.length ≤ 65533) ∧
      e' = { e with appSegments := e.appSegments ++ [(nr, data)] } := by
  have h0 : nr = 0 ↔ nr.toNat = 0 := by rw [← UInt8.toNat_inj]; simp
  have h1 : nr > 15 ↔ nr.toNat > 15 := by rw [gt_iff_lt, UInt8.lt_iff_toNat_lt]; simp
  unfold Encoder.addAppSegment
  simp only [h0, h1]
  split
  · constructor
    · intro h; cases h
    · rintro ⟨⟨a, b, c⟩, _⟩; omega
  · split
    · constructor
      · intro h; cases h
      · rintro ⟨⟨a, b, c⟩, _⟩; omega
    · constructor
      · intro h; cases h; refine ⟨by omega, rfl⟩
      · rintro ⟨_, rfl⟩; rfl

/-- The documented errors; the number is checked first. -/
theorem C33_add_app_segment_err (e : Encoder) (nr : UInt8) (data : Bytes) (f : Fail) :
    e.addAppSegment nr data = .error f ↔
      ((nr.toNat = 0 ∨ 15 < nr.toNat) ∧ f = .err (.invalidAppSegment nr)) ∨
      (1 ≤ nr.toNat ∧ nr.toNat ≤ 15 ∧ 65533 < data.length ∧ f = .err (.appSegmentTooLarge data.length)) := by
  have h0 : nr = 0 ↔ nr.toNat = 0 := by rw [← UInt8.toNat_inj]; simp
  have h1 : nr > 15 ↔ nr.toNat > 15 := by rw [gt_iff_lt, UInt8.lt_iff_toNat_lt]; simp
  unfold Encoder.addAppSegment
  simp only [h0, h1]
  split
  · rename_i h
    simp only [Except.error.injEq]
    constructor
    · rintro rfl; exact .inl ⟨h, rfl⟩
    · rintro (⟨_, rfl⟩ | ⟨a, b, _⟩)
      · rfl
      · omega
  · rename_i h
    split
    · rename_i h2
      simp only [Except.error.injEq]
      constructor
      · rintro rfl; exact .inr ⟨by omega, by omega, h2, rfl⟩
      · rintro (⟨a, _⟩ | ⟨_, _, _, rfl⟩)
        · omega
        · rfl
    · constructor
      · intro h; cases h
      · rintro (⟨a, _⟩ | ⟨_, _, _, _⟩) <;> omega

/-- The documentation allows 2^16-2 = 65534 bytes: false of the code. -/
theorem C33_documented_limit_false (e : Encoder) (data : Bytes) (h : data.length = 65534) :
    e.addAppSegment 1 data = .error (.err (.appSegmentTooLarge 65534)) := by
  rw [C33_add_app_segment_err]
  right
  refine ⟨by decide, by decide, by omega, by rw [h]⟩

/-! ### C34: ICC profiles -/

theorem max_chunk : MAX_CHUNK_LENGTH = 65519 := by
  norm_num [MAX_CHUNK_LENGTH]

theorem chunks_length {α : Type} (n : Nat) (l : List α) : (chunks n l).length = (l.length + n - 1) / n := by
  simp [chunks]

theorem chunks_flatten {α : Type} (n : Nat) (hn : 0 < n) (l : List α) : (chunks n l).flatten = l := by
  have key : ∀ k (l : List α), l.length ≤ k * n →
      ((List.range k).map fun i => (l.drop (i * n)).take n).flatten = l := by
    intro k
    induction k with
    | zero => intro l h; simp at h; simp [h]
    | succ k ih =>
      intro l h
      rw [List.range_succ_eq_map, List.map_cons, List.flatten_cons, List.map_map]
      have h2 : ((List.range k).map ((fun i => (l.drop (i * n)).take n) ∘ Nat.succ)) =
          (List.range k).map fun i => (((l.drop n).drop (i * n)).take n) := by
        apply List.map_congr_left
        intro i _
        simp only [Function.comp, List.drop_drop, Nat.succ_eq_add_one]
        congr 2
        ring
      rw [h2, ih (l.drop n) (by rw [List.length_drop]; rw [Nat.succ_mul] at h; omega)]
      simp
  apply key
  have := Nat.div_add_mod (l.length + n - 1) n
  have h2 := Nat.mod_lt (l.length + n - 1) hn
  rw [Nat.mul_comm]
  omega

theorem chunks_mem_length {α : Type} (n : Nat) (l c : List α) (h : c ∈ chunks n l) : c.length ≤ n := by
  simp only [chunks, List.mem_map] at h
  obtain ⟨i, _, rfl⟩ := h
  simp

theorem ceilDiv_eq {a b : Nat} (hb : 0 < b) : ceilDiv a b = .ok ((a + b - 1) / b) := by
  have hb' : b ≠ 0 := by omega
  simp only [ceilDiv, hb', if_false]
  congr 1
  have h1 := Nat.div_add_mod a b
  have h2 := Nat.mod_lt a hb
  split
  · rename_i h
    symm
    rw [Nat.div_eq_iff hb]
    constructor
    · rw [Nat.add_mul, Nat.mul_comm]; omega
    · rw [Nat.add_mul, Nat.mul_comm]; omega
  · rename_i h
    symm
    rw [Nat.div_eq_iff hb]
    constructor
    · rw [Nat.add_mul, Nat.mul_comm]; omega
    · rw [Nat.add_mul, Nat.mul_comm]; omega

theorem filterMap_mapIdx {α β γ : Type} (g : β → Option γ) (l : List α) (f : Nat → α → β) (k : Nat → α → γ)
    (h : ∀ j a, g (f j a) = some (k j a)) : (l.mapIdx f).filterMap g = l.mapIdx k := by
  induction l generalizing f k with
  | nil => rfl
  | cons x xs ih =>
    simp only [List.mapIdx_cons, List.filterMap_cons, h]
    rw [ih (fun i => f (i + 1)) (fun i => k (i + 1)) (fun j a => h (j + 1) a)]

/-- The segments `add_icc_profile` adds for the chunks `cs` (out of `n`), numbered from `i + 1`. -/
theorem iccLoop_ok (pf : Platform) (n : Nat) (cs : List Bytes) (i : Nat) (e : Encoder)
    (hlen : ∀ c ∈ cs, c.length ≤ 65519) (hi : i + cs.length ≤ 254) :
    iccLoop pf n cs i e = .ok { e with appSegments := (e.appSegments ++
      cs.mapIdx (fun j c => (2, iccSignature ++ u8 (i + j + 1) :: u8 n :: c))) } := by
  induction cs generalizing i e with
  | nil => simp [iccLoop]
  | cons c cs ih =>
    simp only [List.length_cons] at hi
    have hsig : ICC_MARKER = iccSignature := by decide
    have hc := hlen c (by simp)
    have hm : i % 256 = i := Nat.mod_eq_of_lt (by omega)
    simp only [iccLoop, hm]
    rw [ckU8_ok (by omega) (by omega)]
    simp only [ok_bind]
    rw [(C33_add_app_segment_ok _ _ _ _).mpr ⟨⟨by decide, by decide, ?_⟩, rfl⟩]
    · simp only [ok_bind]
      rw [ih _ _ (fun c' hc' => hlen c' (by simp [hc'])) (by omega)]
      simp only [Except.ok.injEq]
      congr 1
      have h3 : ((i : Int) + 1).toNat = i + 1 := by omega
      simp only [h3, hsig, List.mapIdx_cons, List.append_assoc, List.singleton_append, Nat.add_zero]
      congr 3
      funext j c
      rw [show i + 1 + j + 1 = i + (j + 1) + 1 by omega]
    · simp only [hsig, iccSignature, List.length_append, List.length_cons, List.length_nil]
      omega

/-- `add_icc_profile` of up to 254 chunks of 65519 bytes always succeeds and only appends app segments ... -/
theorem C34_icc_accepted (pf : Platform) (e : Encoder) (data : Bytes) (h : data.length ≤ 254 * 65519) :
    ∃ segs, e.addIccProfile pf data = .ok { e with appSegments := e.appSegments ++ segs } ∧
      (∀ s ∈ segs, s.1 = 2 ∧ s.2.length ≤ 65533) ∧
      (data = [] → segs = []) ∧
      -- ... from which the profile can be reassembled
      (data ≠ [] → iccProfile segs = some data) := by
  have hmax := max_chunk
  have hn : (data.length + 65519 - 1) / 65519 ≤ 254 := by omega
  refine ⟨(chunks 65519 data).mapIdx fun j c =>
    (2, iccSignature ++ u8 (0 + j + 1) :: u8 ((data.length + 65519 - 1) / 65519) :: c), ?_, ?_, ?_, ?_⟩
  · simp only [Encoder.addIccProfile, hmax]
    rw [ceilDiv_eq (by omega)]
    simp only [ok_bind]
    rw [if_neg (by omega)]
    have := iccLoop_ok pf ((data.length + 65519 - 1) / 65519) (chunks 65519 data) 0 e
      (fun c hc => chunks_mem_length _ _ _ hc) (by rw [chunks_length, Nat.zero_add]; exact hn)
    exact this
  · intro s hs
    obtain ⟨j, hj, rfl⟩ := List.mem_mapIdx.mp hs
    refine ⟨rfl, ?_⟩
    have := chunks_mem_length 65519 data _ (List.getElem_mem hj)
    simp only [iccSignature, List.cons_append, List.nil_append, List.length_cons]
    omega
  · intro hd; subst hd; simp [chunks]
  · intro hd
    have hpos : 0 < data.length := List.length_pos_iff.mpr hd
    set cs := chunks 65519 data with hcs
    have hcl : cs.length = (data.length + 65519 - 1) / 65519 := chunks_length _ _
    have hcpos : 0 < cs.length := by rw [hcl]; omega
    set n := (data.length + 65519 - 1) / 65519
    have hf : (cs.mapIdx fun j c => ((2 : UInt8), iccSignature ++ u8 (0 + j + 1) :: u8 n :: c)).filterMap iccChunk =
        cs.mapIdx fun j c => (u8 (j + 1), u8 n, c) := by
      apply filterMap_mapIdx
      intro j c
      simp [iccChunk, iccSignature]
    unfold iccProfile
    simp only [hf]
    rw [if_pos]
    · congr 1
      have : (cs.mapIdx fun j c => (u8 (j + 1), u8 n, c)).map (fun c => c.2.2) = cs := by
        apply List.ext_getElem
        · simp
        · intro k h1 h2; simp
      rw [this, hcs, chunks_flatten _ (by omega)]
    · refine ⟨?_, ?_⟩
      · intro h0
        have := congrArg List.length h0
        rw [List.length_mapIdx] at this
        simp only [List.length_nil] at this
        omega
      · apply List.ext_getElem
        · simp
        · intro k h1 h2
          simp only [List.length_map, List.length_mapIdx] at h1
          simp only [List.getElem_map, List.getElem_mapIdx, List.getElem_range, List.length_mapIdx]
          rw [u8_toNat (by omega), u8_toNat (by omega), hcl]

/-- Above that limit it fails with `IccTooLarge` (and, the model returning no new encoder, changes nothing). -/
theorem C34_icc_rejected (pf : Platform) (e : Encoder) (data : Bytes) (h : 254 * 65519 < data.length) :
    e.addIccProfile pf data = .error (.err (.iccTooLarge data.length)) := by
  have hmax := max_chunk
  simp only [Encoder.addIccProfile, hmax]
  rw [ceilDiv_eq (by omega)]
  simp only [ok_bind]
  rw [if_pos (by omega)]

/-- The documented limit of 16,707,345 bytes is not reached. -/
theorem C34_documented_limit_false (pf : Platform) (e : Encoder) (data : Bytes) (h : data.length = 16707345) :
    e.addIccProfile pf data = .error (.err (.iccTooLarge 16707345)) := by
  rw [← h]; exact C34_icc_rejected pf e data (by omega)

example : iccProfile [(1, [9]), (2, iccSignature ++ [1, 2, 10, 11]), (2, iccSignature ++ [2, 2, 12])] =
    some [10, 11, 12] := by decide

/-! ### C37: configuration history -/

/-- Effect of one API call in the model; an `Err` leaves the encoder as it was, a panic aborts. -/
def applyCall (pf : Platform) (e : Encoder) : Call → R Encoder
  | .setDensity d => .ok (e.setDensity d)
  | .setSamplingFactor s => .ok (e.setSamplingFactor s)
  | .setQuantizationTables l c => .ok (e.setQuantizationTables l c)
  | .setProgressive b => .ok (e.setProgressive b)
  | .setProgressiveScans n => e.setProgressiveScans n
  | .setRestartInterval n => .ok (e.setRestartInterval n)
  | .setOptimizedHuffmanTables b => .ok (e.setOptimizedHuffmanTables b)
  | .addAppSegment nr d =>
    match e.addAppSegment nr d with
    | .ok e' => .ok e'
    | .error (.err _) => .ok e
    | .error f => .error f
  | .addIccProfile d =>
    match e.addIccProfile pf d with
    | .ok e' => .ok e'
    | .error (.err _) => .ok e
    | .error f => .error f

/-- The settings part of an encoder after a history, as the specification wants it. -/
structure SettingsAre (e : Encoder) (q : UInt8) (h : List Call) : Prop where
  density : e.getDensity = latest wantDensity .none h
  sampling : e.getSamplingFactor = latest wantSampling (if q.toNat < 90 then .F_2_2 else .F_1_1) h
  quant : e.getQuantizationTables = latest wantQuant (.default, .default) h
  scans : e.getProgressiveScans = latest wantScans none h
  restart : e.getRestartInterval = latest wantRestart none h
  optimized : e.getOptimizedHuffmanTables = latest wantOptimized false h
  quality : e.quality = q

theorem latest_snoc {α : Type} (f : Call → Option α) (d : α) (h : List Call) (c : Call) :
    latest f d (h ++ [c]) = (f c).getD (latest f d h) := by
  unfold latest
  rw [List.reverse_append, List.reverse_singleton, List.singleton_append, List.filterMap_cons]
  cases f c <;> simp

theorem assert_decide (p : Prop) [Decidable p] : assert' (decide p) = if p then .ok () else .error (.panic .assert) := by
  by_cases h : p <;> simp [assert', h]

theorem applyCall_app (pf : Platform) (e : Encoder) (nr : UInt8) (d : Bytes) :
    ∃ segs, applyCall pf e (.addAppSegment nr d) = .ok { e with appSegments := segs } := by
  cases h : e.addAppSegment nr d with
  | ok e' =>
    refine ⟨e.appSegments ++ [(nr, d)], ?_⟩
    simp only [applyCall, h]
    rw [((C33_add_app_segment_ok e e' nr d).mp h).2]
  | error f =>
    refine ⟨e.appSegments, ?_⟩
    rcases (C33_add_app_segment_err e nr d f).mp h with ⟨_, rfl⟩ | ⟨_, _, _, rfl⟩ <;> simp only [applyCall, h]

theorem applyCall_icc (pf : Platform) (e : Encoder) (d : Bytes) :
    ∃ segs, applyCall pf e (.addIccProfile d) = .ok { e with appSegments := segs } := by
  by_cases h : d.length ≤ 254 * 65519
  · obtain ⟨segs, h1, _⟩ := C34_icc_accepted pf e d h
    exact ⟨e.appSegments ++ segs, by simp only [applyCall, h1]⟩
  · refine ⟨e.appSegments, ?_⟩
    simp only [applyCall, C34_icc_rejected pf e d (by omega)]

/-- One call: panics exactly when documented, otherwise the settings follow the specification. -/
theorem applyCall_spec (pf : Platform) (e : Encoder) (q : UInt8) (h : List Call) (c : Call) (hs : SettingsAre e q h) :
    if c.panics then applyCall pf e c = .error (.panic .assert)
    else ∃ e', applyCall pf e c = .ok e' ∧ SettingsAre e' q (h ++ [c]) := by
  obtain ⟨h1, h2, h3, h4, h5, h6, h7⟩ := hs
  cases c with
  | addAppSegment nr d =>
    obtain ⟨segs, hh⟩ := applyCall_app pf e nr d
    simp only [Call.panics, Bool.false_eq_true, if_false]
    refine ⟨_, hh, ?_⟩
    constructor <;> simp only [latest_snoc, wantDensity, wantSampling, wantQuant, wantScans, wantRestart,
      wantOptimized, Option.getD_none] <;> assumption
  | addIccProfile d =>
    obtain ⟨segs, hh⟩ := applyCall_icc pf e d
    simp only [Call.panics, Bool.false_eq_true, if_false]
    refine ⟨_, hh, ?_⟩
    constructor <;> simp only [latest_snoc, wantDensity, wantSampling, wantQuant, wantScans, wantRestart,
      wantOptimized, Option.getD_none] <;> assumption
  | setProgressiveScans n =>
    have hn : (2 ≤ n ∧ n ≤ 64) ↔ (2 ≤ n.toNat ∧ n.toNat ≤ 64) := by
      rw [UInt8.le_iff_toNat_le, UInt8.le_iff_toNat_le]; rfl
    by_cases hp : 2 ≤ n.toNat ∧ n.toNat ≤ 64
    · rw [if_neg (by simp [Call.panics, hp.1, hp.2])]
      refine ⟨{ e with progressiveScans := some n }, ?_, ?_⟩
      · simp only [applyCall, Encoder.setProgressiveScans, assert_decide, hn, hp, and_self, if_true, ok_bind]
      · constructor <;> simp only [latest_snoc, wantDensity, wantSampling, wantQuant, wantScans, wantRestart,
          wantOptimized, Option.getD_none, Option.getD_some] <;> first | rfl | assumption
    · rw [if_pos (by simp only [Call.panics]; simp; omega)]
      simp only [applyCall, Encoder.setProgressiveScans, assert_decide, hn, hp, if_false, error_bind]
  | setProgressive b =>
    simp only [Call.panics, Bool.false_eq_true, if_false, applyCall, Except.ok.injEq, exists_eq_left']
    cases b <;> constructor <;> (try simp only [latest_snoc, wantDensity, wantSampling, wantQuant, wantScans, wantRestart,
      wantOptimized, Option.getD_none, Option.getD_some]) <;> first | rfl | assumption
  | _ =>
    simp only [Call.panics, Bool.false_eq_true, if_false, applyCall, Except.ok.injEq, exists_eq_left']
    constructor <;> (try simp only [latest_snoc, wantDensity, wantSampling, wantQuant, wantScans, wantRestart,
      wantOptimized, Option.getD_none, Option.getD_some]) <;> first | rfl | assumption

/-- Every history of calls on a new encoder: it panics exactly if some `set_progressive_scans` is out of 2..=64,
otherwise every getter returns what the latest relevant call set (or the default). -/
theorem C37_history (pf : Platform) (q : UInt8) (e0 : Encoder) (h0 : Encoder.new pf q = .ok e0) (h : List Call) :
    if h.any Call.panics then forFoldR h e0 (applyCall pf) = .error (.panic .assert)
    else ∃ e, forFoldR h e0 (applyCall pf) = .ok e ∧ SettingsAre e q h := by
  have hinit : SettingsAre e0 q [] := by
    unfold Encoder.new at h0
    cases h1 : HuffmanTable.defaultLumaDc pf <;> simp only [h1, ok_bind, error_bind, reduceCtorEq] at h0
    cases h2 : HuffmanTable.defaultLumaAc pf <;> simp only [h2, ok_bind, error_bind, reduceCtorEq] at h0
    cases h3 : HuffmanTable.defaultChromaDc pf <;> simp only [h3, ok_bind, error_bind, reduceCtorEq] at h0
    cases h4 : HuffmanTable.defaultChromaAc pf <;> simp only [h4, ok_bind, error_bind, reduceCtorEq] at h0
    simp only [Except.ok.injEq] at h0
    subst h0
    have hq : q < 90 ↔ q.toNat < 90 := by rw [UInt8.lt_iff_toNat_lt]; rfl
    constructor <;> simp [Encoder.getDensity, Encoder.getSamplingFactor, Encoder.getQuantizationTables,
      Encoder.getProgressiveScans, Encoder.getRestartInterval, Encoder.getOptimizedHuffmanTables, latest, hq]
  have key : ∀ (h2 h1 : List Call) (e : Encoder), SettingsAre e q h1 →
      if h2.any Call.panics then forFoldR h2 e (applyCall pf) = .error (.panic .assert)
      else ∃ e', forFoldR h2 e (applyCall pf) = .ok e' ∧ SettingsAre e' q (h1 ++ h2) := by
    intro h2
    induction h2 with
    | nil => intro h1 e he; simpa [forFoldR] using he
    | cons c cs ih =>
      intro h1 e he
      have hc := applyCall_spec pf e q h1 c he
      by_cases hp : c.panics
      · rw [if_pos hp] at hc
        simp only [List.any_cons, hp, Bool.true_or, if_true, forFoldR, hc, error_bind']
      · rw [if_neg hp] at hc
        obtain ⟨e', he', hs'⟩ := hc
        have := ih (h1 ++ [c]) e' hs'
        simp only [List.any_cons, hp, Bool.false_or, forFoldR, he', ok_bind']
        simpa using this
  simpa using key h [] e0 hinit

example : latest wantScans none [.setProgressiveScans 7, .setRestartInterval 3, .setProgressive true,
    .setDensity .none] = some 4 := by decide

end Jpeg
