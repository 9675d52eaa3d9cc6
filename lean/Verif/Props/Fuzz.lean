import Verif.Model.Fuzz
import Verif.Props.File
import Verif.Props.Independence
/-! C80: the project's fuzz targets cannot find anything, whatever the input. -/
namespace Jpeg
open _root_.Spec

namespace Spec

/-- The width (and height) of the square images of the fuzz targets: the largest square of pixels of `bytes` bytes in `len` bytes. -/
def squareSide (bytes len : Nat) : Nat := Nat.sqrt (len / bytes)

/-- A fuzz target did not panic. It skips its input, or made a file that a T.81 decoder accepts, for a square image. -/
def FuzzFine (bytes len : Nat) (ct : JpegColorType) (progressive : Bool) (factors : Nat × Nat) (r : R (Option Bytes)) : Prop :=
  if squareSide bytes len = 0 ∨ 65535 ≤ squareSide bytes len then r = .ok none
  else ∃ file d w, r = .ok (some file) ∧ _root_.Spec.decode true file = some d ∧ w.toNat = squareSide bytes len ∧ HasFrame progressive factors ct w w d

end Spec

section
variable {pf : Platform} (hpf : pf.Valid) (simd : Bool) (data : Bytes) (hsl : Spec.SliceOk pf data)

theorem fuzzSide_nat (n : Nat) (h : Nat.sqrt n < 65536) : (fuzzSide n).toNat = Nat.sqrt n := by
  unfold fuzzSide
  rw [UInt16.toNat_ofNat', Nat.min_eq_right (by omega), Nat.mod_eq_of_lt (by simpa using h)]

theorem fuzzSide_iff (n : Nat) : (fuzzSide n > 0 ∧ fuzzSide n < 65535) ↔ ¬ (Nat.sqrt n = 0 ∨ 65535 ≤ Nat.sqrt n) := by
  rw [gt_iff_lt, UInt16.lt_iff_toNat_lt, UInt16.lt_iff_toNat_lt]
  by_cases h : Nat.sqrt n < 65536
  · rw [fuzzSide_nat n h, show (0 : UInt16).toNat = 0 from rfl, show (65535 : UInt16).toNat = 65535 from rfl]
    omega
  · have : (fuzzSide n).toNat = 65535 := by
      unfold fuzzSide
      rw [UInt16.toNat_ofNat', Nat.min_eq_left (by omega)]
    rw [this, show (0 : UInt16).toNat = 0 from rfl, show (65535 : UInt16).toNat = 65535 from rfl]
    omega

theorem side_bytes {bytes len : Nat} (hb : bytes ≠ 0) : Spec.squareSide bytes len * Spec.squareSide bytes len * bytes ≤ len :=
  le_trans (Nat.mul_le_mul_right _ (Nat.sqrt_le (len / bytes))) (Nat.div_mul_le_self _ _)

/-- What a target does with an image of at least one pixel. -/
theorem fuzzWith_run {q : UInt8} {configure : Encoder → Encoder} {bytes : Nat} {ct : ColorType} (hb : bytes ≠ 0) {e0 : Encoder} (h0 : Encoder.new pf q = .ok e0)
    (hside : ¬ (Spec.squareSide bytes data.length = 0 ∨ 65535 ≤ Spec.squareSide bytes data.length)) {file : Bytes}
    (hw : Spec.Writes ((configure e0).encode pf simd data (fuzzSide (data.length / bytes)) (fuzzSide (data.length / bytes)) ct) file) :
    fuzzWith pf simd q configure bytes ct data = .ok (some file) := by
  have h := (fuzzSide_iff (data.length / bytes)).mpr hside
  unfold fuzzWith
  simp only [h0, ok_bind, hw [], List.nil_append, unwrapFile]
  rw [if_pos ⟨h.1, h.2, h.1, h.2⟩]

theorem fuzzWith_skip {q : UInt8} {configure : Encoder → Encoder} {bytes : Nat} {ct : ColorType}
    (hside : Spec.squareSide bytes data.length = 0 ∨ 65535 ≤ Spec.squareSide bytes data.length) : fuzzWith pf simd q configure bytes ct data = .ok none := by
  have h := (fuzzSide_iff (data.length / bytes)).not.mpr (not_not_intro hside)
  unfold fuzzWith
  simp only []
  rw [if_neg (fun hh => h ⟨hh.1, hh.2.1⟩)]

include hpf hsl in
/-- The targets whose encoder can cope with the image. -/
theorem fuzz_fine {q : UInt8} {configure : Encoder → Encoder} {calls : List Spec.Call} {ct : ColorType}
    (hcall : ∀ e0, forFoldR calls e0 (applyCall pf) = .ok (configure e0))
    (h8 : Spec.EightBit (Spec.latest Spec.wantQuant (.default, .default) calls)) (h33 : ∀ n, Spec.latest Spec.wantScans none calls = some n → n.toNat ≤ 33)
    (hs : ∀ e (w : UInt16), Configured pf q calls e → SettingsAre e q calls → w ≠ 0 → w.toNat = Spec.squareSide ct.bytesPerPixel data.length →
      Spec.Supported pf simd e (Spec.fileColor ct) w w (Spec.samplesOf ct data w.toNat)) {progressive : Bool} {factors : Nat × Nat}
    (hpr : (Spec.latest Spec.wantScans none calls).isSome = progressive)
    (hfa : (Spec.latest Spec.wantSampling (if q.toNat < 90 then .F_2_2 else .F_1_1) calls).factors = factors) :
    Spec.FuzzFine ct.bytesPerPixel data.length (Spec.fileColor ct) progressive factors (fuzzWith pf simd q configure ct.bytesPerPixel ct data) := by
  have hb : ct.bytesPerPixel ≠ 0 := by cases ct <;> decide
  unfold Spec.FuzzFine
  split
  · rename_i h
    exact fuzzWith_skip simd data h
  · rename_i h
    obtain ⟨t0, t1, f0, f1, hn⟩ := encoder_new_ok q
    obtain ⟨e0, h0⟩ : ∃ e0, Encoder.new pf q = .ok e0 := ⟨_, hn pf⟩
    have hc : Configured pf q calls (configure e0) := ⟨_, h0, hcall _⟩
    have hw : (fuzzSide (data.length / ct.bytesPerPixel)).toNat = Spec.squareSide ct.bytesPerPixel data.length :=
      fuzzSide_nat _ (by unfold Spec.squareSide at h; omega)
    have hset := hc.settings.1
    have hsup := hs _ _ hc hset (fun h0 => h (Or.inl (by rw [← hw, h0]; rfl))) hw
    have hpc := Spec.EncodeCall.data (pf := pf) (simd := simd) (e := configure e0) data (fuzzSide (data.length / ct.bytesPerPixel)) (fuzzSide (data.length / ct.bytesPerPixel)) ct
      (by rw [hw]; exact side_bytes hb) hsl
    obtain ⟨file, d, w1, w2, w3⟩ := C32_frame_header hpf hc hpc hsup (by rw [hset.quant]; exact h8) (strict := true)
      (fun _ n hn => h33 n (by rw [← hset.scans]; exact hn))
    refine ⟨file, d, _, fuzzWith_run simd data hb h0 h w1, w2, hw, ?_⟩
    have := w3.2.2.2
    rwa [hset.scans, hset.sampling, hpr, hfa] at this

/-! Sizes: a slice has less than 2^31 bytes on 32 bit targets, so its pixels also fit into memory after padding. -/

theorem padded_lt {s len bytes m n : Nat} (hm : m ≤ 32) (hn : n ≤ 32) (hb : 3 ≤ bytes) (h : s * s * bytes ≤ len) (hl : len < 2 ^ 31) :
    (s + m - 1) / m * m * ((s + n - 1) / n * n) * 2 < 2 ^ 31 := by
  have h1 : (s + m - 1) / m * m ≤ s + 31 := le_trans (Nat.div_mul_le_self _ _) (by omega)
  have h1' : (s + n - 1) / n * n ≤ s + 31 := le_trans (Nat.div_mul_le_self _ _) (by omega)
  have h2 : s * s * 3 ≤ len := le_trans (Nat.mul_le_mul_left _ hb) h
  have h3 : s ≤ 26754 := by
    by_contra hc
    have := Nat.mul_le_mul (show 26755 ≤ s by omega) (show 26755 ≤ s by omega)
    omega
  have h4 := Nat.mul_le_mul (le_trans h1 (Nat.add_le_add_right h3 31)) (le_trans h1' (Nat.add_le_add_right h3 31))
  omega

theorem fuzz_memory (hpf : pf.Valid) (hsl : Spec.SliceOk pf data) {f : Frame} {bytes : Nat} (hb : 3 ≤ bytes)
    (hh : f.hmax ≤ 4) (hv : f.vmax ≤ 4) (hw : f.width = Spec.squareSide bytes data.length) (he : f.height = Spec.squareSide bytes data.length) :
    pf.wordBytes = 8 ∨ Spec.paddedSamples f * 2 < 2 ^ 31 := by
  rcases hpf with h4 | h8
  · right
    have hl : data.length < 2 ^ 31 := by simpa [Spec.SliceOk, Platform.wordBits, h4] using hsl
    unfold Spec.paddedSamples Frame.mcusWide Frame.mcusHigh
    rw [hw, he]
    exact padded_lt (by omega) (by omega) hb (side_bytes (by omega)) hl
  · exact Or.inl h8

theorem blocks_22 {n : Nat} (h : n ≤ 3056) (t : Nat) : 63 * Spec.codedBlocks ⟨false, n, n, Spec.expectedComps 2 2 .ycbcr⟩ t < 9227464 := by
  have h1 : ∀ c ∈ Spec.expectedComps 2 2 .ycbcr, Spec.blockCount ⟨false, n, n, Spec.expectedComps 2 2 .ycbcr⟩ c ≤ if c.h = 2 then 145924 else 36481 := by
    intro c hc
    have e1 : (Frame.mk false n n (Spec.expectedComps 2 2 .ycbcr)).hmax = 2 := rfl
    have e2 : (Frame.mk false n n (Spec.expectedComps 2 2 .ycbcr)).vmax = 2 := rfl
    unfold Spec.blockCount Frame.blocksHigh Frame.blocksWide
    rw [e1, e2]
    simp only [Spec.expectedComps, List.mem_cons, List.not_mem_nil, or_false] at hc
    unfold _root_.Spec.ceilDiv
    rcases hc with rfl | rfl | rfl
    · have : ((n * 2 + 2 - 1) / 2 + 8 - 1) / 8 ≤ 382 := by omega
      exact Nat.mul_le_mul this this
    · have : ((n * 1 + 2 - 1) / 2 + 8 - 1) / 8 ≤ 191 := by omega
      exact Nat.mul_le_mul this this
    · have : ((n * 1 + 2 - 1) / 2 + 8 - 1) / 8 ≤ 191 := by omega
      exact Nat.mul_le_mul this this
  have h2 := h1 ⟨0, 2, 2, 0⟩ (by simp [Spec.expectedComps])
  have h3 := h1 ⟨1, 1, 1, 1⟩ (by simp [Spec.expectedComps])
  have h4 := h1 ⟨2, 1, 1, 1⟩ (by simp [Spec.expectedComps])
  rw [if_pos rfl] at h2
  rw [if_neg (by decide)] at h3 h4
  match t with
  | 0 => simp only [Spec.codedBlocks, Spec.expectedComps] at *; simp; omega
  | 1 => simp only [Spec.codedBlocks, Spec.expectedComps] at *; simp; omega
  | t + 2 => simp [Spec.codedBlocks, Spec.expectedComps]

theorem fuzzEntry_ok {qTable : Bytes} (hq : 128 ≤ qTable.length) {i : Nat} (hi : i < 64) : ∃ v, fuzzEntry pf qTable i = .ok v := by
  unfold fuzzEntry idx
  rw [List.getElem?_eq_getElem (by omega), List.getElem?_eq_getElem (by omega)]
  simp only [ok_bind]
  have h1 := (qTable[i * 2]'(by omega)).toNat_lt
  have h2 := (qTable[i * 2 + 1]'(by omega)).toNat_lt
  rw [ckU, if_pos ⟨by omega, by norm_num; omega⟩]
  simp only [ok_bind, shlU, ckShift]
  rw [if_pos (by decide)]
  exact ⟨_, rfl⟩

theorem fuzzTable_ok {qTable : Bytes} (hq : 128 ≤ qTable.length) : ∃ t, fuzzTable pf qTable = .ok t := by
  unfold fuzzTable
  have key : ∀ (l : List Nat) (t : Vector UInt16 64), (∀ i ∈ l, i < 64) → ∃ t', l.foldlM (fun t i => do
      let v ← fuzzEntry pf qTable i
      .ok (t.setIfInBounds i v)) t = Except.ok t' := by
    intro l
    induction l with
    | nil => exact fun t _ => ⟨t, rfl⟩
    | cons a l ih =>
      intro t h
      obtain ⟨v, hv⟩ := fuzzEntry_ok (pf := pf) hq (h a (by simp))
      rw [List.foldlM_cons, hv]
      exact ih _ fun i hi => h i (by simp [hi])
  exact key _ _ fun i hi => List.mem_range.mp hi

include hpf hsl

/-- C80: the target `encode_rgb` accepts every input. -/
theorem C80_encode_rgb : Spec.FuzzFine 3 data.length .ycbcr false (1, 1) (fuzzRgb pf simd data) :=
  fuzz_fine hpf simd data hsl (calls := []) (ct := .rgb) (fun _ => rfl) (by intro t h; rcases h with h | h <;> cases h) (by intro n h; cases h)
    (fun e w _ hset hw _ => ⟨hw, hw, Or.inr (Or.inr ⟨by rw [hset.scans]; rfl, by rw [hset.optimized]; rfl, by rw [hset.sampling]; decide⟩), Or.inl (by rw [hset.optimized]; rfl)⟩) rfl rfl

/-- C80: the target `encode_rgb_subsampled` accepts every input. -/
theorem C80_encode_rgb_subsampled : Spec.FuzzFine 3 data.length .ycbcr false (4, 2) (fuzzSubsampled pf simd data) :=
  fuzz_fine hpf simd data hsl (calls := [.setSamplingFactor .F_4_2]) (ct := .rgb) (fun _ => rfl) (by intro t h; rcases h with h | h <;> cases h) (by intro n h; cases h)
    (fun e w _ hset hw hww => ⟨hw, hw, by
      have hf : Spec.frameOf e .ycbcr w w = ⟨false, w.toNat, w.toNat, Spec.expectedComps 4 2 .ycbcr⟩ := by
        unfold Spec.frameOf
        rw [hset.scans, hset.sampling]
        rfl
      exact (fuzz_memory data hpf hsl (f := Spec.frameOf e .ycbcr w w) (bytes := 3) (by omega) (by rw [hf]; exact show _ ≤ 4 by simp [Frame.hmax, Spec.expectedComps]) (by rw [hf]; exact show _ ≤ 4 by simp [Frame.vmax, Spec.expectedComps]) hww hww).imp_right Or.inl,
      Or.inl (by rw [hset.optimized]; rfl)⟩) rfl rfl

/-- C80: the target `encode_rgb_progressive` accepts every input. -/
theorem C80_encode_rgb_progressive : Spec.FuzzFine 3 data.length .ycbcr true (2, 2) (fuzzProgressive pf simd data) :=
  fuzz_fine hpf simd data hsl (calls := [.setSamplingFactor .F_2_2, .setProgressive true]) (ct := .rgb) (fun _ => rfl) (by intro t h; rcases h with h | h <;> cases h)
    (by intro n h; cases h; decide)
    (fun e w _ hset hw hww => ⟨hw, hw, by
      have hf : Spec.frameOf e .ycbcr w w = ⟨true, w.toNat, w.toNat, Spec.expectedComps 2 2 .ycbcr⟩ := by
        unfold Spec.frameOf
        rw [hset.scans, hset.sampling]
        rfl
      exact (fuzz_memory data hpf hsl (f := Spec.frameOf e .ycbcr w w) (bytes := 3) (by omega) (by rw [hf]; exact show _ ≤ 4 by simp [Frame.hmax, Spec.expectedComps]) (by rw [hf]; exact show _ ≤ 4 by simp [Frame.vmax, Spec.expectedComps]) hww hww).imp_right Or.inl,
      Or.inl (by rw [hset.optimized]; rfl)⟩) rfl rfl

/-- C80: the target `encode_ycck_progressive` accepts every input. -/
theorem C80_encode_ycck_progressive : Spec.FuzzFine 4 data.length .ycck true (1, 1) (fuzzYcck pf simd data) :=
  fuzz_fine hpf simd data hsl (calls := [.setProgressive true]) (ct := .ycck) (fun _ => rfl) (by intro t h; rcases h with h | h <;> cases h)
    (by intro n h; cases h; decide)
    (fun e w _ hset hw hww => ⟨hw, hw, by
      have hf : Spec.frameOf e .ycck w w = ⟨true, w.toNat, w.toNat, Spec.expectedComps 1 1 .ycck⟩ := by
        unfold Spec.frameOf
        rw [hset.scans, hset.sampling]
        rfl
      exact (fuzz_memory data hpf hsl (f := Spec.frameOf e .ycck w w) (bytes := 4) (by omega) (by rw [hf]; exact show _ ≤ 4 by simp [Frame.hmax, Spec.expectedComps]) (by rw [hf]; exact show _ ≤ 4 by simp [Frame.vmax, Spec.expectedComps]) hww hww).imp_right Or.inl,
      Or.inl (by rw [hset.optimized]; rfl)⟩) rfl rfl

/-- C80: the target `encode_rgb_optimized` accepts every input of up to 28 million bytes (see C11 for what can happen to huge images). -/
theorem C80_encode_rgb_optimized (hlen : data.length < 28035747) : Spec.FuzzFine 3 data.length .ycbcr false (2, 2) (fuzzOptimized pf simd data) :=
  fuzz_fine hpf simd data hsl (calls := [.setOptimizedHuffmanTables true]) (ct := .rgb) (fun _ => rfl) (by intro t h; rcases h with h | h <;> cases h)
    (by intro n h; cases h)
    (fun e w hc hset hw hww => by
      have hf : Spec.frameOf e .ycbcr w w = ⟨false, w.toNat, w.toNat, Spec.expectedComps 2 2 .ycbcr⟩ := by
        unfold Spec.frameOf
        rw [hset.scans, hset.sampling]
        rfl
      refine ⟨hw, hw, ?_, Or.inr ⟨fun n hn => ?_, .of_blocks hc.wf fun t => ?_⟩⟩
      · exact (fuzz_memory data hpf hsl (f := Spec.frameOf e .ycbcr w w) (bytes := 3) (by omega) (by rw [hf]; exact show _ ≤ 4 by simp [Frame.hmax, Spec.expectedComps]) (by rw [hf]; exact show _ ≤ 4 by simp [Frame.vmax, Spec.expectedComps]) hww hww).imp_right Or.inl
      · rw [hset.restart] at hn
        cases hn
      · have h1 : w.toNat ≤ 3056 := by
          by_contra hcon
          have := Nat.mul_le_mul (show 3057 ≤ w.toNat by omega) (show 3057 ≤ w.toNat by omega)
          have h2 := side_bytes (bytes := 3) (len := data.length) (by decide)
          rw [← show w.toNat = Spec.squareSide 3 data.length from hww] at h2
          omega
        rw [show Spec.frameOf e (Spec.fileColor ColorType.rgb) w w = _ from hf]
        exact blocks_22 h1 t) rfl rfl

/-- C80: the target `encode_rgb_custom_q_table` accepts every input. -/
theorem C80_encode_rgb_custom_q_table :
    if data.length < 128 + 3 ∨ 65535 ≤ Spec.squareSide 3 (data.length - 128) then fuzzCustomTable pf simd data = .ok none
    else ∃ file, fuzzCustomTable pf simd data = .ok (some file) := by
  unfold fuzzCustomTable
  split
  · rename_i h
    by_cases hl : data.length ≥ 128 + 3
    · rw [if_pos hl]
      simp only []
      rw [if_neg]
      rw [fuzzSide_iff]
      have h1 : 65535 ≤ Spec.squareSide 3 (data.length - 128) := by omega
      rw [List.length_drop]
      exact fun hn => hn (Or.inr h1)
    · rw [if_neg hl]
  · rename_i h
    rw [if_pos (by omega)]
    simp only []
    have hne : Spec.squareSide 3 (data.length - 128) ≠ 0 := by
      unfold Spec.squareSide
      rw [Ne, Nat.sqrt_eq_zero]
      omega
    have hside : ¬ (Spec.squareSide 3 (data.drop 128).length = 0 ∨ 65535 ≤ Spec.squareSide 3 (data.drop 128).length) := by
      rw [List.length_drop]
      omega
    rw [if_pos ((fuzzSide_iff _).mpr hside)]
    obtain ⟨t, ht⟩ := fuzzTable_ok (pf := pf) (qTable := data.take 128) (by rw [List.length_take]; omega)
    rw [ht, ok_bind]
    obtain ⟨t0, t1, f0, f1, hn⟩ := encoder_new_ok 100
    obtain ⟨e0, h0⟩ : ∃ e0, Encoder.new pf 100 = .ok e0 := ⟨_, hn pf⟩
    have hc : Configured pf 100 [.setQuantizationTables (.custom t) (.custom t)] (e0.setQuantizationTables (.custom t) (.custom t)) := ⟨_, h0, rfl⟩
    have hset := hc.settings.1
    have hw : (fuzzSide ((data.drop 128).length / 3)).toNat = Spec.squareSide 3 (data.drop 128).length :=
      fuzzSide_nat _ (by unfold Spec.squareSide at hside; omega)
    have hw0 : fuzzSide ((data.drop 128).length / 3) ≠ 0 := fun h0 => hside (Or.inl (by rw [← hw, h0]; rfl))
    have hpc := Spec.EncodeCall.data (pf := pf) (simd := simd) (e := e0.setQuantizationTables (.custom t) (.custom t)) (data.drop 128)
      (fuzzSide ((data.drop 128).length / 3)) (fuzzSide ((data.drop 128).length / 3)) .rgb (by rw [hw]; exact side_bytes (by decide))
      (lt_of_le_of_lt (by rw [List.length_drop]; omega) hsl)
    obtain ⟨image, hd, hp, i1, i2, i3⟩ := hpc.image_of
    obtain ⟨_, -, hwr⟩ := writes_image hpf hc simd hd ⟨i2 ▸ hw0, i3 ▸ hw0,
      Or.inr (Or.inr ⟨by rw [hset.scans]; rfl, by rw [hset.optimized]; rfl, by rw [hset.sampling]; exact (show SamplingFactor.F_1_1.factors.1 ≤ 2 ∧ SamplingFactor.F_1_1.factors.2 ≤ 2 by decide)⟩),
      Or.inl (by rw [hset.optimized]; rfl)⟩
    rw [← hp] at hwr
    exact ⟨_, fuzzWith_run simd (data.drop 128) (by decide) h0 hside hwr⟩

end

/-! Cases that meet the hypotheses. -/

-- a 7x7 image (and two bytes that are not used); an input that is skipped
example : Spec.SliceOk ⟨true, 8⟩ (List.replicate 149 77) ∧ Spec.squareSide 3 (List.replicate 149 (77 : UInt8)).length = 7 ∧ Spec.squareSide 3 2 = 0 := by
  refine ⟨by unfold Spec.SliceOk; rw [List.length_replicate]; decide, ?_, ?_⟩ <;> simp only [Spec.squareSide, List.length_replicate] <;> symm <;> rw [Nat.eq_sqrt] <;> decide

/-- An input of the target `encode_rgb_custom_q_table`: a table, and one pixel. -/
def fuzzTableInput : Bytes := List.replicate 128 1 ++ [10, 20, 30]

/-- The target `encode_rgb_custom_q_table` accepts even this input, although no T.81 decoder accepts the file (see C21): a fuzz target that only looks for
panics misses it. The other targets, by C80, have no such inputs. -/
theorem C80_custom_q_table_undecodable : ∃ file, fuzzCustomTable ⟨true, 8⟩ false fuzzTableInput = .ok (some file) ∧ _root_.Spec.decode false file = none := by
  have hs : fuzzSide ((fuzzTableInput.drop 128).length / 3) = 1 := by
    unfold fuzzSide
    rw [show (fuzzTableInput.drop 128).length / 3 = 1 from rfl, Nat.sqrt_one]
    rfl
  have key : (do
      let table ← fuzzTable ⟨true, 8⟩ (fuzzTableInput.take 128)
      let encoder ← Encoder.new ⟨true, 8⟩ 100
      let r ← unwrapFile (((encoder.setQuantizationTables (.custom table) (.custom table)).encode ⟨true, 8⟩ false (fuzzTableInput.drop 128) 1 1 .rgb).run vecSink [])
      .ok (r.map fun f => (_root_.Spec.decode false f).isNone) : R (Option Bool)) = .ok (some true) := by decide +kernel
  obtain ⟨t, h1, h2⟩ := bind_inv key
  obtain ⟨e, h3, h4⟩ := bind_inv h2
  obtain ⟨r, h5, h6⟩ := bind_inv h4
  have h7 := Except.ok.inj h6
  obtain ⟨file, rfl, h8⟩ := Option.map_eq_some_iff.mp h7
  refine ⟨file, ?_, Option.isNone_iff_eq_none.mp h8⟩
  unfold fuzzCustomTable fuzzWith
  simp only [hs]
  rw [if_pos (by simp [fuzzTableInput]), if_pos (by decide), h1, ok_bind, if_pos (by decide), h3, ok_bind]
  exact h5

end Jpeg
