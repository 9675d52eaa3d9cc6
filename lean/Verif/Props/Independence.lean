import Verif.Proofs.Congr
import Verif.Props.Writer
/-! C12, C13, C17, C18, C27, C28, C29: no panics, and what the output depends on. -/
namespace Jpeg
open _root_.Spec

/-! ### C12 -/

/-- Whatever the writer does: the run returns, and an error it returns is an ordinary `EncodingError` (no panic, no out of bounds access, no
overflow, no undefined behaviour, no endless loop). -/
def Spec.NoPanic (p : Prog (R Unit)) : Prop :=
  ∀ (σ : Type) (S : Sink σ) (w : σ) (f : Fail), (p.run S w).2 = .error f → ∃ err, f = .err err

theorem noPanic_of {p : Prog (R Unit)} (hs : p.Strict) {bytes : Bytes} (h : Spec.Writes p bytes) : Spec.NoPanic p := by
  intro σ S w f hf
  have hv := h []
  rcases hs.stops σ S w with ⟨-, -, h3⟩ | ⟨pre, c, e, -, -, -, h4⟩
  · rw [h3, hv] at hf
    cases hf
  · rw [h4] at hf
    cases hf
    exact ⟨e, rfl⟩

section
variable {pf : Platform} (hpf : pf.Valid) {q : UInt8} {calls : List Spec.Call} {e : Encoder} (hc : Configured pf q calls e) (simd : Bool)

include hpf hc

/-- Supported images are encoded successfully; a `Vec` receives a file. -/
theorem writes_image {image : ImageBuffer} {P : Nat → Nat → Nat → UInt8} (hd : Delivers image P) (hs : Spec.Supported pf simd e image.colorType image.width image.height P) :
    ∃ t, Works simd e image P t ∧ Spec.Writes (e.encodeImage pf simd image) (e.file (dctFn simd) image P t) := by
  obtain ⟨t, ht⟩ := hs.works hc.wf
  exact ⟨t, ht, encode_run hpf hd hc.wf hs ht⟩

/-- C12 for `encode_image`: no panic for any image buffer that honours the contract of the trait, of any size (including zero), and any
writer. -/
theorem C12_encode_image (image : ImageBuffer) (P : Nat → Nat → Nat → UInt8) (hd : Delivers image P)
    (hs : image.width ≠ 0 → image.height ≠ 0 → Spec.Supported pf simd e image.colorType image.width image.height P) : Spec.NoPanic (e.encodeImage pf simd image) := by
  by_cases hz : image.width = 0 ∨ image.height = 0
  · intro σ S w f hf
    rw [C15_zero_dimension_image pf simd e image hz] at hf
    cases hf
    exact ⟨_, rfl⟩
  · obtain ⟨t, -, hw⟩ := writes_image hpf hc simd hd (hs (by tauto) (by tauto))
    exact noPanic_of (encodeImage_strict _ _ _ _) hw

/-- C12 for `encode`: no panic for any slice (also one that is too short), any size and pixel format, any writer; on 64 bit targets
`hfit` holds by `C15_fits_64`. -/
theorem C12_encode (data : Bytes) (hsl : Spec.SliceOk pf data) (w h : UInt16) (ct : ColorType)
    (hfit : w.toNat * h.toNat * ct.bytesPerPixel < 2 ^ pf.wordBits) (hs : w ≠ 0 → h ≠ 0 → Spec.Supported pf simd e (Spec.fileColor ct) w h (Spec.samplesOf ct data w.toNat)) :
    Spec.NoPanic (e.encode pf simd data w h ct) := by
  by_cases hlen : data.length < w.toNat * h.toNat * ct.bytesPerPixel
  · intro σ S o f hf
    rw [C15_short_data_rejected pf simd e data w h ct hfit hlen] at hf
    cases hf
    exact ⟨_, rfl⟩
  · rw [C15_enough_data_accepted pf simd e data w h ct hfit (by omega)]
    obtain ⟨hw, hh⟩ := imageFor_width pf simd data w h ct
    exact C12_encode_image hpf hc simd _ _ (delivers_builtin simd (by omega) hsl) (by rw [imageFor_color, hw, hh]; exact hs)

end

/-! ### Two runs with the same output -/

/-- Both runs succeed and write the same bytes. -/
def Spec.SameOutput (p p' : Prog (R Unit)) : Prop := ∃ bytes, Spec.Writes p bytes ∧ Spec.Writes p' bytes

theorem same_output {pf pf' : Platform} (hpf : pf.Valid) (hpf' : pf'.Valid) {q q' : UInt8} {calls calls' : List Spec.Call} {e e' : Encoder}
    (hc : Configured pf q calls e) (hc' : Configured pf' q' calls' e') (he : SameSettings e e') {simd : Bool}
    {p p' : Prog (R Unit)} {ct : JpegColorType} {w h : UInt16} {P P' : Nat → Nat → Nat → UInt8}
    (hp : Spec.EncodeCall pf simd e p ct w h P) (hp' : Spec.EncodeCall pf' simd e' p' ct w h P') (hs : Spec.Supported pf simd e ct w h P)
    (hs' : Spec.Supported pf' simd e' ct w h P') (hsame : Spec.SamePlanes ct w h P P') : Spec.SameOutput p p' := by
  obtain ⟨image, hd, rfl, hct, hw, hh⟩ := hp.image_of
  obtain ⟨image', hd', rfl, hct', hw', hh'⟩ := hp'.image_of
  subst hct hw hh
  rw [hw', hh'] at hs'
  obtain ⟨t, ht, h1⟩ := writes_image hpf hc simd hd hs
  obtain ⟨t', ht', h2⟩ := writes_image hpf' hc' simd hd' (by rw [← hct']; exact hs')
  have := works_unique he hct' hw' hh' hsame hs.width hs.height ht ht'
  subst this
  rw [← file_congr he hct' hw' hh' hsame hs.width hs.height] at h2
  exact ⟨_, h1, h2⟩

/-! ### C13 -/

/-- C13: the same configuration and the same image give the same bytes on any two targets: debug or release, 32 or 64 bit. -/
theorem C13_platform_independent {pf pf' : Platform} (hpf : pf.Valid) (hpf' : pf'.Valid) {q : UInt8} {calls : List Spec.Call} {e : Encoder}
    (hc : Configured pf q calls e) (simd : Bool) (data : Bytes) (w h : UInt16) (ct : ColorType)
    (hlen : w.toNat * h.toNat * ct.bytesPerPixel ≤ data.length) (hsl : Spec.SliceOk pf data) (hsl' : Spec.SliceOk pf' data)
    (hs : Spec.Supported pf simd e (Spec.fileColor ct) w h (Spec.samplesOf ct data w.toNat)) (hs' : Spec.Supported pf' simd e (Spec.fileColor ct) w h (Spec.samplesOf ct data w.toNat)) :
    Configured pf' q calls e ∧ Spec.SameOutput (e.encode pf simd data w h ct) (e.encode pf' simd data w h ct) :=
  ⟨hc.platform pf', same_output hpf hpf' hc (hc.platform pf') (.refl e) (.data data w h ct hlen hsl) (.data data w h ct hlen hsl') hs hs'
    fun _ _ _ _ _ _ => rfl⟩

/-- C13 for `encode_image`. -/
theorem C13_platform_independent_image {pf pf' : Platform} (hpf : pf.Valid) (hpf' : pf'.Valid) {q : UInt8} {calls : List Spec.Call} {e : Encoder}
    (hc : Configured pf q calls e) (simd : Bool) (image : ImageBuffer) (P : Nat → Nat → Nat → UInt8) (hd : Delivers image P)
    (hs : Spec.Supported pf simd e image.colorType image.width image.height P) (hs' : Spec.Supported pf' simd e image.colorType image.width image.height P) :
    Configured pf' q calls e ∧ Spec.SameOutput (e.encodeImage pf simd image) (e.encodeImage pf' simd image) :=
  ⟨hc.platform pf', same_output hpf hpf' hc (hc.platform pf') (.refl e) (.image image P hd) (.image image P hd) hs hs' fun _ _ _ _ _ _ => rfl⟩

/-! ### C18 -/

section
variable {pf : Platform} (hpf : pf.Valid) {q : UInt8} {calls : List Spec.Call} {e : Encoder} (hc : Configured pf q calls e) {simd : Bool}
include hpf hc

/-- C18: two calls of `encode` or `encode_image` with the same color type, size and samples (inside the image) write the same bytes; the
image buffers may be implemented in any way. -/
theorem C18_same_planes {p p' : Prog (R Unit)} {ct : JpegColorType} {w h : UInt16} {P P' : Nat → Nat → Nat → UInt8}
    (hp : Spec.EncodeCall pf simd e p ct w h P) (hp' : Spec.EncodeCall pf simd e p' ct w h P') (hs : Spec.Supported pf simd e ct w h P)
    (hsame : Spec.SamePlanes ct w h P P') : Spec.SameOutput p p' :=
  same_output hpf hpf hc hc (.refl e) hp hp' hs (hs.same_planes hsame) hsame

omit hpf hc in
theorem documented_planes (rgb : Nat → Nat → UInt8 × UInt8 × UInt8) (w h : UInt16) (data : Bytes)
    (hdata : ∀ y x, y < h.toNat → x < w.toNat → data.getD ((y * w.toNat + x) * 3) 0 = (rgb y x).1 ∧
      data.getD ((y * w.toNat + x) * 3 + 1) 0 = (rgb y x).2.1 ∧ data.getD ((y * w.toNat + x) * 3 + 2) 0 = (rgb y x).2.2) :
    Spec.SamePlanes .ycbcr w h (fun c y x => Spec.ycc (rgb y x).1 (rgb y x).2.1 (rgb y x).2.2 c) (Spec.samplesOf .rgb data w.toNat) := by
  intro c y x _ hy hx
  obtain ⟨d0, d1, d2⟩ := hdata y x hy hx
  simp only [Spec.samplesOf, ColorType.bytesPerPixel, Nat.add_zero, d0, d1, d2]

/-- C18, the example in the documentation of `ImageBuffer`: a buffer of the user that converts the RGB pixels `rgb y x` with
`rgb_to_ycbcr` gives the same file as `encode` of the interleaved bytes with `ColorType::Rgb`. -/
theorem C18_documented_example (rgb : Nat → Nat → UInt8 × UInt8 × UInt8) (w h : UInt16) (image : ImageBuffer) (hct : image.colorType = .ycbcr)
    (hw : image.width = w) (hh : image.height = h)
    (hd : Delivers image fun c y x => Spec.ycc (rgb y x).1 (rgb y x).2.1 (rgb y x).2.2 c) (data : Bytes)
    (hdata : ∀ y x, y < h.toNat → x < w.toNat → data.getD ((y * w.toNat + x) * 3) 0 = (rgb y x).1 ∧
      data.getD ((y * w.toNat + x) * 3 + 1) 0 = (rgb y x).2.1 ∧ data.getD ((y * w.toNat + x) * 3 + 2) 0 = (rgb y x).2.2)
    (hlen : w.toNat * h.toNat * 3 ≤ data.length) (hsl : Spec.SliceOk pf data)
    (hs : Spec.Supported pf simd e .ycbcr w h fun c y x => Spec.ycc (rgb y x).1 (rgb y x).2.1 (rgb y x).2.2 c) :
    Spec.SameOutput (e.encodeImage pf simd image) (e.encode pf simd data w h .rgb) := by
  subst hw hh
  have h1 := Spec.EncodeCall.image (pf := pf) (simd := simd) (e := e) image _ hd
  rw [hct] at h1
  refine C18_same_planes hpf hc h1 (.data data image.width image.height .rgb hlen hsl) hs (documented_planes rgb _ _ data hdata)

/-! ### C17 -/

omit hpf hc in
theorem trailing_planes (data extra : Bytes) (w h : UInt16) (ct : ColorType) (hlen : data.length = w.toNat * h.toNat * ct.bytesPerPixel) :
    Spec.SamePlanes (Spec.fileColor ct) w h (Spec.samplesOf ct data w.toNat) (Spec.samplesOf ct (data ++ extra) w.toNat) := by
  intro c y x hcc hy hx
  have hpos : (y * w.toNat + x + 1) * ct.bytesPerPixel ≤ data.length := by
    rw [hlen]
    refine Nat.mul_le_mul_right _ ?_
    calc y * w.toNat + x + 1 ≤ (y + 1) * w.toNat := by rw [Nat.add_mul]; omega
      _ ≤ h.toNat * w.toNat := Nat.mul_le_mul_right _ hy
      _ = w.toNat * h.toNat := Nat.mul_comm _ _
  have hb : ∀ i, i < ct.bytesPerPixel → (data ++ extra).getD ((y * w.toNat + x) * ct.bytesPerPixel + i) 0 =
      data.getD ((y * w.toNat + x) * ct.bytesPerPixel + i) 0 := by
    intro i hi
    rw [Nat.add_mul, Nat.one_mul] at hpos
    simp only [List.getD_eq_getElem?_getD]
    rw [List.getElem?_append_left (by omega)]
  revert hcc hb
  cases ct <;> simp only [Spec.samplesOf, ColorType.bytesPerPixel, Spec.fileColor, Spec.componentCount] <;> intro hcc hb
  case luma => rw [hb 0 (by omega)]
  case rgb => rw [hb 0 (by omega), hb 1 (by omega), hb 2 (by omega)]
  case rgba => rw [hb 0 (by omega), hb 1 (by omega), hb 2 (by omega)]
  case bgr => rw [hb 0 (by omega), hb 1 (by omega), hb 2 (by omega)]
  case bgra => rw [hb 0 (by omega), hb 1 (by omega), hb 2 (by omega)]
  case ycbcr => rw [hb c (by omega)]
  case cmyk => rw [hb c (by omega)]
  case cmykAsYcck => rw [hb 0 (by omega), hb 1 (by omega), hb 2 (by omega), hb 3 (by omega)]
  case ycck => rw [hb c (by omega)]

/-- C17: bytes behind the first width * height * bytes-per-pixel bytes have no influence. -/
theorem C17_trailing_data (data extra : Bytes) (w h : UInt16) (ct : ColorType) (hlen : data.length = w.toNat * h.toNat * ct.bytesPerPixel)
    (hsl : Spec.SliceOk pf (data ++ extra)) (hs : Spec.Supported pf simd e (Spec.fileColor ct) w h (Spec.samplesOf ct data w.toNat)) :
    Spec.SameOutput (e.encode pf simd data w h ct) (e.encode pf simd (data ++ extra) w h ct) := by
  have hsl0 : Spec.SliceOk pf data := by
    unfold Spec.SliceOk at *
    rw [List.length_append] at hsl
    omega
  refine C18_same_planes hpf hc (.data data w h ct (by omega) hsl0) (.data _ w h ct (by rw [List.length_append]; omega) hsl) hs (trailing_planes data extra w h ct hlen)

end

/-- A pixel as RGB(A) or BGR(A) bytes. -/
def Spec.pixelBytes (ct : ColorType) (r g b a : UInt8) : Bytes :=
  match ct with
  | .rgb => [r, g, b]
  | .rgba => [r, g, b, a]
  | .bgr => [b, g, r]
  | .bgra => [b, g, r, a]
  | _ => []

/-- The formats with red, green and blue bytes. -/
def Spec.IsRgb (ct : ColorType) : Prop := ct = .rgb ∨ ct = .rgba ∨ ct = .bgr ∨ ct = .bgra

theorem flatMap_getD {α : Type} (f : α → Bytes) (n : Nat) (hf : ∀ a, (f a).length = n) (l : List α) (i k : Nat) (hk : k < n) (hi : i < l.length) :
    (l.flatMap f).getD (i * n + k) 0 = (f l[i]).getD k 0 := by
  induction l generalizing i with
  | nil => simp at hi
  | cons a l ih =>
    rw [List.flatMap_cons]
    cases i with
    | zero =>
      simp only [List.getD_eq_getElem?_getD, Nat.zero_mul, Nat.zero_add, List.getElem_cons_zero]
      rw [List.getElem?_append_left (by rw [hf]; exact hk)]
    | succ i =>
      simp only [List.length_cons] at hi
      have := ih i (by omega)
      simp only [List.getD_eq_getElem?_getD, List.getElem_cons_succ] at this ⊢
      rw [List.getElem?_append_right (by rw [hf, Nat.add_mul]; omega), hf, ← this]
      congr 2
      rw [Nat.add_mul]
      omega

theorem pixelBytes_samples {ct : ColorType} (h : Spec.IsRgb ct) (px : List (UInt8 × UInt8 × UInt8 × UInt8)) (w c y x : Nat)
    (hi : y * w + x < px.length) :
    Spec.samplesOf ct (px.flatMap fun p => Spec.pixelBytes ct p.1 p.2.1 p.2.2.1 p.2.2.2) w c y x =
      Spec.ycc px[y * w + x].1 px[y * w + x].2.1 px[y * w + x].2.2.1 c := by
  have key : ∀ k, k < ct.bytesPerPixel → _ := fun k hk => flatMap_getD
    (fun p : UInt8 × UInt8 × UInt8 × UInt8 => Spec.pixelBytes ct p.1 p.2.1 p.2.2.1 p.2.2.2) ct.bytesPerPixel
    (by intro a; rcases h with rfl | rfl | rfl | rfl <;> rfl) px (y * w + x) k hk hi
  rcases h with rfl | rfl | rfl | rfl <;> simp only [Spec.samplesOf] <;>
    rw [key 0 (by decide), key 1 (by decide), key 2 (by decide)] <;> rfl

theorem pixelBytes_length {ct : ColorType} (h : Spec.IsRgb ct) (px : List (UInt8 × UInt8 × UInt8 × UInt8)) :
    (px.flatMap fun p => Spec.pixelBytes ct p.1 p.2.1 p.2.2.1 p.2.2.2).length = px.length * ct.bytesPerPixel := by
  induction px with
  | nil => simp
  | cons a l ih =>
    rw [List.flatMap_cons, List.length_append, ih, List.length_cons]
    rcases h with rfl | rfl | rfl | rfl <;> simp only [Spec.pixelBytes, ColorType.bytesPerPixel, List.length_cons, List.length_nil] <;> omega

theorem pixel_call {pf : Platform} {simd : Bool} {e : Encoder} {ct : ColorType} (hct : Spec.IsRgb ct) (px : List (UInt8 × UInt8 × UInt8 × UInt8)) (w h : UInt16)
    (h2 : px.length = w.toNat * h.toNat) (hfit : w.toNat * h.toNat * 4 < 2 ^ (pf.wordBits - 1)) :
    Spec.EncodeCall pf simd e (e.encode pf simd (px.flatMap fun p => Spec.pixelBytes ct p.1 p.2.1 p.2.2.1 p.2.2.2) w h ct) .ycbcr w h
      (Spec.samplesOf ct (px.flatMap fun p => Spec.pixelBytes ct p.1 p.2.1 p.2.2.1 p.2.2.2) w.toNat) := by
  have hb : ct.bytesPerPixel ≤ 4 ∧ Spec.fileColor ct = .ycbcr := by
    rcases hct with rfl | rfl | rfl | rfl <;> exact ⟨by decide, rfl⟩
  have h3 := pixelBytes_length hct px
  rw [← hb.2]
  refine .data _ w h ct (by rw [h3, h2]) ?_
  unfold Spec.SliceOk
  rw [h3, h2]
  have : w.toNat * h.toNat * ct.bytesPerPixel ≤ w.toNat * h.toNat * 4 := Nat.mul_le_mul_left _ hb.1
  omega

theorem pixel_planes {ct ct' : ColorType} (hct : Spec.IsRgb ct) (hct' : Spec.IsRgb ct') (px px' : List (UInt8 × UInt8 × UInt8 × UInt8))
    (hcol : (px.map fun p => (p.1, p.2.1, p.2.2.1)) = px'.map fun p => (p.1, p.2.1, p.2.2.1)) (w h : UInt16) (hlen : px.length = w.toNat * h.toNat) :
    Spec.SamePlanes .ycbcr w h (Spec.samplesOf ct (px.flatMap fun p => Spec.pixelBytes ct p.1 p.2.1 p.2.2.1 p.2.2.2) w.toNat)
      (Spec.samplesOf ct' (px'.flatMap fun p => Spec.pixelBytes ct' p.1 p.2.1 p.2.2.1 p.2.2.2) w.toNat) := by
  have hl : px'.length = px.length := by simpa using (congrArg List.length hcol).symm
  intro c y x _ hy hx
  have hi : y * w.toNat + x < px.length := by
    rw [hlen]
    calc y * w.toNat + x < (y + 1) * w.toNat := by rw [Nat.add_mul]; omega
      _ ≤ h.toNat * w.toNat := Nat.mul_le_mul_right _ hy
      _ = w.toNat * h.toNat := Nat.mul_comm _ _
  rw [pixelBytes_samples hct _ _ _ _ _ hi, pixelBytes_samples hct' _ _ _ _ _ (by omega)]
  have e1 : (px[y * w.toNat + x].1, px[y * w.toNat + x].2.1, px[y * w.toNat + x].2.2.1) =
      (px'[y * w.toNat + x].1, px'[y * w.toNat + x].2.1, px'[y * w.toNat + x].2.2.1) := by
    have := congrArg (fun l => l[y * w.toNat + x]?) hcol
    simpa [List.getElem?_eq_getElem hi, List.getElem?_eq_getElem (show y * w.toNat + x < px'.length by omega)] using this
  simp only [Prod.mk.injEq] at e1
  rw [e1.1, e1.2.1, e1.2.2]

/-- C17: the alpha bytes have no influence, and the same pixels give the same file in any of the formats RGB, RGBA, BGR, BGRA. -/
theorem C17_alpha_and_order {pf : Platform} (hpf : pf.Valid) {q : UInt8} {calls : List Spec.Call} {e : Encoder} (hc : Configured pf q calls e)
    {simd : Bool} {ct ct' : ColorType} (hct : Spec.IsRgb ct) (hct' : Spec.IsRgb ct') (px px' : List (UInt8 × UInt8 × UInt8 × UInt8))
    (hcol : (px.map fun p => (p.1, p.2.1, p.2.2.1)) = px'.map fun p => (p.1, p.2.1, p.2.2.1)) (w h : UInt16)
    (hlen : px.length = w.toNat * h.toNat) (hfit : w.toNat * h.toNat * 4 < 2 ^ (pf.wordBits - 1)) 
    (hs : Spec.Supported pf simd e .ycbcr w h (Spec.samplesOf ct (px.flatMap fun p => Spec.pixelBytes ct p.1 p.2.1 p.2.2.1 p.2.2.2) w.toNat)) :
    Spec.SameOutput (e.encode pf simd (px.flatMap fun p => Spec.pixelBytes ct p.1 p.2.1 p.2.2.1 p.2.2.2) w h ct)
      (e.encode pf simd (px'.flatMap fun p => Spec.pixelBytes ct' p.1 p.2.1 p.2.2.1 p.2.2.2) w h ct') := by
  have hl : px'.length = px.length := by simpa using (congrArg List.length hcol).symm
  exact C18_same_planes hpf hc (pixel_call hct px w h hlen hfit) (pixel_call hct' px' w h (by omega) hfit) hs (pixel_planes hct hct' px px' hcol w h hlen)

/-! ### C28 -/

theorem applyCall_tables {pf : Platform} {e e' : Encoder} {c : Spec.Call} (hc : applyCall pf e c = .ok e') : e'.huffmanTables = e.huffmanTables := by
  cases c with
  | addAppSegment nr d =>
    simp only [applyCall] at hc
    cases h1 : e.addAppSegment nr d with
    | ok e1 =>
      rw [h1] at hc
      obtain ⟨-, rfl⟩ := (C33_add_app_segment_ok e e1 nr d).mp h1
      cases hc
      rfl
    | error f =>
      rw [h1] at hc
      cases f <;> cases hc
      rfl
  | addIccProfile d =>
    simp only [applyCall] at hc
    by_cases hd : d.length ≤ 254 * 65519
    · obtain ⟨segs, h1, h2, _⟩ := C34_icc_accepted pf e d hd
      rw [h1] at hc
      cases hc
      rfl
    · rw [C34_icc_rejected pf e d (by omega)] at hc
      cases hc
      rfl
  | setProgressiveScans n =>
    simp only [applyCall, Encoder.setProgressiveScans, assert_decide] at hc
    split at hc
    · cases hc; rfl
    · cases hc
  | _ => cases hc; rfl

theorem Configured.tables_eq {pf : Platform} {q q' : UInt8} {calls calls' : List Spec.Call} {e e' : Encoder} (h : Configured pf q calls e)
    (h' : Configured pf q' calls' e') : e.huffmanTables = e'.huffmanTables := by
  have key : ∀ (calls : List Spec.Call) (e0 e : Encoder), forFoldR calls e0 (applyCall pf) = .ok e → e.huffmanTables = e0.huffmanTables := by
    intro calls
    induction calls with
    | nil => intro e0 e h; cases h; rfl
    | cons c cs ih =>
      intro e0 e h
      simp only [forFoldR] at h
      cases h1 : applyCall pf e0 c with
      | error f => rw [h1] at h; cases h
      | ok e1 =>
        rw [h1] at h
        rw [ih e1 e h, applyCall_tables h1]
  obtain ⟨e0, h0, h1⟩ := h
  obtain ⟨e0', h0', h1'⟩ := h'
  rw [key _ _ _ h1, key _ _ _ h1']
  obtain ⟨t0, t1, f0, f1, hn⟩ := encoder_new_tables
  rw [hn] at h0 h0'
  cases h0
  cases h0'
  rfl

/-- C28 (and C37): the output depends on the history of configuration calls only through the current settings and the added segments,
and on the sampling factor only through its two numbers: `R_4_2_0` and `F_2_2`, say, are interchangeable. -/
theorem C28_settings_determine_output {pf : Platform} (hpf : pf.Valid) {q : UInt8} {calls calls' : List Spec.Call} {e e' : Encoder}
    (hc : Configured pf q calls e) (hc' : Configured pf q calls' e') (h1 : e.getDensity = e'.getDensity)
    (h2 : e.getSamplingFactor.factors = e'.getSamplingFactor.factors) (h3 : e.getQuantizationTables = e'.getQuantizationTables)
    (h4 : e.getProgressiveScans = e'.getProgressiveScans) (h5 : e.getRestartInterval = e'.getRestartInterval)
    (h6 : e.getOptimizedHuffmanTables = e'.getOptimizedHuffmanTables)
    (h7 : calls.flatMap Spec.Call.segments = calls'.flatMap Spec.Call.segments) {simd : Bool} {p p' : Prog (R Unit)} {ct : JpegColorType}
    {w h : UInt16} {P : Nat → Nat → Nat → UInt8} (hp : Spec.EncodeCall pf simd e p ct w h P) (hp' : Spec.EncodeCall pf simd e' p' ct w h P)
    (hs : Spec.Supported pf simd e ct w h P) : Spec.SameOutput p p' := by
  have he : SameSettings e e' := ⟨h1, by rw [hc.settings.1.quality, hc'.settings.1.quality], h2, h3, h4, h5, h6,
    by rw [hc.apps, hc'.apps, h7], hc.tables_eq hc'⟩
  have hfr : Spec.frameOf e ct w h = Spec.frameOf e' ct w h := by rw [Spec.frameOf, h4, h2]; rfl
  refine same_output hpf hpf hc hc' he hp hp' hs ⟨hs.width, hs.height, ?_, ?_⟩ fun _ _ _ _ _ _ => rfl
  case refine_2 =>
    rcases hs.tables with h | h
    · exact Or.inl (h6 ▸ h)
    · refine Or.inr ⟨fun n hn d hd hi => ?_, fun d hd hi t => ?_⟩
      · have := h.restarts n (h5 ▸ hn) d (by rw [h4, h2]; exact hd) (by rw [h3, he.quality]; exact hi)
        rwa [hfr] at this
      have := h.size d (by rw [h4, h2]; exact hd) (by rw [h3, he.quality]; exact hi) t
      rw [hfr] at this
      unfold Spec.acCounted Spec.acBands at this ⊢
      rwa [h4] at this
  rcases hs.memory with h | h | h
  · exact Or.inl h
  · exact Or.inr (Or.inl (hfr ▸ h))
  · refine Or.inr (Or.inr ?_)
    unfold Spec.Baseline at h ⊢
    rw [← h4, ← h6, ← h2]
    exact h

/-- C28: setting a sampling factor by its ratio or by its numbers makes no difference. -/
theorem C28_alias {pf : Platform} (hpf : pf.Valid) {q : UInt8} {calls : List Spec.Call} {s s' : SamplingFactor} (hss : s.factors = s'.factors)
    {e e' : Encoder} (hc : Configured pf q (calls ++ [.setSamplingFactor s]) e) (hc' : Configured pf q (calls ++ [.setSamplingFactor s']) e')
    (simd : Bool) (data : Bytes) (w h : UInt16) (ct : ColorType) (hlen : w.toNat * h.toNat * ct.bytesPerPixel ≤ data.length)
    (hsl : Spec.SliceOk pf data) (hs : Spec.Supported pf simd e (Spec.fileColor ct) w h (Spec.samplesOf ct data w.toNat)) :
    Spec.SameOutput (e.encode pf simd data w h ct) (e'.encode pf simd data w h ct) := by
  have hset := hc.settings.1
  have hset' := hc'.settings.1
  refine C28_settings_determine_output hpf hc hc' ?_ ?_ ?_ ?_ ?_ ?_ ?_ (.data data w h ct hlen hsl) (.data data w h ct hlen hsl) hs
  · rw [hset.density, hset'.density, latest_snoc, latest_snoc]; rfl
  · rw [hset.sampling, hset'.sampling, latest_snoc, latest_snoc]; exact hss
  · rw [hset.quant, hset'.quant, latest_snoc, latest_snoc]; rfl
  · rw [hset.scans, hset'.scans, latest_snoc, latest_snoc]; rfl
  · rw [hset.restart, hset'.restart, latest_snoc, latest_snoc]; rfl
  · rw [hset.optimized, hset'.optimized, latest_snoc, latest_snoc]; rfl
  · simp [List.flatMap_append, Spec.Call.segments]

/-- The names by ratio and the factors they stand for. -/
theorem C28_alias_factors : SamplingFactor.R_4_4_4.factors = SamplingFactor.F_1_1.factors ∧ SamplingFactor.R_4_4_0.factors = SamplingFactor.F_1_2.factors ∧
    SamplingFactor.R_4_4_1.factors = SamplingFactor.F_1_4.factors ∧ SamplingFactor.R_4_2_2.factors = SamplingFactor.F_2_1.factors ∧
    SamplingFactor.R_4_2_0.factors = SamplingFactor.F_2_2.factors ∧ SamplingFactor.R_4_2_1.factors = SamplingFactor.F_2_4.factors ∧
    SamplingFactor.R_4_1_1.factors = SamplingFactor.F_4_1.factors ∧ SamplingFactor.R_4_1_0.factors = SamplingFactor.F_4_2.factors := by decide

/-! ### C27 -/

/-- An image buffer that panics unless all buffers of its components have room for another `width` samples without reallocation. -/
def Spec.demanding (ct : JpegColorType) (w h : UInt16) (P : Nat → Nat → Nat → UInt8) : ImageBuffer :=
  ⟨ct, w, h, fun y rows =>
    if (List.range (Spec.componentCount ct)).all fun c => decide ((rows.buf c).data.length + w.toNat ≤ (rows.buf c).cap) then
      .ok (Rows.ofFn fun c => if c < Spec.componentCount ct then ⟨(rows.buf c).data ++ (List.range w.toNat).map (P c y.toNat), (rows.buf c).cap⟩
        else rows.buf c)
    else .error (.panic .ub)⟩

theorem numComponents_count (ct : JpegColorType) : ct.numComponents = Spec.componentCount ct := by cases ct <;> rfl

theorem demanding_delivers (ct : JpegColorType) (w h : UInt16) (P : Nat → Nat → Nat → UInt8) : Delivers (Spec.demanding ct w h P) P := by
  intro y hy rows hcap
  dsimp only [Spec.demanding] at hy hcap ⊢
  rw [numComponents_count] at *
  have hy' : (UInt16.ofNat y).toNat = y := by
    rw [UInt16.toNat_ofNat']
    have := h.toNat_lt
    omega
  rw [if_pos (by simpa using hcap), hy']
  simp only [numComponents_count]

/-- C27: the buffers `encode_image` passes to `fill_buffers` always have room for `width` more samples per component: an image buffer
that insists on it never fails. -/
theorem C27_capacity {pf : Platform} (hpf : pf.Valid) {q : UInt8} {calls : List Spec.Call} {e : Encoder} (hc : Configured pf q calls e) (simd : Bool)
    (ct : JpegColorType) (w h : UInt16) (P : Nat → Nat → Nat → UInt8) (hs : Spec.Supported pf simd e ct w h P) :
    ∃ bytes, Spec.Writes (e.encodeImage pf simd (Spec.demanding ct w h P)) bytes := by
  obtain ⟨t, -, h1⟩ := writes_image hpf hc simd (demanding_delivers ct w h P) hs
  exact ⟨_, h1⟩

/-- C27: with AVX2, `encode` performs no undefined behaviour: writes past the capacity are an error in the model, and it does not
occur. -/
theorem C27_avx2_no_ub {pf : Platform} (hpf : pf.Valid) {q : UInt8} {calls : List Spec.Call} {e : Encoder} (hc : Configured pf q calls e)
    (data : Bytes) (w h : UInt16) (ct : ColorType) (hlen : w.toNat * h.toNat * ct.bytesPerPixel ≤ data.length) (hsl : Spec.SliceOk pf data)
    (hs : Spec.Supported pf true e (Spec.fileColor ct) w h (Spec.samplesOf ct data w.toNat)) : ∃ bytes, Spec.Writes (e.encode pf true data w h ct) bytes := by
  obtain ⟨image, hd, hp, hct, hw, hh⟩ := (Spec.EncodeCall.data (pf := pf) (simd := true) (e := e) data w h ct hlen hsl).image_of
  subst hw hh
  obtain ⟨t, -, h1⟩ := writes_image hpf hc true hd (by rw [← hct]; exact hs)
  rw [hp]
  exact ⟨_, h1⟩

/-! ### C29 -/

/-- C29: with `f` the frame header and `fc` its entry for component `c`, every 8x8 block of the component in the file is the transform of
samples taken at every `hmax / h`-th column and `vmax / v`-th line, those outside of the image replaced by the nearest inside. -/
theorem C29_sampling_positions {pf : Platform} (hpf : pf.Valid) {q : UInt8} {calls : List Spec.Call} {e : Encoder} (hc : Configured pf q calls e)
    {simd : Bool} {p : Prog (R Unit)} {ct : JpegColorType} {w h : UInt16} {P : Nat → Nat → Nat → UInt8} (hp : Spec.EncodeCall pf simd e p ct w h P)
    (hs : Spec.Supported pf simd e ct w h P) (h8 : Spec.EightBit e.getQuantizationTables) {strict : Bool} (hst : ScansFine strict e) :
    Spec.Encodes p strict fun _ d => ∃ f q0 q1, d.frame = some f ∧ Spec.AreTables e.getQuantizationTables q q0 q1 ∧
      ∀ c fc, f.comps[c]? = some fc → ∀ by_ bx, by_ < f.blocksHigh fc → bx < f.blocksWide fc → ∃ samples : List Int, samples.length = 64 ∧
        (∀ y x, y < 8 → x < 8 → samples[8 * y + x]? = some (((P c (min ((8 * by_ + y) * (f.vmax / fc.v)) (h.toNat - 1))
          (min ((8 * bx + x) * (f.hmax / fc.h)) (w.toNat - 1))).toNat : Int) - 128)) ∧
        ∀ k, k < 64 → Spec.IsCoef pf simd (if fc.tq = 0 then q0 else q1) samples k (d.coefs c by_ bx k) := by
  refine encodes_of hpf hc hp hs h8 hst fun image t hct hw hh _ => ?_
  obtain ⟨f, q0, q1, hf, ht, hall⟩ := decoded_image e image P t hc.wf (simd := simd) pf
  rw [hc.settings.1.quality] at ht
  refine ⟨f, q0, q1, hf, ht, fun c fc hfc y x hy hx => ⟨_, blockSamples_length _ _ _ _ _ _ _ _, ?_, fun k hk => hall c fc hfc y x k hy hx hk⟩⟩
  have hdim : f.width = w.toNat ∧ f.height = h.toNat := by
    have := (decoded_frame e (dctFn simd) image P t)
    unfold Spec.HasFrame at this
    rw [hf] at this
    simp only [Option.some.injEq] at this
    rw [this, ← hw, ← hh]
    exact ⟨rfl, rfl⟩
  intro y' x' hy' hx'
  have h1 : (8 * y' + x') / 8 = y' := by omega
  have h2 : (8 * y' + x') % 8 = x' := by omega
  rw [Spec.blockSamples, List.getElem?_map, List.getElem?_range (by omega), Option.map_some, h1, h2, hdim.1, hdim.2, Spec.sampleAt]

/-! ### Concrete cases -/

example : Spec.IsRgb .bgra ∧ ([(1, 2, 3, 4), (5, 6, 7, 8)] : List (UInt8 × UInt8 × UInt8 × UInt8)).map (fun p => (p.1, p.2.1, p.2.2.1)) =
    ([(1, 2, 3, 200), (5, 6, 7, 0)] : List (UInt8 × UInt8 × UInt8 × UInt8)).map (fun p => (p.1, p.2.1, p.2.2.1)) := ⟨by unfold Spec.IsRgb; tauto, by decide⟩

-- the demanding buffer does fail when there is no room
example : ∀ P, (Spec.demanding .luma 4 1 P).fillBuffers 0 ⟨⟨[], 3⟩, ⟨[], 0⟩, ⟨[], 0⟩, ⟨[], 0⟩⟩ = .error (.panic .ub) := fun _ => rfl

-- a configuration that satisfies the hypotheses on two platforms
example : ∃ e, Configured ⟨true, 4⟩ 30 [.setSamplingFactor .R_4_1_0, .setProgressive true] e ∧ Platform.Valid ⟨true, 4⟩ ∧ Platform.Valid ⟨false, 8⟩ ∧
    (∀ simd P, Spec.Supported ⟨true, 4⟩ simd e .ycbcr 300 200 P) ∧ (∀ simd P, Spec.Supported ⟨false, 8⟩ simd e .luma 300 200 P) ∧ e.getSamplingFactor = .R_4_1_0 := by
  obtain ⟨e, h1, h2⟩ := reachable_exists ⟨true, 4⟩ 30 [.setSamplingFactor .R_4_1_0, .setProgressive true] (by decide)
  have ho {p} : e.getOptimizedHuffmanTables = false ∨ p := Or.inl (by rw [h2.optimized]; rfl)
  exact ⟨e, h1, by decide, by decide, fun _ _ => ⟨by decide, by decide, Or.inr (Or.inl (by unfold Spec.frameOf; rw [h2.scans, h2.sampling]; decide)), ho⟩, fun _ _ => ⟨by decide, by decide, Or.inl rfl, ho⟩,
    by rw [h2.sampling]; rfl⟩

end Jpeg
