import Verif.Props.Live
import Verif.Props.Independence
/-! C96: an encoding is a function of the settings and of the samples inside the image, for every encoder and whatever comes out. -/
namespace Jpeg

theorem LProg.Asks.close_eq {α : Type} {Req : Nat → UInt16 → Rows → Prop} {Ans : UInt16 → Rows → R Rows → Prop} {Q : α → Nat → Prop}
    {f f' : UInt16 → Rows → R Rows} (hf : ∀ n y rows, Req n y rows → f y rows = f' y rows) (ha : ∀ n y rows, Req n y rows → Ans y rows (f y rows))
    {p : LProg (R α)} {n : Nat} (hp : p.Asks Req Ans Q n) : p.close f = p.close f' := by
  induction p generalizing n with
  | done r => rfl
  | write c k ih => exact congrArg (Prog.write c) (funext fun r => ih r (hp r))
  | fill y rows k ih =>
    have h1 := ih (f y rows) (hp.2 _ (ha n y rows hp.1))
    unfold LProg.close
    rw [← hf n y rows hp.1]
    exact h1

theorem rowData_buf (rows : Rows) {c : Nat} (hc : c < 4) : Spec.rowData rows c = (rows.buf c).data := by
  match c, hc with
  | 0, _ => rfl
  | 1, _ => rfl
  | 2, _ => rfl
  | 3, _ => rfl

theorem ofFn_buf (g : Nat → Buf) {c : Nat} (hc : c < 4) : (Rows.ofFn g).buf c = g c := by
  match c, hc with
  | 0, _ => rfl
  | 1, _ => rfl
  | 2, _ => rfl
  | 3, _ => rfl

theorem pad_caps (k : Nat) (rows p : Rows) (hp : forFoldR (List.range k) rows (fun rows _ => .ok (rows.map Buf.pushLast)) = .ok p) (c : Nat) :
    (rows.buf c).cap ≤ (p.buf c).cap := by
  generalize List.range k = l at hp
  induction l generalizing rows with
  | nil => cases hp; exact le_refl _
  | cons x l ih =>
    refine le_trans ?_ (ih (rows.map Buf.pushLast) hp)
    have hb : ∀ b : Buf, b.cap ≤ b.pushLast.cap := by
      intro b
      unfold Buf.pushLast
      split
      · exact le_refl _
      · exact Nat.le_max_left _ _
    match c with
    | 0 => exact hb _
    | 1 => exact hb _
    | 2 => exact hb _
    | c + 3 => exact hb _

theorem init_caps {pf : Platform} {ct : JpegColorType} {cap : Nat} {rows : Rows} (h : initRows pf ct.numComponents cap = .ok rows) {c : Nat} (hc : c < ct.numComponents) :
    (rows.buf c).data = [] ∧ (rows.buf c).cap = cap := by
  unfold initRows withCapacity at h
  split at h
  · rw [ok_bind] at h
    have h4 : ct.numComponents = 1 ∨ ct.numComponents = 3 ∨ ct.numComponents = 4 := by cases ct <;> decide
    rcases h4 with h4 | h4 | h4 <;> rw [h4] at h hc <;> cases h
    · obtain rfl : c = 0 := by omega
      exact ⟨rfl, rfl⟩
    · match c, hc with
      | 0, _ => exact ⟨rfl, rfl⟩
      | 1, _ => exact ⟨rfl, rfl⟩
      | 2, _ => exact ⟨rfl, rfl⟩
    · match c, hc with
      | 0, _ => exact ⟨rfl, rfl⟩
      | 1, _ => exact ⟨rfl, rfl⟩
      | 2, _ => exact ⟨rfl, rfl⟩
      | 3, _ => exact ⟨rfl, rfl⟩
  · cases h

theorem padded_bounds (e : Encoder) (ct : JpegColorType) (w h : UInt16) :
    w.toNat ≤ Spec.paddedWidth e ct w h ∧ Spec.paddedWidth e ct w h ≤ w.toNat + 31 ∧ Spec.rowRequests e ct w h ≤ h.toNat + 31 ∧
      1 ≤ (Spec.frameOf e ct w h).vmax ∧ (Spec.frameOf e ct w h).vmax ≤ 4 ∧ (h.toNat = 0 → Spec.rowRequests e ct w h = 0) := by
  obtain ⟨hg, -⟩ := initComponents_grid e.samplingFactor ct
  have hF : Spec.frameOf e ct w h = mkFrame e.mode.isProg w h (initComponents e.samplingFactor ct) := frameOf_eq e ⟨ct, w, h, fun _ r => .ok r⟩
  have hhm : (Spec.frameOf e ct w h).hmax = (maxSamplingSize (initComponents e.samplingFactor ct)).1 := by rw [hF]; exact frame_hmax hg _ _ _
  have hvm : (Spec.frameOf e ct w h).vmax = (maxSamplingSize (initComponents e.samplingFactor ct)).2 := by rw [hF]; exact frame_vmax hg _ _ _
  have h1 := hg.mh
  have h2 := hg.mv
  rw [← hhm] at h1
  rw [← hvm] at h2
  have hP : Spec.paddedWidth e ct w h = (w.toNat + 8 * (Spec.frameOf e ct w h).hmax - 1) / (8 * (Spec.frameOf e ct w h).hmax) * (8 * (Spec.frameOf e ct w h).hmax) := rfl
  have hR : Spec.rowRequests e ct w h = (h.toNat + 8 * (Spec.frameOf e ct w h).vmax - 1) / (8 * (Spec.frameOf e ct w h).vmax) * (8 * (Spec.frameOf e ct w h).vmax) := rfl
  have h3 := Nat.lt_div_mul_add (a := w.toNat + 8 * (Spec.frameOf e ct w h).hmax - 1) (b := 8 * (Spec.frameOf e ct w h).hmax) (by omega)
  have h4 := Nat.div_mul_le_self (w.toNat + 8 * (Spec.frameOf e ct w h).hmax - 1) (8 * (Spec.frameOf e ct w h).hmax)
  have h5 := Nat.div_mul_le_self (h.toNat + 8 * (Spec.frameOf e ct w h).vmax - 1) (8 * (Spec.frameOf e ct w h).vmax)
  refine ⟨by omega, by omega, by omega, h2.1, h2.2, fun h0 => ?_⟩
  rw [hR, h0, Nat.div_eq_of_lt (by omega), Nat.zero_mul]

section
variable {pf : Platform} (hpf : pf.Valid) (simd : Bool) (e : Encoder)
include hpf

theorem same_program {image image' : ImageBuffer} {P P' : Nat → Nat → Nat → UInt8} (hd : Delivers image P) (hd' : Delivers image' P')
    (hct : image'.colorType = image.colorType) (hw : image'.width = image.width) (hh : image'.height = image.height)
    (hfit : image.width.toNat * image.height.toNat < 2 ^ (pf.wordBits - 1)) (hsame : Spec.SamePlanes image.colorType image.width image.height P P') :
    e.encodeImage pf simd image = e.encodeImage pf simd image' := by
  obtain ⟨ct, w, h, f⟩ := image
  obtain ⟨ct', w', h', f'⟩ := image'
  dsimp only at hct hw hh hfit hsame
  subst hct hw hh
  obtain ⟨b1, b2, b3, b4, b5, b6⟩ := padded_bounds e ct' w' h'
  have hn4 : ct'.numComponents ≤ 4 := by cases ct' <;> decide
  have hcc : Spec.componentCount ct' = ct'.numComponents := by cases ct' <;> rfl
  have hwl := w'.toNat_lt
  have hhl := h'.toNat_lt
  have hcap : Spec.paddedWidth e ct' w' h' * Spec.linesKept e ct' w' h' < 2 ^ pf.wordBits := by
    unfold Spec.linesKept
    split
    · have := Nat.mul_le_mul (show Spec.paddedWidth e ct' w' h' ≤ 2 ^ 17 by omega) (show 8 * (Spec.frameOf e ct' w' h').vmax ≤ 32 by omega)
      have : 2 ^ 32 ≤ 2 ^ pf.wordBits := Nat.pow_le_pow_right (by decide) (by rcases hpf.wordBits_eq with h | h <;> omega)
      omega
    · have h1 := Nat.mul_le_mul b2 b3
      have h2 : (w'.toNat + 31) * (h'.toNat + 31) = w'.toNat * h'.toNat + 31 * (w'.toNat + h'.toNat) + 961 := by ring
      have h3 : 2 ^ pf.wordBits = 2 * 2 ^ (pf.wordBits - 1) := by
        rcases hpf.wordBits_eq with h | h <;> rw [h] <;> norm_num
      have h4 : 2 ^ 31 ≤ 2 ^ (pf.wordBits - 1) := Nat.pow_le_pow_right (by decide) (by rcases hpf.wordBits_eq with h | h <;> omega)
      omega
  rw [← encodeImageLive_close f pf ct' w' h' simd e, ← encodeImageLive_close f' pf ct' w' h' simd e]
  refine LProg.Asks.close_eq (Req := fun _ y rows => y.toNat < h'.toNat ∧ ∀ c, c < ct'.numComponents → (rows.buf c).data.length + w'.toNat ≤ (rows.buf c).cap)
    (Ans := fun _ rows r => ∀ rows', r = .ok rows' → ∀ c, c < ct'.numComponents →
      (rows'.buf c).data.length = (rows.buf c).data.length + w'.toNat ∧ (rows'.buf c).cap = (rows.buf c).cap) ?_ ?_
    (encodeImageLive_asks (K := fun k rows => ∀ c, c < ct'.numComponents → (rows.buf c).data.length = k * Spec.paddedWidth e ct' w' h' ∧
      Spec.paddedWidth e ct' w' h' * Spec.linesKept e ct' w' h' ≤ (rows.buf c).cap) hpf ?_ ?_ ?_ ?_ simd)
  · rintro n y rows ⟨hy, hr⟩
    have h1 := hd y.toNat hy rows hr
    have h2 := hd' y.toNat hy rows hr
    dsimp only at h1 h2
    rw [UInt16.ofNat_toNat] at h1 h2
    rw [h1, h2]
    congr 2
    funext c
    split
    · rename_i hc
      congr 2
      refine List.map_congr_left fun x hx => ?_
      exact hsame c y.toNat x (by rw [hcc]; exact hc) hy (List.mem_range.mp hx)
    · rfl
  · rintro n y rows ⟨hy, hr⟩ rows' hrows c hc
    have h1 := hd y.toNat hy rows hr
    dsimp only at h1
    rw [UInt16.ofNat_toNat, hrows] at h1
    obtain rfl := Except.ok.inj h1
    rw [ofFn_buf _ (by omega), if_pos hc]
    simp
  · intro k n rows r p hw0 hk hr hp c hc
    obtain ⟨l1, c1⟩ := hr r rfl c hc
    obtain ⟨p', hp', hlen⟩ := pad_rows (Spec.paddedWidth e ct' w' h' - w'.toNat) r
    have hp2 := hp
    rw [hp] at hp'
    obtain rfl := Except.ok.inj hp'
    have hwpos : 0 < w'.toNat := Nat.pos_of_ne_zero fun h0 => hw0 (UInt16.toNat_inj.mp h0)
    have h1 := hlen c (by rw [rowData_buf _ (by omega)]; intro h0; rw [h0] at l1; simp at l1; omega)
    rw [rowData_buf _ (by omega), rowData_buf _ (by omega), l1, (hk c hc).1] at h1
    refine ⟨?_, le_trans (hk c hc).2 (c1 ▸ pad_caps _ _ _ hp2 c)⟩
    rw [h1, Nat.add_mul]
    omega
  · intro cap rows hcap' hr c hc
    rw [ckUsize_of_lt hcap] at hcap'
    obtain rfl := Except.ok.inj hcap'
    obtain ⟨h1, h2⟩ := init_caps hr hc
    rw [h1, h2]
    exact ⟨by simp, le_refl _⟩
  · intro k rows hk c hc
    have : (rows.map Buf.clear).buf c = (rows.buf c).clear := by
      match c with
      | 0 => rfl
      | 1 => rfl
      | 2 => rfl
      | c + 3 => rfl
    rw [this]
    exact ⟨by simp [Buf.clear], (hk c hc).2⟩
  · intro n rows hn hk
    have hpos : h'.toNat ≠ 0 := fun h0 => by rw [b6 h0] at hn; omega
    refine ⟨?_, fun c hc => ?_⟩
    · unfold Spec.rowAsked
      rw [UInt16.toNat_ofNat_of_lt' (by show _ < 2 ^ 16; omega)]
      omega
    · obtain ⟨h1, h2⟩ := hk c hc
      rw [h1]
      refine le_trans ?_ h2
      have h3 : Spec.linesHeld e ct' w' h' n + 1 ≤ Spec.linesKept e ct' w' h' := by
        unfold Spec.linesHeld Spec.linesKept
        split
        · exact Nat.mod_lt _ (by omega)
        · exact hn
      have h4 := Nat.mul_le_mul_left (Spec.paddedWidth e ct' w' h') h3
      rw [Nat.mul_add, Nat.mul_one, Nat.mul_comm _ (Spec.linesHeld e ct' w' h' n)] at h4
      omega

/-- C96: two calls of `encode` or `encode_image` of the same encoder with images of the same color type, size and samples (inside the image) are the same
program: with any writer they make the same calls, in the same order, and give the same result, be it success, an error or a panic. Nothing is asked of the
encoder: any settings, any Huffman and quantization tables, whether they fit the image or not. `hfit` (fewer than 2^31 pixels) is only needed on 32 bit targets. -/
theorem C96_same_program {p p' : Prog (R Unit)} {ct : JpegColorType} {w h : UInt16} {P P' : Nat → Nat → Nat → UInt8}
    (hp : Spec.EncodeCall pf simd e p ct w h P) (hp' : Spec.EncodeCall pf simd e p' ct w h P') (hfit : w.toNat * h.toNat < 2 ^ (pf.wordBits - 1))
    (hsame : Spec.SamePlanes ct w h P P') : p = p' := by
  obtain ⟨image, hd, rfl, rfl, rfl, rfl⟩ := hp.image_of
  obtain ⟨image', hd', rfl, hct, hw, hh⟩ := hp'.image_of
  exact same_program hpf simd e hd hd' hct.symm hw.symm hh.symm hfit hsame

omit hpf in
/-- A slice that fits into memory has few enough pixels. -/
theorem fit_of_slice {data : Bytes} (hsl : Spec.SliceOk pf data) {w h : UInt16} {ct : ColorType} (hlen : w.toNat * h.toNat * ct.bytesPerPixel ≤ data.length) :
    w.toNat * h.toNat < 2 ^ (pf.wordBits - 1) := by
  unfold Spec.SliceOk at hsl
  have := Nat.mul_le_mul_left (w.toNat * h.toNat) (show 1 ≤ ct.bytesPerPixel by cases ct <;> decide)
  omega

/-- C96 for trailing bytes of the slice. -/
theorem C96_trailing_data (data extra : Bytes) (w h : UInt16) (ct : ColorType) (hlen : data.length = w.toNat * h.toNat * ct.bytesPerPixel)
    (hsl : Spec.SliceOk pf (data ++ extra)) : e.encode pf simd (data ++ extra) w h ct = e.encode pf simd data w h ct := by
  have hsl0 : Spec.SliceOk pf data := by
    unfold Spec.SliceOk at *
    rw [List.length_append] at hsl
    omega
  exact (C96_same_program hpf simd e (.data data w h ct (by omega) hsl0) (.data _ w h ct (by rw [List.length_append]; omega) hsl)
    (fit_of_slice (ct := ct) hsl0 (by omega)) (trailing_planes data extra w h ct hlen)).symm

/-- C96 for the alpha bytes and the order of the color bytes. -/
theorem C96_alpha_and_order {ct ct' : ColorType} (hct : Spec.IsRgb ct) (hct' : Spec.IsRgb ct') (px px' : List (UInt8 × UInt8 × UInt8 × UInt8))
    (hcol : (px.map fun p => (p.1, p.2.1, p.2.2.1)) = px'.map fun p => (p.1, p.2.1, p.2.2.1)) (w h : UInt16)
    (hlen : px.length = w.toNat * h.toNat) (hfit : w.toNat * h.toNat * 4 < 2 ^ (pf.wordBits - 1)) :
    e.encode pf simd (px.flatMap fun p => Spec.pixelBytes ct p.1 p.2.1 p.2.2.1 p.2.2.2) w h ct =
      e.encode pf simd (px'.flatMap fun p => Spec.pixelBytes ct' p.1 p.2.1 p.2.2.1 p.2.2.2) w h ct' := by
  have hl : px'.length = px.length := by simpa using (congrArg List.length hcol).symm
  exact C96_same_program hpf simd e (pixel_call hct px w h hlen hfit) (pixel_call hct' px' w h (by omega) hfit) (by omega)
    (pixel_planes hct hct' px px' hcol w h hlen)

/-- C96 for the example in the documentation of `ImageBuffer`. -/
theorem C96_documented_example (rgb : Nat → Nat → UInt8 × UInt8 × UInt8) (image : ImageBuffer) (hct : image.colorType = .ycbcr)
    (hd : Delivers image fun c y x => Spec.ycc (rgb y x).1 (rgb y x).2.1 (rgb y x).2.2 c) (data : Bytes)
    (hdata : ∀ y x, y < image.height.toNat → x < image.width.toNat → data.getD ((y * image.width.toNat + x) * 3) 0 = (rgb y x).1 ∧
      data.getD ((y * image.width.toNat + x) * 3 + 1) 0 = (rgb y x).2.1 ∧ data.getD ((y * image.width.toNat + x) * 3 + 2) 0 = (rgb y x).2.2)
    (hlen : image.width.toNat * image.height.toNat * 3 ≤ data.length) (hsl : Spec.SliceOk pf data) :
    e.encodeImage pf simd image = e.encode pf simd data image.width image.height .rgb := by
  have h1 := Spec.EncodeCall.image (pf := pf) (simd := simd) (e := e) image _ hd
  rw [hct] at h1
  exact C96_same_program hpf simd e h1 (.data data image.width image.height .rgb hlen hsl) (fit_of_slice (ct := .rgb) hsl hlen) (documented_planes rgb _ _ data hdata)

end

-- the hypotheses are met, also by encoders and images that cannot be encoded: here a 32 bit debug build and any encoder
example (e : Encoder) : e.encode ⟨true, 4⟩ true ([5, 6, 7] ++ [8]) 3 1 .luma = e.encode ⟨true, 4⟩ true [5, 6, 7] 3 1 .luma :=
  C96_trailing_data (by decide) true e [5, 6, 7] [8] 3 1 .luma (by decide) (by unfold Spec.SliceOk; decide)

-- RGBA pixels and BGR pixels, a transparent and an opaque one
example (e : Encoder) : e.encode ⟨false, 8⟩ true [255, 0, 0, 0, 1, 2, 3, 255] 2 1 .rgba = e.encode ⟨false, 8⟩ true [0, 0, 255, 3, 2, 1] 2 1 .bgr :=
  C96_alpha_and_order (by decide) true e (.inr (.inl rfl)) (.inr (.inr (.inl rfl))) [(255, 0, 0, 0), (1, 2, 3, 255)] [(255, 0, 0, 9), (1, 2, 3, 9)] rfl 2 1 (by decide) (by decide)

end Jpeg
