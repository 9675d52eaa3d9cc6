import Verif.Proofs.Live
import Verif.Props.Api
/-! C65, C66: image buffers with side effects. -/
namespace Jpeg

/-- The program over an image buffer with effects is the program of the model, if the answers depend on the arguments only. -/
theorem C65_same_program (pf : Platform) (simd : Bool) (e : Encoder) (ct : JpegColorType) (w h : UInt16) (f : UInt16 → Rows → R Rows) {σ τ : Type} (S : Sink σ)
    (s : σ) (t : τ) :
    let r := (e.encodeImageLive pf simd ct w h).run S (⟨fun t y rows => (t, f y rows)⟩ : LiveFill τ) s t
    (r.1, r.2.2) = (e.encodeImage pf simd ⟨ct, w, h, f⟩).run S s ∧ r.2.1 = t := by
  rw [← encodeImageLive_close f pf ct w h]
  generalize e.encodeImageLive pf simd ct w h = p
  induction p generalizing s with
  | done r => exact ⟨rfl, rfl⟩
  | write c k ih => exact ih _ _
  | fill y rows k ih => exact ih _ _

theorem order_asks {pf : Platform} (hpf : pf.Valid) (simd : Bool) (e : Encoder) (ct : JpegColorType) (w h : UInt16) :
    (e.encodeImageLive pf simd ct w h).Asks (fun n y _ => n < Spec.rowRequests e ct w h ∧ y = Spec.rowAsked h n) (fun _ _ _ => True)
      (fun _ m => m = Spec.rowRequests e ct w h) 0 :=
  encodeImageLive_asks (K := fun _ _ => True) hpf (fun _ _ _ _ _ _ _ _ _ => trivial) (fun _ _ _ _ => trivial) (fun _ _ _ => trivial) (fun _ _ hn _ => ⟨hn, rfl⟩) simd

/-- C65: whatever the image buffer does (and whatever the writer does), the rows are requested in the order 0, 1, ..., height - 1, followed by repetitions of
the last row up to a whole MCU: after any run, successful or not, the list of the requested row numbers is an initial segment of that list, and all of it after
a successful one. -/
theorem C65_rows_in_order {pf : Platform} (hpf : pf.Valid) (simd : Bool) (e : Encoder) (ct : JpegColorType) (w h : UInt16) {σ τ : Type} (S : Sink σ) (B : LiveFill τ)
    (s : σ) (t : τ) :
    let r := (e.encodeImageLive pf simd ct w h).run S (Spec.recording B) s (t, [])
    ∃ n, n ≤ Spec.rowRequests e ct w h ∧ r.2.1.2.map (·.1) = (List.range n).map (Spec.rowAsked h) ∧ (r.2.2 = .ok () → n = Spec.rowRequests e ct w h) := by
  intro r
  obtain ⟨h1, h2⟩ := (order_asks hpf simd e ct w h).recording S B (fun _ _ _ => trivial) s t [] rfl (by simp)
  refine ⟨r.2.1.2.length, ?_, ?_, h2 ()⟩
  · rcases Nat.eq_zero_or_pos r.2.1.2.length with h0 | h0
    · omega
    · have := (h1 (r.2.1.2.length - 1) _ (List.getElem?_eq_getElem (l := r.2.1.2) (by omega))).1
      omega
  · apply List.ext_getElem?
    intro i
    rw [List.getElem?_map, List.getElem?_map]
    rcases lt_or_ge i r.2.1.2.length with hi | hi
    · rw [List.getElem?_range hi]
      have := (h1 i _ (List.getElem?_eq_getElem hi)).2
      rw [List.getElem?_eq_getElem hi]
      exact congrArg some this
    · rw [List.getElem?_eq_none hi, List.getElem?_eq_none (by simpa using hi)]
      rfl

/-- C65: an image buffer with state, for example one that reads from a file or panics when a row is requested twice, leads to the same effect on the writer and the
same result as the buffer given by the function `f`, if it answers like `f` to requests in order; nothing is asked of its answers to other requests. Everything
proved about `encodeImage` holds for it. -/
theorem C65_stream {pf : Platform} (hpf : pf.Valid) (simd : Bool) (e : Encoder) (ct : JpegColorType) (w h : UInt16) {σ τ : Type} (S : Sink σ) (B : LiveFill τ)
    (f : UInt16 → Rows → R Rows) (seen : Nat → τ → Prop) (hB : Spec.AnswersInOrder B f h (Spec.rowRequests e ct w h) seen) (s : σ) (t : τ) (ht : seen 0 t) :
    let r := (e.encodeImageLive pf simd ct w h).run S B s t
    (r.1, r.2.2) = (e.encodeImage pf simd ⟨ct, w, h, f⟩).run S s ∧
      ∃ n, n ≤ Spec.rowRequests e ct w h ∧ seen n r.2.1 ∧ (r.2.2 = .ok () → n = Spec.rowRequests e ct w h) := by
  have := (order_asks hpf simd e ct w h).stream hB S (Nat.zero_le _) s t ht
  rw [encodeImageLive_close f pf ct w h] at this
  obtain ⟨h1, n, h2, h3, h4⟩ := this
  exact ⟨h1, n, h2, h3, h4 ()⟩

theorem pad_rows (k : Nat) (rows : Rows) : ∃ p, forFoldR (List.range k) rows (fun rows _ => .ok (rows.map Buf.pushLast)) = .ok p ∧
    ∀ c, Spec.rowData rows c ≠ [] → (Spec.rowData p c).length = (Spec.rowData rows c).length + k := by
  have h : ∀ l : List Nat, ∀ rows : Rows, ∃ p, forFoldR l rows (fun rows _ => .ok (rows.map Buf.pushLast)) = .ok p ∧
      ∀ c, Spec.rowData rows c ≠ [] → (Spec.rowData p c).length = (Spec.rowData rows c).length + l.length := by
    intro l
    induction l with
    | nil => exact fun rows => ⟨rows, rfl, fun _ _ => rfl⟩
    | cons x l ih =>
      intro rows
      obtain ⟨p, hp, hl⟩ := ih (rows.map Buf.pushLast)
      refine ⟨p, hp, fun c hc => ?_⟩
      have key : (Spec.rowData (rows.map Buf.pushLast) c).length = (Spec.rowData rows c).length + 1 := by
        have hb : ∀ b : Buf, b.data ≠ [] → b.pushLast.data.length = b.data.length + 1 := by
          intro b hb
          unfold Buf.pushLast
          rw [List.getLast?_eq_getLast_of_ne_nil hb]
          simp [Buf.push]
        match c, hc with
        | 0, hc => exact hb rows.b0 hc
        | 1, hc => exact hb rows.b1 hc
        | 2, hc => exact hb rows.b2 hc
        | 3, hc => exact hb rows.b3 hc
        | c + 4, hc => exact absurd rfl hc
      rw [hl c (by intro h0; rw [h0] at key; simp at key), key, List.length_cons]
      omega
  have := h (List.range k) rows
  rwa [List.length_range] at this

theorem row_init {pf : Platform} {n cap : Nat} {rows : Rows} (h : initRows pf n cap = .ok rows) (c : Nat) : Spec.rowData rows c = [] := by
  unfold initRows withCapacity at h
  split at h
  · rw [ok_bind] at h
    split at h
    all_goals first
      | (cases h; match c with
        | 0 => rfl
        | 1 => rfl
        | 2 => rfl
        | 3 => rfl
        | c + 4 => rfl)
      | cases h
  · cases h

/-- C66: what an image buffer finds in the row buffers. If it appends a line of `width` samples per component at every call, then at its `n`-th call the buffer of
every component holds exactly `linesHeld n` lines of `paddedWidth` samples: in baseline mode never as many as an MCU row has, however tall the image is. -/
theorem C66_buffers_handed {pf : Platform} (hpf : pf.Valid) (simd : Bool) (e : Encoder) (ct : JpegColorType) (w h : UInt16) {σ τ : Type} (S : Sink σ) (B : LiveFill τ)
    (hB : Spec.AppendsLines B ct w) (s : σ) (t : τ) :
    let r := (e.encodeImageLive pf simd ct w h).run S (Spec.recording B) s (t, [])
    ∀ n call, r.2.1.2[n]? = some call → ∀ c, c < Spec.componentCount ct →
      (Spec.rowData call.2 c).length = Spec.linesHeld e ct w h n * Spec.paddedWidth e ct w h := by
  have hasks := encodeImageLive_asks (pf := pf) (e := e) (ct := ct) (w := w) (h := h)
    (K := fun k rows => ∀ c, c < Spec.componentCount ct → (Spec.rowData rows c).length = k * Spec.paddedWidth e ct w h)
    (Req := fun n _ rows => ∀ c, c < Spec.componentCount ct → (Spec.rowData rows c).length = Spec.linesHeld e ct w h n * Spec.paddedWidth e ct w h)
    (Ans := fun _ rows r => ∀ rows', r = .ok rows' → ∀ c, c < Spec.componentCount ct → ∃ line : Bytes, line.length = w.toNat ∧ Spec.rowData rows' c = Spec.rowData rows c ++ line)
    hpf ?_ (fun cap rows _ hr c hc => by rw [row_init hr c]; simp) (fun k rows _ c hc => ?_) (fun n rows _ hk => hk) simd
  · exact (hasks.recording S B (fun t y rows rows' => hB t y rows rows') s t [] rfl (by simp)).1
  · intro k n rows r p hw hk hr hp c hc
    obtain ⟨line, hl, hd⟩ := hr r rfl c hc
    obtain ⟨p', hp', hlen⟩ := pad_rows (Spec.paddedWidth e ct w h - w.toNat) r
    rw [hp] at hp'
    obtain rfl := Except.ok.inj hp'
    have hw0 : 0 < w.toNat := Nat.pos_of_ne_zero fun h0 => hw (UInt16.toNat_inj.mp h0)
    have hle : w.toNat ≤ Spec.paddedWidth e ct w h := by
      obtain ⟨hg, -⟩ := initComponents_grid e.samplingFactor ct
      have hF : Spec.frameOf e ct w h = mkFrame e.mode.isProg w h (initComponents e.samplingFactor ct) := frameOf_eq e ⟨ct, w, h, fun _ r => .ok r⟩
      have hhm : (Spec.frameOf e ct w h).hmax = (maxSamplingSize (initComponents e.samplingFactor ct)).1 := by rw [hF]; exact frame_hmax hg _ _ _
      have h1 := hg.mh
      rw [← hhm] at h1
      have := Nat.lt_div_mul_add (a := w.toNat + 8 * (Spec.frameOf e ct w h).hmax - 1) (b := 8 * (Spec.frameOf e ct w h).hmax) (by omega)
      change w.toNat ≤ (w.toNat + 8 * (Spec.frameOf e ct w h).hmax - 1) / (8 * (Spec.frameOf e ct w h).hmax) * (8 * (Spec.frameOf e ct w h).hmax)
      omega
    rw [hlen c (by rw [hd]; intro h0; rw [List.append_eq_nil_iff] at h0; rw [h0.2] at hl; simp at hl; omega), hd, List.length_append, hk c hc, hl, Nat.add_mul]
    omega
  · match c with
    | 0 => simp [Spec.rowData, Rows.map, Buf.clear]
    | 1 => simp [Spec.rowData, Rows.map, Buf.clear]
    | 2 => simp [Spec.rowData, Rows.map, Buf.clear]
    | 3 => simp [Spec.rowData, Rows.map, Buf.clear]
    | c + 4 => simp [Spec.rowData]

/-- In baseline mode the row buffers never hold a whole MCU row when the next row is requested. -/
theorem C66_baseline_bounded (e : Encoder) (hb : Spec.Baseline e) (ct : JpegColorType) (w h : UInt16) (n : Nat) :
    Spec.linesHeld e ct w h n < 16 := by
  unfold Spec.linesHeld
  rw [if_pos hb]
  obtain ⟨hg, -⟩ := initComponents_grid e.samplingFactor ct
  have hF : Spec.frameOf e ct w h = mkFrame e.mode.isProg w h (initComponents e.samplingFactor ct) := frameOf_eq e ⟨ct, w, h, fun _ r => .ok r⟩
  have hvm : (Spec.frameOf e ct w h).vmax = (maxSamplingSize (initComponents e.samplingFactor ct)).2 := by rw [hF]; exact frame_vmax hg _ _ _
  have h2 : (maxSamplingSize (initComponents e.samplingFactor ct)).2 ≤ 2 := by
    have := hb.2.2.2
    unfold Encoder.getSamplingFactor at this
    revert this
    cases ct <;> cases e.samplingFactor <;> decide
  have h1 := hg.mv.1
  rw [hvm]
  have := Nat.mod_lt n (y := 8 * (maxSamplingSize (initComponents e.samplingFactor ct)).2) (by omega)
  omega

-- a buffer that counts its calls and panics as soon as a row is requested out of order meets the hypotheses of C65_stream, for every `f`
example (f : UInt16 → Rows → R Rows) (h : UInt16) (total : Nat) :
    Spec.AnswersInOrder (⟨fun t y rows => if y = Spec.rowAsked h t then (t + 1, f y rows) else (t, .error (.panic .index))⟩ : LiveFill Nat) f h total
      (fun n t => t = n) := by
  rintro n t rows - rfl
  simp

-- for a 4:2:0 image of 16 x 20 pixels the rows are 0, ..., 19, followed by 12 times row 19
example (e : Encoder) (h420 : e.samplingFactor = .R_4_2_0) : Spec.rowRequests e .ycbcr 16 20 = 32 ∧ (List.range 32).map (Spec.rowAsked 20) =
    [0, 1, 2, 3, 4, 5, 6, 7, 8, 9, 10, 11, 12, 13, 14, 15, 16, 17, 18, 19, 19, 19, 19, 19, 19, 19, 19, 19, 19, 19, 19, 19] := by
  refine ⟨?_, by decide⟩
  simp [Spec.rowRequests, Spec.frameOf, Encoder.getSamplingFactor, h420, _root_.Spec.Frame.mcusHigh, _root_.Spec.Frame.vmax, Spec.expectedComps,
    SamplingFactor.factors, _root_.Spec.ceilDiv]
  decide

-- a grey buffer of width 3 with a counter as state meets the hypothesis of C66_buffers_handed
example : Spec.AppendsLines (⟨fun t y rows => (t + 1, .ok { rows with b0 := ⟨rows.b0.data ++ [u8 t, u8 y.toNat, 7], rows.b0.cap⟩ })⟩ : LiveFill Nat) .luma 3 := by
  intro t y rows rows' hr c hc
  obtain rfl := Except.ok.inj hr
  have : c = 0 := by change c < 1 at hc; omega
  subst this
  exact ⟨_, rfl, rfl⟩

end Jpeg
