import Verif.Props.Complete
import Verif.Props.Progress
/-! C84: image buffers whose `fill_buffers` panics. -/
namespace Jpeg
open _root_.Spec

namespace Spec

/-- `J` is the image buffer `I`, except that some of its calls of `fill_buffers` panic (because the pixels cannot be read, say). -/
structure PanicsOrIs (J I : ImageBuffer) : Prop where
  colorType : J.colorType = I.colorType
  width : J.width = I.width
  height : J.height = I.height
  rows : ∀ y rows, J.fillBuffers y rows = I.fillBuffers y rows ∨ ∃ k, J.fillBuffers y rows = .error (.panic k)

/-- An image buffer that honours the contract of the trait for the samples `P`, except that any of its calls of `fill_buffers` may panic. -/
def DeliversOrPanics (J : ImageBuffer) (P : Nat → Nat → Nat → UInt8) : Prop :=
  ∀ y, y < J.height.toNat → ∀ rows : Rows,
    (∀ c, c < J.colorType.numComponents → (rows.buf c).data.length + J.width.toNat ≤ (rows.buf c).cap) →
    J.fillBuffers (UInt16.ofNat y) rows = .ok (Rows.ofFn fun c =>
      if c < J.colorType.numComponents then
        ⟨(rows.buf c).data ++ (List.range J.width.toNat).map (P c y), (rows.buf c).cap⟩
      else rows.buf c) ∨ ∃ k, J.fillBuffers (UInt16.ofNat y) rows = .error (.panic k)

/-- `k` is a panic of `J`. -/
def PanicOf (J : ImageBuffer) (k : PanicKind) : Prop := ∃ y rows, J.fillBuffers y rows = .error (.panic k)

end Spec

section Cut
variable {K : PanicKind → Prop} {α β : Type}

def RCut (K : PanicKind → Prop) (r' r : R α) : Prop := r' = r ∨ ∃ k, K k ∧ r' = .error (.panic k)

theorem RCut.refl (r : R α) : RCut K r r := Or.inl rfl

theorem RCut.bind {r' r : R α} {f' f : α → R β} (h : RCut K r' r) (hf : ∀ a, RCut K (f' a) (f a)) : RCut K (r' >>= f') (r >>= f) := by
  rcases h with rfl | ⟨k, hk, rfl⟩
  · cases r' with
    | error x => exact Or.inl rfl
    | ok a => exact hf a
  · exact Or.inr ⟨k, hk, rfl⟩

theorem RCut.forFold {l : List α} {body' body : β → α → R β} (h : ∀ s x, RCut K (body' s x) (body s x)) (s : β) :
    RCut K (forFoldR l s body') (forFoldR l s body) := by
  induction l generalizing s with
  | nil => exact RCut.refl _
  | cons x xs ih => exact (h s x).bind fun s' => ih s'

/-- `p'` is `p`, or stops with one of the panics `K` at some points. -/
inductive Prog.Cut (K : PanicKind → Prop) : Prog (R α) → Prog (R α) → Prop
  | done (a : R α) : Cut K (.done a) (.done a)
  | stop (k : PanicKind) (p : Prog (R α)) : K k → Cut K (.done (.error (.panic k))) p
  | write (c : Bytes) (k' k : Option EncodingError → Prog (R α)) : (∀ r, Cut K (k' r) (k r)) → Cut K (.write c k') (.write c k)

theorem Prog.Cut.refl (p : Prog (R α)) : p.Cut K p := by
  induction p with
  | done a => exact .done a
  | write c k ih => exact .write c k k ih

theorem Prog.Cut.bind {p' p : Prog (R α)} {f' f : R α → Prog (R β)} (h : p'.Cut K p) (hf : ∀ a, (f' (.ok a)).Cut K (f (.ok a)))
    (he' : ∀ x, f' (.error x) = .done (.error x)) (he : ∀ x, f (.error x) = .done (.error x)) : (p'.bind f').Cut K (p.bind f) := by
  induction h with
  | done a =>
    cases a with
    | ok a => exact hf a
    | error x => simp only [Prog.bind, he', he]; exact .done _
  | stop k p hk => simp only [Prog.bind, he']; exact .stop k _ hk
  | write c k' k _ ih => exact .write _ _ _ ih

/-- A stopped run has written an initial part. -/
theorem Prog.Cut.exec {p' p : Prog (R α)} (h : p'.Cut K p) : p'.exec = p.exec ∨ p'.exec.1 <+: p.exec.1 ∧ ∃ k, K k ∧ p'.exec.2 = .error (.panic k) := by
  induction h with
  | done a => exact Or.inl rfl
  | stop k p hk => exact Or.inr ⟨List.nil_prefix, k, hk, rfl⟩
  | write c k' k _ ih =>
    simp only [Prog.exec]
    rcases ih none with h | ⟨h, h2⟩
    · exact Or.inl (by rw [h])
    · exact Or.inr ⟨(List.prefix_append_right_inj _).mpr h, h2⟩

def WM.Cut (K : PanicKind → Prop) (m' m : WM α) : Prop := ∀ s, (m' s).Cut K (m s)

theorem WM.Cut.refl (m : WM α) : m.Cut K m := fun s => Prog.Cut.refl (m s)

theorem WM.Cut.bind {m' m : WM α} {f' f : α → WM β} (h : m'.Cut K m) (hf : ∀ a, (f' a).Cut K (f a)) : WM.Cut K (m' >>= f') (m >>= f) :=
  fun s => Prog.Cut.bind (h s) (fun a => hf a.1 a.2) (fun _ => rfl) (fun _ => rfl)

theorem WM.Cut.lift {r' r : R α} (h : RCut K r' r) : WM.Cut K (WM.lift r') (WM.lift r) := by
  intro s
  rcases h with rfl | ⟨k, hk, rfl⟩
  · exact Prog.Cut.refl _
  · exact .stop k _ hk

theorem WM.Cut.forFold {l : List α} {body' body : β → α → WM β} (h : ∀ s x, WM.Cut K (body' s x) (body s x)) (s : β) :
    WM.Cut K (WM.forFold l s body') (WM.forFold l s body) := by
  induction l generalizing s with
  | nil => exact WM.Cut.refl _
  | cons x xs ih => exact (h s x).bind fun s' => ih s'

end Cut

section
variable {J I : ImageBuffer} (hJ : Spec.PanicsOrIs J I)
include hJ

theorem fillLine_cut (y bw : Nat) (rows : Rows) : RCut (Spec.PanicOf J) (fillLine J y bw rows) (fillLine I y bw rows) := by
  unfold fillLine
  simp only [hJ.height, hJ.width]
  refine RCut.bind ?_ fun _ => RCut.refl _
  rcases hJ.rows (UInt16.ofNat (min y (I.height.toNat - 1))) rows with h | ⟨k, h⟩
  · exact Or.inl h
  · exact Or.inr ⟨k, ⟨_, _, h⟩, h⟩

theorem fillMcuRow_cut (pf : Platform) (v bw y : Nat) (rows : Rows) :
    RCut (Spec.PanicOf J) (fillMcuRow pf J v bw y rows) (fillMcuRow pf I v bw y rows) := by
  unfold fillMcuRow
  refine RCut.forFold (fun s x => ?_) _
  exact RCut.bind (RCut.refl _) fun yy => fillLine_cut hJ yy bw s

theorem encodeBlocks_cut (pf : Platform) (e : Encoder) (op : Operations) (q : QuantizationTable × QuantizationTable) :
    RCut (Spec.PanicOf J) (encodeBlocks pf e op J q) (encodeBlocks pf e op I q) := by
  unfold encodeBlocks
  simp only [hJ.height, hJ.width]
  iterate 10 refine RCut.bind (RCut.refl _) fun _ => ?_
  refine RCut.bind (RCut.forFold (fun s x => fillLine_cut hJ x _ s) _) fun _ => RCut.refl _

theorem writeFrameHeader_like (pf : Platform) (e : Encoder) (q : QuantizationTable × QuantizationTable) :
    e.writeFrameHeader pf J q = e.writeFrameHeader pf I q := by
  unfold Encoder.writeFrameHeader
  rw [hJ.width, hJ.height, hJ.colorType]

theorem encodeInterleaved_cut (pf : Platform) (e : Encoder) (op : Operations) (q : QuantizationTable × QuantizationTable) :
    WM.Cut (Spec.PanicOf J) (e.encodeInterleaved pf op J q) (e.encodeInterleaved pf op I q) := by
  unfold Encoder.encodeInterleaved
  simp only [hJ.height, hJ.width, writeFrameHeader_like hJ]
  iterate 7 refine WM.Cut.bind (WM.Cut.refl _) fun _ => ?_
  refine WM.Cut.bind (WM.Cut.forFold (fun s y => ?_) _) fun _ => WM.Cut.refl _
  exact WM.Cut.bind (WM.Cut.lift (fillMcuRow_cut hJ pf _ _ y s.1)) fun _ => WM.Cut.refl _

theorem encodeScans_cut (pf : Platform) (e : Encoder) (op : Operations) (q : QuantizationTable × QuantizationTable) :
    WM.Cut (Spec.PanicOf J) (e.encodeScans pf op J q) (e.encodeScans pf op I q) := by
  unfold Encoder.encodeScans
  split
  · unfold Encoder.encodeProgressive
    simp only [writeFrameHeader_like hJ]
    exact WM.Cut.bind (WM.Cut.lift (encodeBlocks_cut hJ pf e op q)) fun _ => WM.Cut.refl _
  · split
    · unfold Encoder.encodeSequential
      simp only [writeFrameHeader_like hJ]
      exact WM.Cut.bind (WM.Cut.lift (encodeBlocks_cut hJ pf e op q)) fun _ => WM.Cut.refl _
    · exact encodeInterleaved_cut hJ pf e op q

end

/-- Like `WM.Cut`, and if the complete run succeeds, the stopped one has written less. -/
def WM.Less {α : Type} (K : PanicKind → Prop) (m' m : WM α) : Prop := ∀ s, (m' s).exec = (m s).exec ∨
  ∃ k, K k ∧ (m' s).exec.2 = .error (.panic k) ∧ (m' s).exec.1 <+: (m s).exec.1 ∧ ∀ x, (m s).exec.2 = .ok x → (m' s).exec.1 ≠ (m s).exec.1

theorem WM.Less.refl {α : Type} {K : PanicKind → Prop} (m : WM α) : WM.Less K m m := fun _ => Or.inl rfl

theorem WM.Cut.less {K : PanicKind → Prop} {m' m : WM Unit} (h : m'.Cut K m) (pf : Platform) :
    WM.Less K (m' >>= fun _ => writeMarker pf .eoi) (m >>= fun _ => writeMarker pf .eoi) := by
  intro s
  rcases (h s).exec with h | ⟨h, k, hk, h2⟩
  · left
    change (Prog.bind _ _).exec = (Prog.bind _ _).exec
    rw [Prog.exec_bind, Prog.exec_bind, h]
  · right
    refine ⟨k, hk, ?_⟩
    change (Prog.bind _ _).exec.2 = _ ∧ (Prog.bind _ _).exec.1 <+: (Prog.bind _ _).exec.1 ∧ ∀ x, (Prog.bind _ _).exec.2 = _ → (Prog.bind _ _).exec.1 ≠ (Prog.bind _ _).exec.1
    rw [Prog.exec_bind, Prog.exec_bind, h2]
    simp only [Prog.exec, List.append_nil]
    refine ⟨trivial, h.trans (List.prefix_append _ _), fun x hx he => ?_⟩
    cases hr : (m s).exec.2 with
    | error y => rw [hr] at hx; simp [Prog.exec] at hx
    | ok a =>
      rw [hr] at he
      have hl := congrArg List.length he
      have := h.length_le
      have hm : (writeMarker pf .eoi a.2).exec.1 = [0xFF, 0xD9] := by
        have := writeMarker_emits (pf := pf) (m := .eoi) (v := 0xD9) rfl a.2
        rw [Emits] at this
        rw [this]
        rfl
      rw [List.length_append, hm] at hl
      simp at hl
      omega

theorem WM.Less.bind {α β : Type} {K : PanicKind → Prop} {m : WM α} {f' f : α → WM β} (h : ∀ a, WM.Less K (f' a) (f a)) : WM.Less K (m >>= f') (m >>= f) := by
  intro s
  change (Prog.bind _ _).exec = (Prog.bind _ _).exec ∨ ∃ k, K k ∧ (Prog.bind _ _).exec.2 = _ ∧ (Prog.bind _ _).exec.1 <+: (Prog.bind _ _).exec.1 ∧
    ∀ x, (Prog.bind _ _).exec.2 = _ → (Prog.bind _ _).exec.1 ≠ (Prog.bind _ _).exec.1
  rw [Prog.exec_bind, Prog.exec_bind]
  cases hr : (m s).exec.2 with
  | error y => exact Or.inl rfl
  | ok a =>
    simp only
    rcases h a.1 a.2 with h | ⟨k, hk, h1, h2, h3⟩
    · exact Or.inl (by rw [h])
    · exact Or.inr ⟨k, hk, h1, (List.prefix_append_right_inj _).mpr h2, fun x hx he => h3 x hx (List.append_cancel_left he)⟩

theorem encodeImage_less {J I : ImageBuffer} (hJ : Spec.PanicsOrIs J I) (pf : Platform) (simd : Bool) (e : Encoder) :
    (e.encodeImage pf simd J).exec = (e.encodeImage pf simd I).exec ∨ ∃ k, Spec.PanicOf J k ∧ (e.encodeImage pf simd J).exec.2 = .error (.panic k) ∧
      (e.encodeImage pf simd J).exec.1 <+: (e.encodeImage pf simd I).exec.1 ∧
      ((e.encodeImage pf simd I).exec.2 = .ok () → (e.encodeImage pf simd J).exec.1 ≠ (e.encodeImage pf simd I).exec.1) := by
  have key : WM.Less (Spec.PanicOf J) (e.encodeImageInternal pf (if simd then avx2Operations else defaultOperations) J)
      (e.encodeImageInternal pf (if simd then avx2Operations else defaultOperations) I) := by
    generalize (if simd then avx2Operations else defaultOperations) = op
    unfold Encoder.encodeImageInternal
    simp only [hJ.width, hJ.height, hJ.colorType]
    split
    · exact WM.Less.refl _
    · iterate 6 refine WM.Less.bind fun _ => ?_
      exact (encodeScans_cut hJ pf _ op _).less pf
  unfold Encoder.encodeImage WM.program
  simp only [Prog.exec_bind, Prog.exec, List.append_nil]
  rcases key (BitState.init pf) with h | ⟨k, hk, h1, h2, h3⟩
  · exact Or.inl (by rw [h])
  · refine Or.inr ⟨k, hk, by rw [h1]; rfl, h2, fun hok => ?_⟩
    cases hr : ((e.encodeImageInternal pf (if simd then avx2Operations else defaultOperations) I) (BitState.init pf)).exec.2 with
    | error x => rw [hr] at hok; cases hok
    | ok x => exact h3 x hr

/-- C84: an image buffer that panics instead of giving some row leads, unless it is not asked for such a row, to its panic, and what has been written by then is an initial part of
what the image without the panics gives. -/
theorem C84_initial_part {J I : ImageBuffer} (hJ : Spec.PanicsOrIs J I) (pf : Platform) (simd : Bool) (e : Encoder) (out : Bytes) :
    (e.encodeImage pf simd J).run vecSink out = (e.encodeImage pf simd I).run vecSink out ∨
    ∃ acc k, Spec.PanicOf J k ∧ (e.encodeImage pf simd J).run vecSink out = (out ++ acc, .error (.panic k)) ∧
      out ++ acc <+: ((e.encodeImage pf simd I).run vecSink out).1 := by
  simp only [Prog.run_vec]
  rcases encodeImage_less hJ pf simd e with h | ⟨k, hk, h1, h2, -⟩
  · exact Or.inl (by rw [h])
  · exact Or.inr ⟨_, k, hk, by rw [h1], (List.prefix_append_right_inj _).mpr h2⟩

/-- Without its panics the image would be encoded. -/
theorem deliversOrPanics_exec {pf : Platform} (hpf : pf.Valid) {q : UInt8} {calls : List Spec.Call} {e : Encoder} (hc : Configured pf q calls e) {simd : Bool} {J : ImageBuffer}
    {P : Nat → Nat → Nat → UInt8} (hJ : Spec.DeliversOrPanics J P) (hs : Spec.Supported pf simd e J.colorType J.width J.height P) : ∃ f, IsOutput f ∧
    ((e.encodeImage pf simd J).exec = (f, .ok ()) ∨ ∃ k, Spec.PanicOf J k ∧ (e.encodeImage pf simd J).exec.2 = .error (.panic k) ∧
      (e.encodeImage pf simd J).exec.1 <+: f ∧ (e.encodeImage pf simd J).exec.1 ≠ f) := by
  let I : ImageBuffer := { J with fillBuffers := fun y rows => match J.fillBuffers y rows with
    | .error (.panic _) => .ok (Rows.ofFn fun c => if c < J.colorType.numComponents then
        ⟨(rows.buf c).data ++ (List.range J.width.toNat).map (P c y.toNat), (rows.buf c).cap⟩ else rows.buf c)
    | a => a }
  have hI : Delivers I P := by
    intro y hy rows hcap
    change (match J.fillBuffers (UInt16.ofNat y) rows with | .error (.panic _) => _ | a => a) = _
    rcases hJ y hy rows hcap with h | ⟨k, h⟩
    · rw [h]
    · rw [h]
      have : (UInt16.ofNat y).toNat = y := by
        have := J.height.toNat_lt
        have hy' : y < J.height.toNat := hy
        rw [UInt16.toNat_ofNat']
        omega
      simp only [this]
      rfl
  have hJI : Spec.PanicsOrIs J I := by
    refine ⟨rfl, rfl, rfl, fun y rows => ?_⟩
    change _ = (match J.fillBuffers y rows with | .error (.panic _) => _ | a => a) ∨ _
    cases hf : J.fillBuffers y rows with
    | ok a => exact Or.inl rfl
    | error x =>
      cases x with
      | panic k => exact Or.inr ⟨k, rfl⟩
      | _ => exact Or.inl rfl
  have hsI : Spec.Supported pf simd e I.colorType I.width I.height P := hs
  obtain ⟨t, ht⟩ := hsI.works hc.wf
  have hrun := encode_run hpf hI hc.wf hsI ht []
  have hexec : (e.encodeImage pf simd I).exec = (e.file (dctFn simd) I P t, .ok ()) := by
    rw [Prog.run_vec] at hrun
    simpa using hrun
  have ho : IsOutput (e.file (dctFn simd) I P t) := .of_call hpf hc (.encodeImage I) (by simpa using hrun)
  refine ⟨_, ho, ?_⟩
  have hv := encodeImage_less hJI pf simd e
  rw [hexec] at hv
  rcases hv with h | ⟨k, h1, h2, h3, h4⟩
  · exact Or.inl h
  · exact Or.inr ⟨k, h1, h2, h3, h4 rfl⟩

/-- C84: for any writer, and any image buffer that honours the contract or panics: `Ok` is returned exactly if the writer has got a complete image. Otherwise the result is an error from
the writer or a panic of the image buffer, and a reader that skips segments by their lengths, and every decoder, sees that something is missing. -/
theorem C84_outcome {pf : Platform} (hpf : pf.Valid) {q : UInt8} {calls : List Spec.Call} {e : Encoder} (hc : Configured pf q calls e) {simd : Bool} {J : ImageBuffer}
    {P : Nat → Nat → Nat → UInt8} (hJ : Spec.DeliversOrPanics J P) (hs : Spec.Supported pf simd e J.colorType J.width J.height P)
    {σ : Type} {io : IoWrite σ} (hio : io.Honest) {s s' : σ} {acc : Bytes} {r : R Unit} (h : io.Runs (e.encodeImage pf simd J) s acc s' r) :
    (r = .ok () ↔ afterImage acc = some []) ∧
    (r ≠ .ok () → ((∃ x, r = .error (.err x)) ∨ ∃ k, Spec.PanicOf J k ∧ r = .error (.panic k)) ∧ afterImage acc = none ∧ ∀ strict, decode strict acc = none) := by
  obtain ⟨f, ho, hv⟩ := deliversOrPanics_exec hpf hc hJ hs
  have hstrict := (Spec.AnyCall.encodeImage (pf := pf) (simd := simd) (e := e) J).strict
  have hpre : (e.encodeImage pf simd J).exec.1 <+: f := by
    rcases hv with h | ⟨k, -, -, h, -⟩
    · rw [h]
    · exact h
  have hacc : acc <+: f := (h.accepted hstrict).1.trans hpre
  have hj := C83_judged ho hacc
  by_cases hok : r = .ok ()
  · subst hok
    refine ⟨⟨fun _ => hj.1.mp ?_, fun _ => rfl⟩, fun hn => absurd rfl hn⟩
    rcases h.missing hio hstrict with ⟨h1, h2⟩ | ⟨-, x, h2⟩
    · rcases hv with hv | ⟨k, -, hv, -⟩
      · rw [h1, hv]
      · rw [hv] at h2; cases h2
    · cases h2
  · have hne : acc ≠ f ∧ ((∃ x, r = .error (.err x)) ∨ ∃ k, Spec.PanicOf J k ∧ r = .error (.panic k)) := by
      rcases h.missing hio hstrict with ⟨h1, h2⟩ | ⟨h1, x, h2⟩
      · rcases hv with hv | ⟨k, hk, hv, -, hn⟩
        · rw [hv] at h2
          exact absurd h2 hok
        · exact ⟨h1 ▸ hn, Or.inr ⟨k, hk, h2.trans hv⟩⟩
      · refine ⟨fun he => ?_, Or.inl ⟨x, h2⟩⟩
        have := hpre.length_le
        rw [he] at h1
        omega
    have hm := hj.2 hne.1
    refine ⟨⟨fun h => absurd h hok, fun ha => ?_⟩, fun _ => ⟨hne.2, hm⟩⟩
    rw [hm.1] at ha
    cases ha

/-- C84 for a `Vec<u8>`. -/
theorem C84_vec {pf : Platform} (hpf : pf.Valid) {q : UInt8} {calls : List Spec.Call} {e : Encoder} (hc : Configured pf q calls e) {simd : Bool} {J : ImageBuffer}
    {P : Nat → Nat → Nat → UInt8} (hJ : Spec.DeliversOrPanics J P) (hs : Spec.Supported pf simd e J.colorType J.width J.height P) (out : Bytes) :
    ∃ acc, ((e.encodeImage pf simd J).run vecSink out = (out ++ acc, .ok ()) ∧ afterImage acc = some []) ∨
      ∃ k, Spec.PanicOf J k ∧ (e.encodeImage pf simd J).run vecSink out = (out ++ acc, .error (.panic k)) ∧ afterImage acc = none ∧ ∀ strict, decode strict acc = none := by
  obtain ⟨f, ho, hv⟩ := deliversOrPanics_exec hpf hc hJ hs
  refine ⟨(e.encodeImage pf simd J).exec.1, ?_⟩
  rw [Prog.run_vec]
  rcases hv with h | ⟨k, h1, h2, h3, h4⟩
  · rw [h]
    exact Or.inl ⟨rfl, (C83_judged ho (List.prefix_refl f)).1.mp rfl⟩
  · exact Or.inr ⟨k, h1, by rw [h2], (C83_judged ho h3).2 h4⟩

-- The hypotheses of C84: any image whose rows from `n` on cannot be read, and concretely a gray image of 2x9 pixels that panics in its last row.
theorem Delivers.stopping {image : ImageBuffer} {P : Nat → Nat → Nat → UInt8} (h : Delivers image P) (n : UInt16) (k : PanicKind) :
    Spec.DeliversOrPanics (Spec.stoppingAt n k image) P := by
  intro y hy rows hcap
  change (if UInt16.ofNat y < n then image.fillBuffers (UInt16.ofNat y) rows else .error (.panic k)) = _ ∨
    ∃ k', (if UInt16.ofNat y < n then image.fillBuffers (UInt16.ofNat y) rows else .error (.panic k)) = .error (.panic k')
  split
  · exact Or.inl (h y hy rows hcap)
  · exact Or.inr ⟨k, rfl⟩

example (out : Bytes) : ∃ e acc, ((e : Encoder).encodeImage ⟨true, 8⟩ false (Spec.stoppingAt 20 .assert (imageFor ⟨true, 8⟩ false (List.replicate 2400 7) 20 40 .rgb))).run vecSink out =
    (out ++ acc, .error (.panic .assert)) ∧ acc ≠ [] ∧ afterImage acc = none ∧ decode false acc = none := by
  obtain ⟨e, h1, h2⟩ := reachable_exists ⟨true, 8⟩ 80 [] (by decide)
  have hsf : e.getSamplingFactor = .F_2_2 := h2.sampling.trans (by decide)
  have hv : (Spec.frameOf e .ycbcr 20 40).vmax = 2 := by
    unfold Spec.frameOf
    rw [hsf]
    rfl
  have hd := delivers_builtin (pf := ⟨true, 8⟩) (data := List.replicate 2400 7) (w := 20) (h := 40) (ct := .rgb) false (by rw [List.length_replicate]; decide)
    (by unfold Spec.SliceOk; rw [List.length_replicate]; decide)
  have h3 : e.getProgressiveScans = none := h2.scans
  have h4 : e.getOptimizedHuffmanTables = false := h2.optimized
  obtain ⟨front, back, tail, hf, -, hst, -⟩ := C67_streamed (by decide) h1 ⟨h3, h4, by rw [hsf]; decide, by rw [hsf]; decide⟩ false hd (show (20 : UInt16) ≠ 0 by decide)
    (r := 1) le_rfl (n := 16) (m := 20) (by change _ = 1 * (8 * (Spec.frameOf e .ycbcr 20 40).vmax); rw [hv]; decide) (by decide)
    (by change _ < (1 + 1) * (8 * (Spec.frameOf e .ycbcr 20 40).vmax); rw [hv]; decide) (show (20 : UInt16) < 40 by decide)
  obtain ⟨acc, ⟨h5, -⟩ | ⟨k, -, h5, h6, h7⟩⟩ := C84_vec (by decide) h1 (simd := false) (hd.stopping 20 .assert) ⟨show (20 : UInt16) ≠ 0 by decide, show (40 : UInt16) ≠ 0 by decide, Or.inl rfl, Or.inl h4⟩ out
  · rw [hst .assert out] at h5
    exact nomatch (Prod.mk.inj h5).2
  · rw [hst .assert out] at h5
    obtain ⟨h8, h9⟩ := Prod.mk.inj h5
    obtain rfl := List.append_cancel_left h8
    refine ⟨e, _, hst .assert out, fun h0 => ?_, h6, h7 false⟩
    obtain ⟨len, hl⟩ := hf
    simp only [List.append_eq_nil_iff] at h0
    rw [h0.1.1] at hl
    simp at hl

end Jpeg
