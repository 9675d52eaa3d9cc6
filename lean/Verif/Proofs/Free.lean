import Verif.Model.Free
import Verif.Proofs.Live
import Verif.Proofs.SafeEncode
import Verif.Proofs.Ends
/-! Image buffers that answer anything. -/
namespace Jpeg
open WM
set_option maxRecDepth 10000

section close
variable {α β : Type} (ct : JpegColorType) (w h : UInt16)

/-- Answer the questions for color type, width and height by constants. -/
def FProg.close : FProg α → LProg α
  | .done a => .done a
  | .write c k => .write c fun r => (k r).close
  | .width k => (k (.ok w)).close
  | .height k => (k (.ok h)).close
  | .color k => (k (.ok ct)).close
  | .fill y rows k => .fill y rows fun r => (k r).close

def FM.close (m : FM α) : LM α := fun s => (m s).close ct w h

theorem FProg.close_bind (p : FProg α) (g : α → FProg β) : (p.bind g).close ct w h = (p.close ct w h).bind fun a => (g a).close ct w h := by
  induction p with
  | done a => rfl
  | write c k ih => exact congrArg (LProg.write c) (funext ih)
  | width k ih => exact ih _
  | height k ih => exact ih _
  | color k ih => exact ih _
  | fill y rows k ih => exact congrArg (LProg.fill y rows) (funext ih)

theorem FProg.close_ofL (p : LProg α) : (FProg.ofL p).close ct w h = p := by
  induction p with
  | done a => rfl
  | write c k ih => exact congrArg (LProg.write c) (funext ih)
  | fill y rows k ih => exact congrArg (LProg.fill y rows) (funext ih)

theorem FM.close_bind (m : FM α) (g : α → FM β) : (FM.bind m g).close ct w h = LM.bind (m.close ct w h) fun a => (g a).close ct w h := by
  funext s
  show ((m s).bind _).close ct w h = ((m s).close ct w h).bind _
  rw [FProg.close_bind]
  congr 1
  funext r
  cases r <;> rfl

theorem FM.close_bind' (m : FM α) (g : α → FM β) : (m >>= g).close ct w h = m.close ct w h >>= fun a => (g a).close ct w h := FM.close_bind ct w h m g
theorem FM.close_lm (m : LM α) : (FM.lm m).close ct w h = m := funext fun s => FProg.close_ofL ct w h (m s)
theorem FM.close_wm (m : WM α) : (FM.wm m).close ct w h = LM.wm m := FM.close_lm ct w h _
theorem FM.close_lift (r : R α) : (FM.lift r).close ct w h = LM.lift r := FM.close_lm ct w h _
theorem FM.close_width : FM.width.close ct w h = LM.pure w := rfl
theorem FM.close_height : FM.height.close ct w h = LM.pure h := rfl
theorem FM.close_color : FM.color.close ct w h = LM.pure ct := rfl
theorem LM.pure_bind' (a : α) (g : α → LM β) : LM.pure a >>= g = g a := rfl
theorem LProg.bind_assoc {γ : Type} (p : LProg α) (f : α → LProg β) (g : β → LProg γ) : (p.bind f).bind g = p.bind fun a => (f a).bind g := by
  induction p with
  | done a => rfl
  | write c k ih => exact congrArg (LProg.write c) (funext ih)
  | fill y rows k ih => exact congrArg (LProg.fill y rows) (funext ih)
theorem LM.bind_assoc' {γ : Type} (m : LM α) (f : α → LM β) (g : β → LM γ) : m >>= f >>= g = m >>= fun a => f a >>= g := by
  funext s
  show ((m s).bind _).bind _ = (m s).bind _
  rw [LProg.bind_assoc]
  congr 1
  funext r
  cases r <;> rfl
theorem LM.wm_bind (m : WM α) (f : α → WM β) : (LM.wm (m >>= f) : LM β) = LM.wm m >>= fun a => LM.wm (f a) := by
  funext s
  show LProg.ofProg ((m s).bind _) = (LProg.ofProg (m s)).bind _
  generalize m s = p
  induction p with
  | done r => cases r <;> rfl
  | write c k ih => exact congrArg (LProg.write c) (funext ih)

variable (pf : Platform)

theorem writeFrameHeaderF_close (e : Encoder) (q : QuantizationTable × QuantizationTable) :
    (e.writeFrameHeaderF pf q).close ct w h = LM.wm (e.writeFrameHeader pf (face ct w h) q) := by
  unfold Encoder.writeFrameHeaderF Encoder.writeFrameHeader
  simp only [FM.close_bind', FM.close_wm, FM.close_width, FM.close_height, FM.close_color, LM.pure_bind', LM.wm_bind]
  rfl

theorem encodeScansF_close (e : Encoder) (op : Operations) (q : QuantizationTable × QuantizationTable) :
    (e.encodeScansF pf op q).close ct w h = e.encodeScansL pf op ct w h q := by
  unfold Encoder.encodeScansF Encoder.encodeScansL
  have hbl : (encodeBlocksF pf e op q).close ct w h = encodeBlocksL pf e op w h q := by
    unfold encodeBlocksF
    simp only [FM.close_bind', FM.close_width, FM.close_height, FM.close_lm, LM.pure_bind']
  rcases hp : e.progressiveScans with _ | n
  rotate_left
  · simp only
    unfold Encoder.encodeProgressiveF Encoder.encodeProgressiveL
    simp only [FM.close_bind', FM.close_lift, FM.close_wm, writeFrameHeaderF_close, hbl]
  · have hite : ∀ (c : Prop) [Decidable c] (a b : FM Unit), (if c then a else b).close ct w h = if c then a.close ct w h else b.close ct w h := by
      intro c _ a b; split <;> rfl
    simp only [hite]
    congr 1
    · unfold Encoder.encodeSequentialF Encoder.encodeSequentialL
      simp only [FM.close_bind', FM.close_lift, FM.close_wm, writeFrameHeaderF_close, hbl]
    · unfold Encoder.encodeInterleavedF Encoder.encodeInterleavedL Encoder.interleavedRowsL
      simp only [FM.close_bind', FM.close_wm, FM.close_lm, FM.close_width, FM.close_height, LM.pure_bind', writeFrameHeaderF_close]

theorem encodeImageFree_close (simd : Bool) (e : Encoder) :
    (e.encodeImageFree pf simd).close ct w h = e.encodeImageLive pf simd ct w h := by
  unfold Encoder.encodeImageFree Encoder.encodeImageLive
  rw [FProg.close_bind]
  have hz : zeroDimensionsF.close ct w h = LM.lift (.error (.err (.zeroImageDimensions w h))) := by
    unfold zeroDimensionsF
    simp only [FM.close_bind', FM.close_width, FM.close_height, FM.close_lift, LM.pure_bind']
  have : ∀ op, (e.encodeImageInternalF pf op).close ct w h = e.encodeImageInternalL pf op ct w h := by
    intro op
    have hb : ∀ g : UInt16 → FM Unit, (FM.bind FM.width g).close ct w h = (g w).close ct w h := fun g => rfl
    have hb' : ∀ g : UInt16 → FM Unit, (FM.bind FM.height g).close ct w h = (g h).close ct w h := fun g => rfl
    unfold Encoder.encodeImageInternalF
    rw [hb]
    by_cases h0 : w = 0
    · rw [if_pos h0, hz]
      unfold Encoder.encodeImageInternalL
      rw [if_pos (Or.inl h0)]
    · rw [if_neg h0, hb']
      by_cases h1 : h = 0
      · rw [if_pos h1, hz]
        unfold Encoder.encodeImageInternalL
        rw [if_pos (Or.inr h1)]
      · rw [if_neg h1]
        unfold Encoder.encodeImageInternalL Encoder.encodeCheckedF
        rw [if_neg (by tauto)]
        simp only [FM.close_bind', FM.close_lift, FM.close_wm, FM.close_color, LM.pure_bind', encodeScansF_close]
  exact congrArg₂ LProg.bind (congrFun (this _) _) rfl

end close

/-! Which failures are possible. -/

section only
variable {A : Fail → Prop} {α β : Type}

/-- Every end of the program is admitted, whatever the writer and the image buffer answer (their errors and panics must be admitted). -/
def LProg.Only (A : Fail → Prop) (I : α → BitState → Prop) : LProg (R (α × BitState)) → Prop
  | .done (.error f) => A f
  | .done (.ok a) => I a.1 a.2
  | .write _ k => ∀ e, (∀ x, e = some x → A (.err x)) → (k e).Only A I
  | .fill _ _ k => ∀ r, ROnly A r → (k r).Only A I
def LM.Only (A : Fail → Prop) (m : LM α) (Q : α → Prop := fun _ => True) : Prop := ∀ s, FreeOk s → (m s).Only A fun a s => Q a ∧ FreeOk s
def FProg.Only (A : Fail → Prop) (I : α → BitState → Prop) : FProg (R (α × BitState)) → Prop
  | .done (.error f) => A f
  | .done (.ok a) => I a.1 a.2
  | .write _ k => ∀ e, (∀ x, e = some x → A (.err x)) → (k e).Only A I
  | .width k => ∀ r, ROnly A r → (k r).Only A I
  | .height k => ∀ r, ROnly A r → (k r).Only A I
  | .color k => ∀ r, ROnly A r → (k r).Only A I
  | .fill _ _ k => ∀ r, ROnly A r → (k r).Only A I
def FM.Only (A : Fail → Prop) (m : FM α) (Q : α → Prop := fun _ => True) : Prop := ∀ s, FreeOk s → (m s).Only A fun a s => Q a ∧ FreeOk s

theorem LProg.Only.bind {I : α → BitState → Prop} {J : β → BitState → Prop} {p : LProg (R (α × BitState))} {f : R (α × BitState) → LProg (R (β × BitState))} (hp : p.Only A I)
    (hf : ∀ a s, I a s → (f (.ok (a, s))).Only A J) (he : ∀ e, f (.error e) = .done (.error e)) : (p.bind f).Only A J := by
  induction p with
  | done r =>
    cases r with
    | error e => rw [LProg.bind, he]; exact hp
    | ok a => exact hf a.1 a.2 hp
  | write c k ih => exact fun e hx => ih e (hp e hx)
  | fill y rows k ih => exact fun e hx => ih e (hp e hx)
theorem FProg.Only.bind {I : α → BitState → Prop} {J : β → BitState → Prop} {p : FProg (R (α × BitState))} {f : R (α × BitState) → FProg (R (β × BitState))} (hp : p.Only A I)
    (hf : ∀ a s, I a s → (f (.ok (a, s))).Only A J) (he : ∀ e, f (.error e) = .done (.error e)) : (p.bind f).Only A J := by
  induction p with
  | done r =>
    cases r with
    | error e => rw [FProg.bind, he]; exact hp
    | ok a => exact hf a.1 a.2 hp
  | write c k ih => exact fun e hx => ih e (hp e hx)
  | width k ih => exact fun e hx => ih e (hp e hx)
  | height k ih => exact fun e hx => ih e (hp e hx)
  | color k ih => exact fun e hx => ih e (hp e hx)
  | fill y rows k ih => exact fun e hx => ih e (hp e hx)
theorem LProg.Only.ofProg {I J : α → BitState → Prop} {p : Prog (R (α × BitState))} (h : p.Only A I) (hi : ∀ a s, I a s → J a s) : (LProg.ofProg p).Only A J := by
  induction p with
  | done r =>
    cases r with
    | error e => exact h
    | ok a => exact hi _ _ h
  | write c k ih => exact fun e hx => ih e (h e hx)
theorem FProg.Only.ofL {I : α → BitState → Prop} {p : LProg (R (α × BitState))} (h : p.Only A I) : (FProg.ofL p).Only A I := by
  induction p with
  | done r => cases r <;> exact h
  | write c k ih => exact fun e hx => ih e (h e hx)
  | fill y rows k ih => exact fun e hx => ih e (h e hx)

theorem LM.Only.bind {m : LM α} {f : α → LM β} {P : α → Prop} {Q : β → Prop} (hm : m.Only A P) (hf : ∀ a, P a → (f a).Only A Q) : (m >>= f).Only A Q := fun s hs =>
  LProg.Only.bind (hm s hs) (fun a s' hs' => hf a hs'.1 s' hs'.2) fun _ => rfl
theorem FM.Only.bind {m : FM α} {f : α → FM β} {P : α → Prop} {Q : β → Prop} (hm : m.Only A P) (hf : ∀ a, P a → (f a).Only A Q) : (m >>= f).Only A Q := fun s hs =>
  FProg.Only.bind (hm s hs) (fun a s' hs' => hf a hs'.1 s' hs'.2) fun _ => rfl
theorem LM.Only.wm {m : WM α} (h : m.Only A) : (LM.wm m).Only A := fun s hs => .ofProg (h s hs) fun _ _ h => ⟨trivial, h⟩
theorem LM.Only.lift {r : R α} {Q : α → Prop} (h : ROnly A r) (hq : ∀ a, r = .ok a → Q a) : (LM.lift r).Only A Q := fun s hs => by
  cases r with
  | ok a => exact ⟨hq a rfl, hs⟩
  | error f => exact h f rfl
theorem FM.Only.lm {m : LM α} {Q : α → Prop} (h : m.Only A Q) : (FM.lm m).Only A Q := fun s hs => .ofL (h s hs)
theorem FM.Only.wm {m : WM α} (h : m.Only A) : (FM.wm m).Only A := .lm (.wm h)
theorem FM.Only.lift {r : R α} {Q : α → Prop} (h : ROnly A r) (hq : ∀ a, r = .ok a → Q a) : (FM.lift r).Only A Q := .lm (.lift h hq)
theorem FM.Only.wm_bind {m : WM α} {f : α → FM β} {Q : β → Prop} (h : m.Only A) (hf : ∀ a, (f a).Only A Q) : (FM.wm m >>= f).Only A Q := (FM.Only.wm h).bind fun a _ => hf a
theorem LM.Only.lift_bind {r : R α} {f : α → LM β} {Q : β → Prop} (h : ROnly A r) (hf : ∀ a, r = .ok a → (f a).Only A Q) : (LM.lift r >>= f).Only A Q :=
  (LM.Only.lift (Q := fun a => r = .ok a) h fun _ h => h).bind hf
theorem FM.Only.lift_bind {r : R α} {f : α → FM β} {Q : β → Prop} (h : ROnly A r) (hf : ∀ a, r = .ok a → (f a).Only A Q) : (FM.lift r >>= f).Only A Q :=
  (FM.Only.lift (Q := fun a => r = .ok a) h fun _ h => h).bind hf
theorem FM.Only.answer {s : BitState} (hs : FreeOk s) {r : R α} (h : ROnly A r) : (FM.answer s r).Only A fun a s => True ∧ FreeOk s := by
  cases r with
  | ok a => exact ⟨trivial, hs⟩
  | error f => exact h f rfl
theorem FM.Only.width : FM.width.Only A := fun _ hs _ hr => FM.Only.answer hs hr
theorem FM.Only.height : FM.height.Only A := fun _ hs _ hr => FM.Only.answer hs hr
theorem FM.Only.color : FM.color.Only A := fun _ hs _ hr => FM.Only.answer hs hr
theorem FM.Only.size {f : UInt16 → UInt16 → FM β} {Q : β → Prop} (h : ∀ a b, (f a b).Only A Q) : (FM.width >>= fun w => FM.height >>= fun h => f w h).Only A Q :=
  FM.Only.width.bind fun _ _ => FM.Only.height.bind fun _ _ => h _ _
theorem LM.Only.pure {a : α} {Q : α → Prop} (h : Q a) : (LM.pure a).Only A Q := fun _ hs => ⟨h, hs⟩
theorem LM.Only.fill {y : UInt16} {rows : Rows} : (LM.fillBuffers y rows).Only A := fun s hs r hr => by
  cases r with
  | ok a => exact ⟨trivial, hs⟩
  | error f => exact hr f rfl
theorem LM.Only.forFold {l : List α} {s : β} {body : β → α → LM β} (h : ∀ s x, (body s x).Only A) : (LM.forFold l s body).Only A := by
  induction l generalizing s with
  | nil => exact .pure trivial
  | cons x xs ih => exact LM.Only.bind (h s x) fun a _ => ih

theorem fillLineL_only (w h : UInt16) (y bw : Nat) (rows : Rows) : (fillLineL w h y bw rows).Only A := by
  unfold fillLineL
  exact LM.Only.fill.bind fun _ _ => .lift (.forFoldR fun _ _ => .ok _) fun _ _ => trivial

variable (hA : Lax A) {pf : Platform} (hpf : pf.Valid) (simd : Bool)
include hA
theorem fillMcuRowL_only (w h : UInt16) (a b c : Nat) (rows : Rows) : (fillMcuRowL pf w h a b c rows).Only A := by
  unfold fillMcuRowL
  exact .forFold fun _ _ => .lift_bind (ckUsize_only hA _ _) fun _ _ => fillLineL_only _ _ _ _ _
include hpf

theorem interleavedRowsL_only (e : Encoder) (w h : UInt16) (q : QuantizationTable × QuantizationTable) :
    (e.interleavedRowsL pf (if simd then avx2Operations else defaultOperations) w h q).Only A := by
  unfold Encoder.interleavedRowsL
  generalize maxSamplingSize e.components = m
  obtain ⟨mh, mv⟩ := m
  dsimp only
  refine .lift_bind (ceilDiv_only hA _ _) fun _ _ => .lift_bind (ceilDiv_only hA _ _) fun _ _ => .lift_bind (ckUsize_only hA _ _) fun _ _ =>
    .lift_bind (ckUsize_only hA _ _) fun _ _ => .lift_bind (initRows_only hA _ _ _) fun _ _ => .bind (P := fun _ => True) (.forFold fun st y => ?_) fun _ _ => .wm (finalize_only hA hpf)
  exact (fillMcuRowL_only hA _ _ _ _ _ _).bind fun r _ => (LM.Only.wm (scanLoop_only hA hpf _ _ _ _ _ (fun x s => encodeMcu_only hA simd _ _ _ _ _ _ _ _))).bind fun _ _ => .pure trivial

omit hpf in
theorem writeFrameHeaderF_only (e : Encoder) (q : QuantizationTable × QuantizationTable) : (e.writeFrameHeaderF pf q).Only A := by
  unfold Encoder.writeFrameHeaderF
  refine .size fun w h => ?_
  have key : ∀ ct, (e.writeFrameHeader pf (face ct w h) q).Only A := fun ct => encWriteFrameHeader_only hA _ _ _ _
  refine .wm_bind (by only) fun _ => .wm_bind (by only) fun _ => .wm_bind (by only) fun _ => .wm_bind (by only) fun _ => .wm_bind (by only) fun _ =>
    FM.Only.color.bind fun ct _ => .wm_bind (by unfold writeChromaHuffman; only) fun _ => .wm (by unfold writeDriOpt; split <;> only)

omit hpf in
/-- The blocks of every component are within the limits of the coefficients, whatever was in the rows. -/
theorem encodeBlocksL_only {e : Encoder} {ct : JpegColorType} (hcs : e.components = initComponents e.samplingFactor ct) (w h : UInt16) {q0 q1 : QuantizationTable}
    (h0 : QuantizationTable.newWithQuality e.quantizationTables.1 e.quality.toNat true = .ok q0)
    (h1 : QuantizationTable.newWithQuality e.quantizationTables.2 e.quality.toNat false = .ok q1) :
    (encodeBlocksL pf e (if simd then avx2Operations else defaultOperations) w h (q0, q1)).Only A
      fun b => ∀ ci ∈ e.components.zipIdx, ∃ bs, b[ci.2]? = some bs ∧ ∀ b ∈ bs, GoodBlock b := by
  rw [newWithQuality_eq] at h0 h1
  cases h0
  cases h1
  have hop := opOk_for simd
  unfold opsFor at hop
  have hq : ∀ c ∈ e.components, c.quantizationTable < 2 := by
    rw [hcs]
    cases ct <;> simp [initComponents, mkComponent]
  unfold encodeBlocksL
  generalize maxSamplingSize e.components = m
  obtain ⟨mh, mv⟩ := m
  dsimp only
  refine .lift_bind (ceilDiv_only hA _ _) fun _ _ => .lift_bind (ckUsize_only hA _ _) fun _ _ => .lift_bind (ceilDiv_only hA _ _) fun _ _ =>
    .lift_bind (ckUsize_only hA _ _) fun _ _ => .lift_bind (debugAssert_only hA _ _) fun _ _ => .lift_bind (debugAssert_only hA _ _) fun _ _ =>
    .lift_bind (ckUsize_only hA _ _) fun _ _ => .lift_bind (ckUsize_only hA _ _) fun _ _ => .lift_bind (ckUsize_only hA _ _) fun _ _ =>
    .lift_bind (initRows_only hA _ _ _) fun _ _ => .bind (P := fun _ => True) (.forFold fun _ _ => fillLineL_only _ _ _ _ _) fun rows _ =>
    .lift_bind (ceilDiv_only hA _ _) fun nc _ => .lift_bind (ceilDiv_only hA _ _) fun nr _ => .lift_bind (debugAssert_only hA _ _) fun _ _ =>
    .lift_bind (debugAssert_only hA _ _) fun _ _ => .lift_bind (by unfold withCapacity; only) fun _ _ => .lift (by unfold componentBlocks; only) fun b hb => ?_
  intro ci hci
  obtain ⟨-, h2, -⟩ := mapR_inv hb
  obtain ⟨c, i⟩ := ci
  have hc : e.components[i]? = some c := by
    have := List.mem_zipIdx_iff_getElem?.mp hci
    exact this
  obtain ⟨bs, hbs, hbl⟩ := h2 i (c, i) (by rw [List.getElem?_zipIdx, hc]; simp)
  refine ⟨bs, hbs, ?_⟩
  unfold componentBlocks at hbl
  obtain ⟨_, -, hbl⟩ := bind_inv hbl
  obtain ⟨_, -, hbl⟩ := bind_inv hbl
  obtain ⟨_, -, hbl⟩ := bind_inv hbl
  obtain ⟨_, -, hbl⟩ := bind_inv hbl
  obtain ⟨_, -, hbl⟩ := bind_inv hbl
  obtain ⟨_, -, hbl⟩ := bind_inv hbl
  obtain ⟨bss, e5, hbl⟩ := bind_inv hbl
  cases hbl
  intro b' hb'
  obtain ⟨l, hl, hb'⟩ := List.mem_flatten.mp hb'
  obtain ⟨y, -, hy⟩ := (mapR_inv e5).2.2 l hl
  obtain ⟨x, -, hx⟩ := (mapR_inv hy).2.2 b' hb'
  obtain ⟨row, -, hx⟩ := bind_inv hx
  exact processBlock_good hop (steps_length _ _ _) (steps_length _ _ _) (steps_range _ _ _) (steps_range _ _ _) (hq c (List.mem_of_getElem? hc)) hx

omit simd in
theorem optimizeIf_only {e : Encoder} (hp : ∀ n, e.progressiveScans = some n → 2 ≤ n.toNat ∧ n.toNat ≤ 64) {b : Blocks}
    (hb : ∀ ci ∈ e.components.zipIdx, ∃ bs, b[ci.2]? = some bs ∧ ∀ b ∈ bs, GoodBlock b) : ROnly A (e.optimizeIf pf b) := by
  unfold Encoder.optimizeIf
  split
  swap
  · exact .ok _
  have key := fun table => optimizeTable_ends hA hpf hp table hb
  unfold Encoder.optimizeHuffman
  refine (key 0).bind fun _ => ?_
  split
  · exact (key 1).bind fun _ => .ok _
  · exact .ok _

/-- Every end of `encode_image` after the check of the dimensions is admitted. -/
theorem encodeCheckedF_only {e : Encoder} (hp : ∀ n, e.progressiveScans = some n → 2 ≤ n.toNat ∧ n.toNat ≤ 64) :
    (e.encodeCheckedF pf (if simd then avx2Operations else defaultOperations)).Only A := by
  unfold Encoder.encodeCheckedF
  refine .lift_bind (newWithQuality_only hA _ _ _) fun q0 hq0 => .lift_bind (newWithQuality_only hA _ _ _) fun q1 hq1 => FM.Only.color.bind fun ct _ => ?_
  dsimp only
  refine .wm_bind (writeMarker_only hA _ _) fun _ => .wm_bind (writeHeader_only hA _ _) fun _ => .wm_bind (writeAdobe_only hA _) fun _ =>
    .wm_bind (WM.Only.forEach fun _ => writeSegment_only hA _ _ _) fun _ => .bind (P := fun _ => True) ?_ fun _ _ => .wm (writeMarker_only hA _ _)
  generalize he : ({ e with components := initComponents e.samplingFactor ct } : Encoder) = e'
  have hcs : e'.components = initComponents e'.samplingFactor ct := by rw [← he]
  have hp' : ∀ n, e'.progressiveScans = some n → 2 ≤ n.toNat ∧ n.toNat ≤ 64 := by rw [← he]; exact hp
  have hbl : (encodeBlocksF pf e' (if simd then avx2Operations else defaultOperations) (q0, q1)).Only A
      fun b => ∀ ci ∈ e'.components.zipIdx, ∃ bs, b[ci.2]? = some bs ∧ ∀ b ∈ bs, GoodBlock b := by
    unfold encodeBlocksF
    exact .size fun w h => .lm (encodeBlocksL_only hA simd hcs w h (by rw [← he]; exact hq0) (by rw [← he]; exact hq1))
  unfold Encoder.encodeScansF
  split
  · unfold Encoder.encodeProgressiveF
    exact hbl.bind fun b hb => .lift_bind (optimizeIf_only hA hpf hp' hb) fun e'' _ => (writeFrameHeaderF_only hA _ _).bind fun _ _ =>
      .wm_bind (WM.Only.forEach fun _ => dcScan_only hA hpf _ _ _) fun _ => .lift_bind (acBands_only hA _) fun _ _ =>
      .wm (WM.Only.forEach fun _ => WM.Only.forEach fun _ => acScan_only hA hpf _ _ _ _)
  · split
    · unfold Encoder.encodeSequentialF
      exact hbl.bind fun b hb => .lift_bind (optimizeIf_only hA hpf hp' hb) fun e'' _ => (writeFrameHeaderF_only hA _ _).bind fun _ _ =>
        .wm (WM.Only.forEach fun _ => sequentialScan_only hA hpf _ _ _)
    · unfold Encoder.encodeInterleavedF
      exact (writeFrameHeaderF_only hA _ _).bind fun _ _ => .wm_bind (writeScanHeader_only hA _ _ _) fun _ =>
        .size fun w h => .lm (interleavedRowsL_only hA hpf simd _ _ _ _)

end only

theorem FProg.Only.run {A : Fail → Prop} {I : α → BitState → Prop} {p : FProg (R (α × BitState))} (h : p.Only A I) {σ τ : Type} (S : Sink σ) (B : FreeImage τ)
    (hS : ∀ w c x, (S.writeAll w c).2 = some x → A (.err x)) (hw : ∀ t, ROnly A (B.width t).2) (hh : ∀ t, ROnly A (B.height t).2)
    (hc : ∀ t, ROnly A (B.color t).2) (hf : ∀ t y rows, ROnly A (B.fill t y rows).2) (s : σ) (t : τ) :
    ROnly A (p.run S B s t).2.2 := by
  induction p generalizing s t with
  | done r =>
    cases r with
    | error e => exact .error h
    | ok a => exact .ok _
  | write c k ih => exact ih _ (h _ fun x hx => hS _ _ x hx) _ _
  | width k ih => exact ih _ (h _ (hw t)) _ _
  | height k ih => exact ih _ (h _ (hh t)) _ _
  | color k ih => exact ih _ (h _ (hc t)) _ _
  | fill y rows k ih => exact ih _ (h _ (hf t y rows)) _ _

theorem FProg.run_bind {σ τ α β : Type} (S : Sink σ) (B : FreeImage τ) (p : FProg α) (f : α → FProg β) (w : σ) (t : τ) :
    (p.bind f).run S B w t = (f (p.run S B w t).2.2).run S B (p.run S B w t).1 (p.run S B w t).2.1 := by
  induction p generalizing w t with
  | done a => rfl
  | write c k ih => exact ih _ _ _
  | width k ih => exact ih _ _ _
  | height k ih => exact ih _ _ _
  | color k ih => exact ih _ _ _
  | fill y rows k ih => exact ih _ _ _

end Jpeg
