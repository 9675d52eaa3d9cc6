import Verif.Proofs.Framing
import Verif.Props.Free
/-! The framing of the output for image buffers that answer anything (C85). -/
namespace Jpeg
open _root_.Spec

theorem between_unfinished (acc : Bytes) (h : Between acc) : Unfinished acc := h.unfinished
theorem scan_unfinished (acc : Bytes) (h : InScan acc) : Unfinished acc := h.unfinished
theorem between' {α : Type} (_ : α) (acc : Bytes) (h : Between acc) : Unfinished acc := h.unfinished

section
variable {α β : Type}

/-- Ends with an output in `Q`, or fails with an unfinished one, whatever the image buffer answers; a failing write ends the program. -/
def LProg.Tri (Q : α → Bytes → Prop) : LProg (R (α × BitState)) → Bytes → Prop
  | .done (.ok x), acc => Q x.1 acc
  | .done (.error _), acc => Unfinished acc
  | .write c k, acc => (∀ e, k (some e) = .done (.error (.err e))) ∧ Unfinished acc ∧ (k none).Tri Q (acc ++ c)
  | .fill _ _ k, acc => ∀ r, (k r).Tri Q acc

theorem LProg.Tri.bind {Q : α → Bytes → Prop} {T : β → Bytes → Prop} {p : LProg (R (α × BitState))} {f : α → LM β} {acc : Bytes} (hp : p.Tri Q acc)
    (hf : ∀ a s acc, Q a acc → (f a s).Tri T acc) :
    (p.bind fun | .error e => .done (.error e) | .ok (a, s') => f a s').Tri T acc := by
  induction p generalizing acc with
  | done r =>
    cases r with
    | ok x => exact hf _ _ _ hp
    | error e => exact hp
  | write c k ih =>
    refine ⟨fun e => ?_, hp.2.1, ih none hp.2.2⟩
    simp only [hp.1 e, LProg.bind]
  | fill y rows k ih => exact fun r => ih r (hp r)

def LM.Tri (P : Bytes → Prop) (m : LM α) (Q : α → Bytes → Prop) : Prop := ∀ s acc, P acc → (m s).Tri Q acc

theorem LM.Tri.bind {P : Bytes → Prop} {m : LM α} {Q : α → Bytes → Prop} {f : α → LM β} {T : β → Bytes → Prop} (hm : LM.Tri P m Q) (hf : ∀ a, LM.Tri (Q a) (f a) T) :
    LM.Tri P (m >>= f) T := fun s acc hp => LProg.Tri.bind (hm s acc hp) fun a s' acc' h => hf a s' acc' h

theorem Unfinished.prefix {a b : Bytes} (h : Unfinished (a ++ b)) : Unfinished a := by
  cases hx : afterImage a with
  | none => exact hx
  | some r =>
    have := afterImage_mono a b r hx
    rw [h] at this
    cases this

theorem LProg.Tri.ofProg {Q : α → Bytes → Prop} (hQ : ∀ a acc, Q a acc → Unfinished acc) {p : Prog (R (α × BitState))} (hs : p.Strict) {acc : Bytes}
    (h : match p.exec.2 with | .ok x => Q x.1 (acc ++ p.exec.1) | .error _ => Unfinished (acc ++ p.exec.1)) : (LProg.ofProg p).Tri Q acc := by
  induction p generalizing acc with
  | done r =>
    simp only [Prog.exec, List.append_nil] at h
    cases r <;> exact h
  | write c k ih =>
    refine ⟨fun e => by simp only [LProg.ofProg, hs.1 e], ?_, ih none hs.2 ?_⟩
    · refine Unfinished.prefix (b := c ++ (k none).exec.1) ?_
      simp only [Prog.exec] at h
      split at h
      · exact hQ _ _ h
      · exact h
    · simp only [Prog.exec, ← List.append_assoc] at h
      exact h

theorem LM.Tri.wm {P : Bytes → Prop} {m : WM α} {Q : α → Bytes → Prop} (hQ : ∀ a acc, Q a acc → Unfinished acc) (h : WM.Tri P m Q) (hs : m.Strict) : LM.Tri P (LM.wm m) Q := fun s acc hp =>
  LProg.Tri.ofProg hQ (hs s) (h s acc hp)

theorem LM.Tri.lift {P : Bytes → Prop} (hP : ∀ acc, P acc → Unfinished acc) {r : R α} : LM.Tri P (LM.lift r) fun _ => P :=
  .wm (fun _ => hP) (.lift hP fun _ _ _ h => h) (.lift r)
theorem LM.Tri.lift_bind {P : Bytes → Prop} (hP : ∀ acc, P acc → Unfinished acc) {r : R α} {f : α → LM β} {T : β → Bytes → Prop} (hf : ∀ a, LM.Tri P (f a) T) :
    LM.Tri P (LM.lift r >>= f) T := LM.Tri.bind (LM.Tri.lift hP) hf
theorem LM.Tri.pure {P : Bytes → Prop} (a : α) : LM.Tri P (LM.pure a) fun _ => P := fun _ _ h => h
theorem LM.Tri.fill {P : Bytes → Prop} (hP : ∀ acc, P acc → Unfinished acc) (y : UInt16) (rows : Rows) : LM.Tri P (LM.fillBuffers y rows) fun _ => P := by
  intro s acc hp r
  cases r with
  | ok r => exact hp
  | error e => exact hP acc hp
theorem LM.Tri.forFold {P : Bytes → Prop} {l : List α} {body : β → α → LM β} (h : ∀ s x, LM.Tri P (body s x) fun _ => P) :
    ∀ {s : β}, LM.Tri P (LM.forFold l s body) fun _ => P := by
  induction l with
  | nil => exact fun {s} => LM.Tri.pure s
  | cons x l ih => exact fun {s} => LM.Tri.bind (h s x) fun s' => ih

theorem fillLineL_tri {P : Bytes → Prop} (hP : ∀ acc, P acc → Unfinished acc) (w h : UInt16) (y bw : Nat) (rows : Rows) : LM.Tri P (fillLineL w h y bw rows) fun _ => P :=
  (LM.Tri.fill hP _ _).bind fun _ => LM.Tri.lift hP

theorem encodeBlocksL_tri {P : Bytes → Prop} (hP : ∀ acc, P acc → Unfinished acc) (pf : Platform) (e : Encoder) (op : Operations) (w h : UInt16) (q : QuantizationTable × QuantizationTable) :
    LM.Tri P (encodeBlocksL pf e op w h q) fun _ => P := by
  unfold encodeBlocksL
  dsimp only
  repeat with_reducible refine LM.Tri.lift_bind hP fun _ => ?_
  refine LM.Tri.bind (LM.Tri.forFold fun _ _ => fillLineL_tri hP _ _ _ _ _) fun _ => ?_
  repeat with_reducible refine LM.Tri.lift_bind hP fun _ => ?_
  exact LM.Tri.lift hP

theorem interleavedRowsL_tri (pf : Platform) (hpf : pf.Valid) (e : Encoder) (op : Operations) (w h : UInt16) (q : QuantizationTable × QuantizationTable) :
    LM.Tri InScan (e.interleavedRowsL pf op w h q) fun _ => Between := by
  have hP : ∀ acc, InScan acc → Unfinished acc := fun _ => InScan.unfinished
  unfold Encoder.interleavedRowsL
  dsimp only
  repeat with_reducible refine LM.Tri.lift_bind hP fun _ => ?_
  refine LM.Tri.bind (LM.Tri.forFold fun _ _ => ?_) fun _ => LM.Tri.wm between' (finalize_between pf hpf) (finalize_strict _)
  refine LM.Tri.bind (LM.Tri.forFold fun _ _ => LM.Tri.lift_bind hP fun _ => fillLineL_tri hP _ _ _ _ _) fun _ => ?_
  refine LM.Tri.bind (LM.Tri.wm (fun _ => hP) (scanLoop_stays pf hpf _ _ (fun _ _ => encodeMcu_stays pf hpf _ _ _ _ _ _ _ _ _) _ _)
    (scanLoop_strict _ _ _ _ _ _ fun _ _ => encodeMcu_strict _ _ _ _ _ _ _ _ _ _)) fun _ => LM.Tri.pure _

/-! ### All methods of the image buffer -/

def FProg.Tri (Q : α → Bytes → Prop) : FProg (R (α × BitState)) → Bytes → Prop
  | .done (.ok x), acc => Q x.1 acc
  | .done (.error _), acc => Unfinished acc
  | .write c k, acc => (∀ e, k (some e) = .done (.error (.err e))) ∧ Unfinished acc ∧ (k none).Tri Q (acc ++ c)
  | .width k, acc => ∀ r, (k r).Tri Q acc
  | .height k, acc => ∀ r, (k r).Tri Q acc
  | .color k, acc => ∀ r, (k r).Tri Q acc
  | .fill _ _ k, acc => ∀ r, (k r).Tri Q acc

theorem FProg.Tri.bind {Q : α → Bytes → Prop} {T : β → Bytes → Prop} {p : FProg (R (α × BitState))} {f : α → FM β} {acc : Bytes} (hp : p.Tri Q acc)
    (hf : ∀ a s acc, Q a acc → (f a s).Tri T acc) :
    (p.bind fun | .error e => .done (.error e) | .ok (a, s') => f a s').Tri T acc := by
  induction p generalizing acc with
  | done r =>
    cases r with
    | ok x => exact hf _ _ _ hp
    | error e => exact hp
  | write c k ih =>
    refine ⟨fun e => ?_, hp.2.1, ih none hp.2.2⟩
    simp only [hp.1 e, FProg.bind]
  | width k ih => exact fun r => ih r (hp r)
  | height k ih => exact fun r => ih r (hp r)
  | color k ih => exact fun r => ih r (hp r)
  | fill y rows k ih => exact fun r => ih r (hp r)

def FM.Tri (P : Bytes → Prop) (m : FM α) (Q : α → Bytes → Prop) : Prop := ∀ s acc, P acc → (m s).Tri Q acc

theorem FM.Tri.bind' {P : Bytes → Prop} {m : FM α} {Q : α → Bytes → Prop} {f : α → FM β} {T : β → Bytes → Prop} (hm : FM.Tri P m Q) (hf : ∀ a, FM.Tri (Q a) (f a) T) :
    FM.Tri P (FM.bind m f) T := fun s acc hp => FProg.Tri.bind (hm s acc hp) fun a s' acc' h => hf a s' acc' h
theorem FM.Tri.bind {P : Bytes → Prop} {m : FM α} {Q : α → Bytes → Prop} {f : α → FM β} {T : β → Bytes → Prop} (hm : FM.Tri P m Q) (hf : ∀ a, FM.Tri (Q a) (f a) T) :
    FM.Tri P (m >>= f) T := FM.Tri.bind' hm hf

theorem FProg.Tri.ofL {Q : α → Bytes → Prop} {p : LProg (R (α × BitState))} {acc : Bytes} (h : p.Tri Q acc) : (FProg.ofL p).Tri Q acc := by
  induction p generalizing acc with
  | done r => cases r <;> exact h
  | write c k ih => exact ⟨fun e => by simp only [FProg.ofL, h.1 e], h.2.1, ih none h.2.2⟩
  | fill y rows k ih => exact fun r => ih r (h r)

theorem FM.Tri.lm {P : Bytes → Prop} {m : LM α} {Q : α → Bytes → Prop} (h : LM.Tri P m Q) : FM.Tri P (FM.lm m) Q := fun s acc hp => .ofL (h s acc hp)
theorem FM.Tri.wm {P : Bytes → Prop} {m : WM α} {Q : α → Bytes → Prop} (hQ : ∀ a acc, Q a acc → Unfinished acc) (h : WM.Tri P m Q) (hs : m.Strict) : FM.Tri P (FM.wm m) Q := .lm (.wm hQ h hs)
theorem FM.Tri.wm_bind {P : Bytes → Prop} {m : WM α} {Q : α → Bytes → Prop} {f : α → FM β} {T : β → Bytes → Prop} (hQ : ∀ a acc, Q a acc → Unfinished acc)
    (h : WM.Tri P m Q) (hs : m.Strict) (hf : ∀ a, FM.Tri (Q a) (f a) T) : FM.Tri P (FM.wm m >>= f) T := FM.Tri.bind (.wm hQ h hs) hf
theorem FM.Tri.lift {P : Bytes → Prop} (hP : ∀ acc, P acc → Unfinished acc) {r : R α} {Q : α → Bytes → Prop} (h : ∀ a acc, r = .ok a → P acc → Q a acc) : FM.Tri P (FM.lift r) Q := by
  intro s acc hp
  cases r with
  | ok a => exact h a acc rfl hp
  | error x => exact hP acc hp
theorem FM.Tri.lift_bind {P : Bytes → Prop} (hP : ∀ acc, P acc → Unfinished acc) {r : R α} {f : α → FM β} {T : β → Bytes → Prop} (hf : ∀ a, r = .ok a → FM.Tri P (f a) T) :
    FM.Tri P (FM.lift r >>= f) T :=
  FM.Tri.bind (Q := fun a acc => r = .ok a ∧ P acc) (FM.Tri.lift hP fun a acc h1 h2 => ⟨h1, h2⟩) fun a s acc h => hf a h.1 s acc h.2

theorem FM.Tri.answer {P : Bytes → Prop} (hP : ∀ acc, P acc → Unfinished acc) {s : BitState} {acc : Bytes} (h : P acc) (r : R α) : (FM.answer s r).Tri (fun _ => P) acc := by
  cases r with
  | ok r => exact h
  | error e => exact hP acc h
theorem FM.Tri.width {P : Bytes → Prop} (hP : ∀ acc, P acc → Unfinished acc) : FM.Tri P FM.width fun _ => P := fun _ _ h r => FM.Tri.answer hP h r
theorem FM.Tri.height {P : Bytes → Prop} (hP : ∀ acc, P acc → Unfinished acc) : FM.Tri P FM.height fun _ => P := fun _ _ h r => FM.Tri.answer hP h r
theorem FM.Tri.color {P : Bytes → Prop} (hP : ∀ acc, P acc → Unfinished acc) : FM.Tri P FM.color fun _ => P := fun _ _ h r => FM.Tri.answer hP h r
theorem FM.Tri.size {P : Bytes → Prop} (hP : ∀ acc, P acc → Unfinished acc) {f : UInt16 → UInt16 → FM β} {T : β → Bytes → Prop} (hf : ∀ w h, FM.Tri P (f w h) T) :
    FM.Tri P (FM.width >>= fun w => FM.height >>= fun h => f w h) T := FM.Tri.bind (.width hP) fun w => FM.Tri.bind (.height hP) fun h => hf w h
end

/-! ### Tables -/

theorem R.bind_ok {α β : Type} {r : R α} {f : α → R β} {b : β} (h : (r >>= f) = .ok b) : ∃ a, r = .ok a ∧ f a = .ok b := by
  cases r with
  | ok a => exact ⟨a, rfl, h⟩
  | error e => cases h

/-- Optimised tables fit in their segments, also where they are useless (C11). -/
theorem newOptimized_len {pf : Platform} {freq : List Nat} {t : HuffmanTable} (h : HuffmanTable.newOptimized pf freq = .ok t) : TableLen t := by
  unfold HuffmanTable.newOptimized at h
  obtain ⟨cs, -, h⟩ := R.bind_ok h
  obtain ⟨b1, -, h⟩ := R.bind_ok h
  obtain ⟨b2, -, h⟩ := R.bind_ok h
  obtain ⟨b3, -, h⟩ := R.bind_ok h
  obtain ⟨t', -, h⟩ := R.bind_ok h
  have := Except.ok.inj h
  subst this
  refine ⟨by simp, ?_⟩
  have hsub : (sortValues cs).Subset (List.range 256) := fun v hv => List.mem_range.mpr (mem_sortValues.mp hv).1
  have := (List.subperm_of_subset (sortValues_nodup cs) hsub).length_le
  rwa [List.length_range] at this

structure PairLen (t : HuffPair) : Prop where
  dc : TableLen t.dc
  ac : TableLen t.ac

theorem optimizeTable_len {pf : Platform} {pr : Option UInt8} {cs : List Component} {blocks : Blocks} {k : Nat} {t : HuffPair} (h : optimizeTable pf pr cs blocks k = .ok t) : PairLen t := by
  unfold optimizeTable at h
  obtain ⟨s, -, h⟩ := R.bind_ok h
  obtain ⟨_, -, h⟩ := R.bind_ok h
  obtain ⟨_, -, h⟩ := R.bind_ok h
  obtain ⟨dc, h1, h⟩ := R.bind_ok h
  obtain ⟨ac, h2, h⟩ := R.bind_ok h
  have := Except.ok.inj h
  subst this
  exact ⟨newOptimized_len h1, newOptimized_len h2⟩

/-- What the encoder needs for well formed segments. -/
structure Sizes (e : Encoder) : Prop where
  t0 : PairLen e.huffmanTables.1
  t1 : PairLen e.huffmanTables.2
  comps : e.components.length ≤ 4

theorem optimizeIf_sizes {pf : Platform} {e e' : Encoder} {blocks : Blocks} (hs : Sizes e) (h : e.optimizeIf pf blocks = .ok e') : Sizes e' := by
  unfold Encoder.optimizeIf at h
  split at h
  · unfold Encoder.optimizeHuffman at h
    obtain ⟨t0, h0, h⟩ := R.bind_ok h
    split at h
    · obtain ⟨t1, h1, h⟩ := R.bind_ok h
      have := Except.ok.inj h
      subst this
      exact ⟨optimizeTable_len h0, optimizeTable_len h1, hs.comps⟩
    · have := Except.ok.inj h
      subst this
      exact ⟨optimizeTable_len h0, hs.t1, hs.comps⟩
  · have := Except.ok.inj h
    subst this
    exact hs

theorem FullPair.len {t : HuffPair} (h : FullPair t) : PairLen t := ⟨⟨h.dc.len16, h.dc.vals⟩, ⟨h.ac.len16, h.ac.vals⟩⟩

/-! ### The encoder -/

section
variable {pf : Platform} (hpf : pf.Valid)


theorem writeFrameHeaderF_tri {e : Encoder} (he : Sizes e) (q : QuantizationTable × QuantizationTable) : FM.Tri Between (e.writeFrameHeaderF pf q) fun _ => Between := by
  unfold Encoder.writeFrameHeaderF
  with_reducible
    refine FM.Tri.size between_unfinished fun w h => ?_
    refine FM.Tri.wm_bind between' (writeFrameHeader_tri pf w h he.comps _) (writeFrameHeader_strict _ _ _ _ _) fun _ => ?_
    refine FM.Tri.wm_bind between' (writeQuantizationSegment_tri pf _ _) (writeQuantizationSegment_strict _ _ _) fun _ => ?_
    refine FM.Tri.wm_bind between' (writeQuantizationSegment_tri pf _ _) (writeQuantizationSegment_strict _ _ _) fun _ => ?_
    refine FM.Tri.wm_bind between' (writeHuffmanSegment_tri pf _ _ he.t0.dc) (writeHuffmanSegment_strict _ _ _ _) fun _ => ?_
    refine FM.Tri.wm_bind between' (writeHuffmanSegment_tri pf _ _ he.t0.ac) (writeHuffmanSegment_strict _ _ _ _) fun _ => ?_
    refine FM.Tri.bind (FM.Tri.color between_unfinished) fun ct => ?_
    refine FM.Tri.wm_bind between' (writeChromaHuffman_tri pf _ he.t1.dc he.t1.ac) ?_ fun _ => ?_
    · exact writeChromaHuffman_strict _ _ _
    · exact FM.Tri.wm between' (writeDriOpt_tri pf _) (writeDriOpt_strict _ _)

include hpf
theorem encodeScansF_tri {e : Encoder} (he : Sizes e) (op : Operations) (q : QuantizationTable × QuantizationTable) : FM.Tri Between (e.encodeScansF pf op q) fun _ => Between := by
  have hblocks : FM.Tri Between (encodeBlocksF pf e op q) fun _ => Between :=
    FM.Tri.size between_unfinished fun w h => FM.Tri.lm (encodeBlocksL_tri between_unfinished pf e op w h q)
  unfold Encoder.encodeScansF
  split
  · unfold Encoder.encodeProgressiveF
    with_reducible
      refine FM.Tri.bind hblocks fun blocks => ?_
      refine FM.Tri.lift_bind between_unfinished fun e' he' => ?_
      refine FM.Tri.bind (writeFrameHeaderF_tri (optimizeIf_sizes he he') q) fun _ => ?_
      refine FM.Tri.wm_bind between' (WM.Tri.forEach fun _ _ => dcScan_tri pf hpf _ _ _) (WM.Strict.forEach _ _ fun _ => dcScan_strict _ _ _ _) fun _ => ?_
      refine FM.Tri.lift_bind between_unfinished fun _ _ => ?_
      exact FM.Tri.wm between' (WM.Tri.forEach fun _ _ => WM.Tri.forEach fun _ _ => acScan_tri pf hpf _ _ _ _)
        (WM.Strict.forEach _ _ fun _ => WM.Strict.forEach _ _ fun _ => acScan_strict _ _ _ _ _)
  · split
    · unfold Encoder.encodeSequentialF
      with_reducible
        refine FM.Tri.bind hblocks fun blocks => ?_
        refine FM.Tri.lift_bind between_unfinished fun e' he' => ?_
        refine FM.Tri.bind (writeFrameHeaderF_tri (optimizeIf_sizes he he') q) fun _ => ?_
        exact FM.Tri.wm between' (WM.Tri.forEach fun _ _ => sequentialScan_tri pf hpf _ _ _) (WM.Strict.forEach _ _ fun _ => sequentialScan_strict _ _ _ _)
    · unfold Encoder.encodeInterleavedF
      with_reducible
        refine FM.Tri.bind (writeFrameHeaderF_tri he q) fun _ => ?_
        refine FM.Tri.wm_bind (fun _ => scan_unfinished) (writeScanHeader_tri pf he.comps none) (writeScanHeader_strict _ _ _) fun _ => ?_
        exact FM.Tri.size scan_unfinished fun w h => FM.Tri.lm (interleavedRowsL_tri pf hpf e op w h q)

omit hpf in
theorem soi_tri : WM.Tri (fun acc => acc = []) (writeMarker pf .soi) fun _ => Between := by
  intro s acc hacc
  subst hacc
  exact Or.inl fun r => rfl

omit hpf in
theorem eoi_triF : FM.Tri Between (FM.wm (writeMarker pf .eoi)) fun _ => Framed := by
  intro s acc h
  refine ⟨fun e => rfl, h.unfinished, ?_⟩
  change Framed (acc ++ [0xFF, 0xD9])
  intro r
  rw [List.append_assoc]
  rcases h with h | h
  · rw [h]
    rfl
  · rw [h]
    exact restEntropy_marker (c := 0xD9) (by decide) r

theorem encodeImageInternalF_tri {e : Encoder} (hwf : e.Wf) (op : Operations) : FM.Tri (fun acc => acc = []) (e.encodeImageInternalF pf op) fun _ => Framed := by
  have h0 : ∀ acc : Bytes, acc = [] → Unfinished acc := by rintro _ rfl; rfl
  have hz : FM.Tri (fun acc => acc = []) zeroDimensionsF fun _ => Framed :=
    FM.Tri.size h0 fun w h => FM.Tri.lift h0 fun a acc h => by cases h
  unfold Encoder.encodeImageInternalF
  refine FM.Tri.bind' (FM.Tri.width h0) fun w => ?_
  split
  · exact hz
  refine FM.Tri.bind' (FM.Tri.height h0) fun h => ?_
  split
  · exact hz
  unfold Encoder.encodeCheckedF
  have hs : ∀ ct, Sizes { e with components := initComponents e.samplingFactor ct } := fun ct =>
    ⟨hwf.t0.len, hwf.t1.len, (initComponents_grid e.samplingFactor ct).1.ok.four⟩
  with_reducible
    refine FM.Tri.lift_bind h0 fun _ _ => ?_
    refine FM.Tri.lift_bind h0 fun _ _ => ?_
    refine FM.Tri.bind (FM.Tri.color h0) fun ct => ?_
    refine FM.Tri.wm_bind between' soi_tri (writeMarker_strict _ _) fun _ => ?_
    refine FM.Tri.wm_bind between' (writeHeader_tri pf _) (writeHeader_strict _ _) fun _ => ?_
    refine FM.Tri.wm_bind between' (writeAdobe_tri pf _) (writeAdobe_strict _ _) fun _ => ?_
    refine FM.Tri.wm_bind between' (WM.Tri.forEach fun a ha => writeSegment_tri pf (hwf.apps a ha).1.2 (hwf.apps a ha).2) (WM.Strict.forEach _ _ fun _ => writeSegment_strict _ _ _) fun _ => ?_
    refine FM.Tri.bind (encodeScansF_tri hpf (hs ct) op _) fun _ => ?_
    exact eoi_triF
end

end Jpeg
