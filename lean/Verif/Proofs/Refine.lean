import Verif.Proofs.Prog
/-! Debug and release builds: wherever the debug build does not stop at one of its additional checks, the release build does the same. -/
namespace Jpeg
open WM
set_option maxRecDepth 10000

/-- The checks that only debug builds have. -/
def DebugOnly (f : Fail) : Prop := f = .panic .overflow ∨ f = .panic .debugAssert

/-- `r'` is what the release build computes where the debug build computes `r`. -/
def RRef {α : Type} (r r' : R α) : Prop := (∃ f, DebugOnly f ∧ r = .error f) ∨ r = r'

/-- The same for programs over a writer: equal, as long as the first one does not stop at a debug check. -/
def Prog.Ref {α : Type} : Prog (R α) → Prog (R α) → Prop
  | .done r, p' => (∃ f, DebugOnly f ∧ r = .error f) ∨ p' = .done r
  | .write c k, p' => ∃ k', p' = .write c k' ∧ ∀ e, (k e).Ref (k' e)

/-- The same for methods of the writer. -/
def WM.Ref {α : Type} (m m' : WM α) : Prop := ∀ s, (m s).Ref (m' s)

section R
variable {α β : Type}

theorem RRef.refl (r : R α) : RRef r r := .inr rfl
theorem RRef.panic {f : Fail} (h : DebugOnly f) {r : R α} : RRef (.error f) r := .inl ⟨f, h, rfl⟩

theorem RRef.bind {r r' : R α} {f f' : α → R β} (hr : RRef r r') (hf : ∀ a, RRef (f a) (f' a)) : RRef (r >>= f) (r' >>= f') := by
  rcases hr with ⟨x, hx, rfl⟩ | rfl
  · exact .inl ⟨x, hx, rfl⟩
  · cases r with
    | error e => exact .inr rfl
    | ok a => exact hf a
theorem RRef.bind' {r r' : R α} {f f' : α → R β} (hr : RRef r r') (hf : ∀ a, RRef (f a) (f' a)) : RRef (r.bind f) (r'.bind f') := RRef.bind hr hf
theorem RRef.ite {c : Prop} {i i' : Decidable c} {a b a' b' : R α} (ha : RRef a a') (hb : RRef b b') : RRef (@ite _ c i a b) (@ite _ c i' a' b') := by
  split <;> assumption
theorem RRef.forFoldR {l : List α} {s : β} {body body' : β → α → R β} (h : ∀ s x, RRef (body s x) (body' s x)) : RRef (forFoldR l s body) (forFoldR l s body') := by
  induction l generalizing s with
  | nil => exact .refl _
  | cons x xs ih => exact (h s x).bind' fun a => ih
theorem RRef.mapR {l : List α} {f f' : α → R β} (h : ∀ x, RRef (f x) (f' x)) : RRef (mapR l f) (mapR l f') := by
  induction l with
  | nil => exact .refl _
  | cons x xs ih => exact (h x).bind' fun a => ih.bind' fun b => .refl _

variable (b : Nat)

theorem ckI_ref (n : Nat) (v : Int) : RRef (ckI ⟨true, b⟩ n v) (ckI ⟨false, b⟩ n v) := by
  unfold ckI; exact .ite (.refl _) (.panic (.inl rfl))
theorem ckU_ref (n : Nat) (v : Int) : RRef (ckU ⟨true, b⟩ n v) (ckU ⟨false, b⟩ n v) := by
  unfold ckU; exact .ite (.refl _) (.panic (.inl rfl))
theorem ckUsize_ref (v : Int) : RRef (ckUsize ⟨true, b⟩ v) (ckUsize ⟨false, b⟩ v) := ckU_ref b _ _
theorem ckShift_ref (n : Nat) (v : Int) : RRef (ckShift ⟨true, b⟩ n v) (ckShift ⟨false, b⟩ n v) := by
  unfold ckShift; exact .ite (.refl _) (.panic (.inl rfl))
theorem shlU_ref (n a : Nat) (v : Int) : RRef (shlU ⟨true, b⟩ n a v) (shlU ⟨false, b⟩ n a v) := by
  unfold shlU; exact (ckShift_ref b _ _).bind fun _ => .refl _
theorem shrU_ref (n a : Nat) (v : Int) : RRef (shrU ⟨true, b⟩ n a v) (shrU ⟨false, b⟩ n a v) := by
  unfold shrU; exact (ckShift_ref b _ _).bind fun _ => .refl _
theorem debugAssert_ref (c : Bool) : RRef (debugAssert ⟨true, b⟩ c) (debugAssert ⟨false, b⟩ c) := by
  unfold debugAssert
  cases c
  · exact .panic (.inr rfl)
  · exact .refl _
theorem wordBits_ref : (⟨true, b⟩ : Platform).wordBits = (⟨false, b⟩ : Platform).wordBits := rfl

end R

section W
variable {α β : Type}

theorem Prog.Ref.refl (p : Prog (R α)) : p.Ref p := by
  induction p with
  | done r => exact .inr rfl
  | write c k ih => exact ⟨k, rfl, ih⟩

theorem Prog.Ref.bind {p p' : Prog (R α)} {f f' : R α → Prog (R β)} (hp : p.Ref p') (hf : ∀ r, (f r).Ref (f' r))
    (he : ∀ e, f (.error e) = .done (.error e)) : (p.bind f).Ref (p'.bind f') := by
  induction p generalizing p' with
  | done r =>
    rcases hp with ⟨x, hx, rfl⟩ | rfl
    · show (f (.error x)).Ref _
      rw [he]
      exact .inl ⟨x, hx, rfl⟩
    · exact hf r
  | write c k ih =>
    obtain ⟨k', rfl, hk⟩ := hp
    exact ⟨_, rfl, fun e => ih e (hk e)⟩

theorem WM.Ref.refl (m : WM α) : WM.Ref m m := fun s => .refl _
theorem WM.Ref.bind {m m' : WM α} {f f' : α → WM β} (hm : WM.Ref m m') (hf : ∀ a, WM.Ref (f a) (f' a)) : WM.Ref (WM.bind m f) (WM.bind m' f') := fun s =>
  Prog.Ref.bind (hm s) (fun r => by
    cases r with
    | error e => exact .inr rfl
    | ok a => exact hf a.1 a.2) fun _ => rfl
theorem WM.Ref.bind' {m m' : WM α} {f f' : α → WM β} (hm : WM.Ref m m') (hf : ∀ a, WM.Ref (f a) (f' a)) : WM.Ref (m >>= f) (m' >>= f') := hm.bind hf
theorem WM.Ref.lift {r r' : R α} (h : RRef r r') : WM.Ref (WM.lift r) (WM.lift r') := fun s => by
  rcases h with ⟨x, hx, rfl⟩ | rfl
  · exact .inl ⟨x, hx, rfl⟩
  · exact .refl _
theorem WM.Ref.ite {c : Prop} {i i' : Decidable c} {a b a' b' : WM α} (ha : WM.Ref a a') (hb : WM.Ref b b') : WM.Ref (@ite _ c i a b) (@ite _ c i' a' b') := by
  split <;> assumption
theorem WM.Ref.forEach {l : List α} {body body' : α → WM Unit} (h : ∀ x, WM.Ref (body x) (body' x)) : WM.Ref (WM.forEach l body) (WM.forEach l body') := by
  induction l with
  | nil => exact .refl _
  | cons x xs ih => exact (h x).bind fun _ => ih
theorem WM.Ref.forFold {l : List α} {s : β} {body body' : β → α → WM β} (h : ∀ s x, WM.Ref (body s x) (body' s x)) :
    WM.Ref (WM.forFold l s body) (WM.forFold l s body') := by
  induction l generalizing s with
  | nil => exact .refl _
  | cons x xs ih => exact (h s x).bind fun _ => ih

end W

syntax "ref_step" : tactic
macro_rules | `(tactic| ref_step) => `(tactic| first
  | with_reducible exact RRef.refl _ | with_reducible exact WM.Ref.refl _
  | with_reducible exact ckI_ref _ _ _ | with_reducible exact ckU_ref _ _ _ | with_reducible exact ckUsize_ref _ _
  | with_reducible exact ckShift_ref _ _ _ | with_reducible exact shlU_ref _ _ _ _ | with_reducible exact shrU_ref _ _ _ _
  | with_reducible exact debugAssert_ref _ _
  | with_reducible refine RRef.ite ?_ ?_ | with_reducible refine RRef.bind ?_ ?_ | with_reducible refine RRef.bind' ?_ ?_ | with_reducible refine RRef.forFoldR ?_ | with_reducible refine RRef.mapR ?_
  | with_reducible refine WM.Ref.ite ?_ ?_ | with_reducible refine WM.Ref.bind' ?_ ?_ | with_reducible refine WM.Ref.bind ?_ ?_
  | with_reducible refine WM.Ref.forEach ?_ | with_reducible refine WM.Ref.forFold ?_ | with_reducible refine WM.Ref.lift ?_)
syntax "ref" : tactic
macro_rules | `(tactic| ref) => `(tactic| repeat (first | with_reducible intro _ | ref_step))

section
variable (b : Nat)

theorem flushByte_ref (f : Int) : WM.Ref (flushByteFromBitBuffer ⟨true, b⟩ f) (flushByteFromBitBuffer ⟨false, b⟩ f) := by unfold flushByteFromBitBuffer; simp only [wordBits_ref]; ref
macro_rules | `(tactic| ref_step) => `(tactic| with_reducible exact flushByte_ref _ _)
theorem flushBitBuffer_ref (n : Nat) : WM.Ref (flushBitBuffer ⟨true, b⟩ n) (flushBitBuffer ⟨false, b⟩ n) := by
  induction n with
  | zero => exact .refl _
  | succ n ih => 
    unfold flushBitBuffer
    refine WM.Ref.bind' (.refl _) fun s => ?_
    show WM.Ref (if s.free ≤ ((b * 8 : Nat) : Int) - 8 then _ else _) (if s.free ≤ ((b * 8 : Nat) : Int) - 8 then _ else _)
    refine WM.Ref.ite ?_ (.refl _)
    repeat (first | with_reducible exact ih | with_reducible intro _ | ref_step)
theorem writeBitBuffer_ref : WM.Ref (writeBitBuffer ⟨true, b⟩) (writeBitBuffer ⟨false, b⟩) := by
  unfold writeBitBuffer
  have h1 : ∀ v, mayContainFF ⟨true, b⟩ v = mayContainFF ⟨false, b⟩ v := fun _ => rfl
  have h2 : ∀ v, toBeBytes ⟨true, b⟩ v = toBeBytes ⟨false, b⟩ v := fun _ => rfl
  simp only [h1, h2, wordBits_ref]
  ref
macro_rules | `(tactic| ref_step) => `(tactic| first | with_reducible exact flushBitBuffer_ref _ _ | with_reducible exact writeBitBuffer_ref _)
theorem writeBits_ref (v n : Nat) : WM.Ref (writeBits ⟨true, b⟩ v n) (writeBits ⟨false, b⟩ v n) := by unfold writeBits; simp only [wordBits_ref]; ref
macro_rules | `(tactic| ref_step) => `(tactic| with_reducible exact writeBits_ref _ _ _)
theorem finalize_ref : WM.Ref (finalizeBitBuffer ⟨true, b⟩) (finalizeBitBuffer ⟨false, b⟩) := by unfold finalizeBitBuffer; simp only [wordBits_ref]; ref
theorem toU8_ref (m : Marker) : RRef (m.toU8 ⟨true, b⟩) (m.toU8 ⟨false, b⟩) := by cases m <;> unfold Marker.toU8 <;> ref
macro_rules | `(tactic| ref_step) => `(tactic| first | with_reducible exact finalize_ref _ | with_reducible exact toU8_ref _ _)
theorem writeMarker_ref (m : Marker) : WM.Ref (writeMarker ⟨true, b⟩ m) (writeMarker ⟨false, b⟩ m) := by unfold writeMarker; ref
macro_rules | `(tactic| ref_step) => `(tactic| with_reducible exact writeMarker_ref _ _)
theorem writeSegment_ref (m : Marker) (d : Bytes) : WM.Ref (writeSegment ⟨true, b⟩ m d) (writeSegment ⟨false, b⟩ m d) := by unfold writeSegment; ref
theorem writeHeader_ref (d : Density) : WM.Ref (writeHeader ⟨true, b⟩ d) (writeHeader ⟨false, b⟩ d) := by unfold writeHeader; ref
theorem writeHuffmanSegment_ref (c : CodingClass) (n : Nat) (t : HuffmanTable) :
    WM.Ref (writeHuffmanSegment ⟨true, b⟩ c n t) (writeHuffmanSegment ⟨false, b⟩ c n t) := by unfold writeHuffmanSegment; ref
theorem writeQuantizationSegment_ref (n : Nat) (t : QuantizationTable) :
    WM.Ref (writeQuantizationSegment ⟨true, b⟩ n t) (writeQuantizationSegment ⟨false, b⟩ n t) := by unfold writeQuantizationSegment; ref
theorem writeDri_ref (n : Nat) : WM.Ref (writeDri ⟨true, b⟩ n) (writeDri ⟨false, b⟩ n) := by unfold writeDri; ref
theorem getForValue_ref (t : HuffmanTable) (v : Nat) : RRef (t.getForValue ⟨true, b⟩ v) (t.getForValue ⟨false, b⟩ v) := by unfold HuffmanTable.getForValue; ref
theorem getCode_ref (v : Int) : RRef (getCode ⟨true, b⟩ v) (getCode ⟨false, b⟩ v) := by unfold getCode; ref
macro_rules | `(tactic| ref_step) => `(tactic| first
  | with_reducible exact writeSegment_ref _ _ _ | with_reducible exact writeHeader_ref _ _ | with_reducible exact writeHuffmanSegment_ref _ _ _ _
  | with_reducible exact writeQuantizationSegment_ref _ _ _ | with_reducible exact writeDri_ref _ _ | with_reducible exact getForValue_ref _ _ _ | with_reducible exact getCode_ref _ _)
theorem huffmanEncode_ref (v : Nat) (t : HuffmanTable) : WM.Ref (huffmanEncode ⟨true, b⟩ v t) (huffmanEncode ⟨false, b⟩ v t) := by unfold huffmanEncode; ref
theorem huffmanEncodeValue_ref (x y z : Nat) (t : HuffmanTable) : WM.Ref (huffmanEncodeValue ⟨true, b⟩ x y z t) (huffmanEncodeValue ⟨false, b⟩ x y z t) := by
  unfold huffmanEncodeValue; ref
macro_rules | `(tactic| ref_step) => `(tactic| first | with_reducible exact huffmanEncode_ref _ _ _ | with_reducible exact huffmanEncodeValue_ref _ _ _ _ _)
theorem writeDc_ref (x y : Int) (t : HuffmanTable) : WM.Ref (writeDc ⟨true, b⟩ x y t) (writeDc ⟨false, b⟩ x y t) := by unfold writeDc; ref
theorem writeZrl_ref (t : HuffmanTable) (n z : Nat) : WM.Ref (writeZrl ⟨true, b⟩ t n z) (writeZrl ⟨false, b⟩ t n z) := by
  induction n generalizing z with
  | zero => exact .refl _
  | succ n ih => unfold writeZrl; repeat (first | with_reducible exact ih _ | with_reducible intro _ | ref_step)
macro_rules | `(tactic| ref_step) => `(tactic| first | with_reducible exact writeDc_ref _ _ _ _ | with_reducible exact writeZrl_ref _ _ _ _)
theorem writeAcLoop_ref (t : HuffmanTable) (l : List Int) (z : Nat) : WM.Ref (writeAcLoop ⟨true, b⟩ t l z) (writeAcLoop ⟨false, b⟩ t l z) := by
  induction l generalizing z with
  | nil => exact .refl _
  | cons v l ih => unfold writeAcLoop; repeat (first | with_reducible exact ih _ | with_reducible intro _ | ref_step)
macro_rules | `(tactic| ref_step) => `(tactic| with_reducible exact writeAcLoop_ref _ _ _ _)
theorem writeAcBlock_ref (l : List Int) (i j : Nat) (t : HuffmanTable) : WM.Ref (writeAcBlock ⟨true, b⟩ l i j t) (writeAcBlock ⟨false, b⟩ l i j t) := by
  unfold writeAcBlock; ref
macro_rules | `(tactic| ref_step) => `(tactic| with_reducible exact writeAcBlock_ref _ _ _ _ _)
theorem writeBlock_ref (l : List Int) (p : Int) (t u : HuffmanTable) : WM.Ref (writeBlock ⟨true, b⟩ l p t u) (writeBlock ⟨false, b⟩ l p t u) := by
  unfold writeBlock; ref
theorem writeFrameHeader_ref (w h : UInt16) (c : List Component) (p : Bool) :
    WM.Ref (writeFrameHeader ⟨true, b⟩ w h c p) (writeFrameHeader ⟨false, b⟩ w h c p) := by unfold writeFrameHeader; ref
theorem writeScanHeader_ref (c : List Component) (p : Option (Nat × Nat)) : WM.Ref (writeScanHeader ⟨true, b⟩ c p) (writeScanHeader ⟨false, b⟩ c p) := by
  unfold writeScanHeader; ref
theorem writeChromaHuffman_ref (n : Nat) (t : HuffPair) : WM.Ref (writeChromaHuffman ⟨true, b⟩ n t) (writeChromaHuffman ⟨false, b⟩ n t) := by
  unfold writeChromaHuffman; ref
theorem writeDriOpt_ref (n : Option UInt16) : WM.Ref (writeDriOpt ⟨true, b⟩ n) (writeDriOpt ⟨false, b⟩ n) := by cases n <;> unfold writeDriOpt <;> ref
macro_rules | `(tactic| ref_step) => `(tactic| first
  | with_reducible exact writeBlock_ref _ _ _ _ _ | with_reducible exact writeFrameHeader_ref _ _ _ _ _ | with_reducible exact writeScanHeader_ref _ _ _
  | with_reducible exact writeChromaHuffman_ref _ _ _ | with_reducible exact writeDriOpt_ref _ _)
theorem encWriteFrameHeader_ref (e : Encoder) (im im' : ImageBuffer) (q : QuantizationTable × QuantizationTable) (h : im.width = im'.width ∧ im.height = im'.height ∧ im.colorType = im'.colorType) :
    WM.Ref (e.writeFrameHeader ⟨true, b⟩ im q) (e.writeFrameHeader ⟨false, b⟩ im' q) := by
  unfold Encoder.writeFrameHeader
  rw [h.1, h.2.1, h.2.2]
  ref
theorem restartBefore_ref {σ : Type} (n : Nat) (r : Rst) (f : σ → σ) (s : σ) : WM.Ref (restartBefore ⟨true, b⟩ n r f s) (restartBefore ⟨false, b⟩ n r f s) := by
  unfold restartBefore; ref
theorem restartAfter_ref (n : Nat) (r : Rst) : RRef (restartAfter ⟨true, b⟩ n r) (restartAfter ⟨false, b⟩ n r) := by unfold restartAfter; ref
macro_rules | `(tactic| ref_step) => `(tactic| first | with_reducible exact restartBefore_ref _ _ _ _ _ | with_reducible exact restartAfter_ref _ _ _)
theorem scanLoop_ref {α σ : Type} (n : Nat) (f : σ → σ) (body body' : α → σ → WM σ) (l : List α) (st : Rst × σ)
    (h : ∀ x s, WM.Ref (body x s) (body' x s)) : WM.Ref (scanLoop ⟨true, b⟩ n f body l st) (scanLoop ⟨false, b⟩ n f body' l st) := by
  unfold scanLoop; repeat (first | with_reducible exact h _ _ | with_reducible intro _ | ref_step)
theorem withCapacity_ref (n k : Nat) : RRef (withCapacity ⟨true, b⟩ n k) (withCapacity ⟨false, b⟩ n k) := .refl _
theorem initRows_ref (n k : Nat) : RRef (initRows ⟨true, b⟩ n k) (initRows ⟨false, b⟩ n k) := .refl _
theorem getBlock_ref (d : Bytes) (x y c e w : Nat) : RRef (getBlock ⟨true, b⟩ d x y c e w) (getBlock ⟨false, b⟩ d x y c e w) := by unfold getBlock; ref
theorem quantize_ref (q : QuantizationTable) (v : Int) (i : Nat) : RRef (q.quantize ⟨true, b⟩ v i) (q.quantize ⟨false, b⟩ v i) := by
  unfold QuantizationTable.quantize; ref
macro_rules | `(tactic| ref_step) => `(tactic| first
  | with_reducible exact withCapacity_ref _ _ _ | with_reducible exact initRows_ref _ _ _ | with_reducible exact getBlock_ref _ _ _ _ _ _ _ | with_reducible exact quantize_ref _ _ _ _
  | with_reducible refine scanLoop_ref _ _ _ _ _ _ _ ?_)
theorem quantizeBlock_ref (l : List Int) (q : QuantizationTable) : RRef (quantizeBlock ⟨true, b⟩ l q) (quantizeBlock ⟨false, b⟩ l q) := by
  unfold quantizeBlock; ref
theorem i32_ref (x : Int) : RRef (i32 ⟨true, b⟩ x) (i32 ⟨false, b⟩ x) := by unfold i32; ref
macro_rules | `(tactic| ref_step) => `(tactic| first | with_reducible exact quantizeBlock_ref _ _ _ | with_reducible exact i32_ref _ _)
theorem descale_ref (x : Int) (n : Nat) : RRef (descale ⟨true, b⟩ x n) (descale ⟨false, b⟩ x n) := by unfold descale; ref
macro_rules | `(tactic| ref_step) => `(tactic| first | with_reducible exact descale_ref _ _ _)
theorem dct8_ref (g g' : Int → R Int) (hg : ∀ x, RRef (g x) (g' x)) (n : Nat) (d : List Int) : RRef (dct8 ⟨true, b⟩ g n d) (dct8 ⟨false, b⟩ g' n d) := by
  unfold dct8; repeat (first | with_reducible exact hg _ | with_reducible intro _ | ref_step)
theorem fdct_ref (d : List Int) : RRef (fdct ⟨true, b⟩ d) (fdct ⟨false, b⟩ d) := by
  unfold fdct dctRow dctCol
  repeat (first | with_reducible refine dct8_ref _ _ _ ?_ _ _ | with_reducible intro _ | ref_step)
/-- The DCT of both builds. -/
theorem op_ref (simd : Bool) (d : List Int) :
    RRef ((if simd then avx2Operations else defaultOperations).fdct ⟨true, b⟩ d) ((if simd then avx2Operations else defaultOperations).fdct ⟨false, b⟩ d) := by
  cases simd
  · exact fdct_ref b d
  · exact .refl _

-- huffman
theorem createCodesLoop_ref (l : List Nat) (c s : Nat) : RRef (createCodesLoop ⟨true, b⟩ l c s) (createCodesLoop ⟨false, b⟩ l c s) := by
  induction l generalizing c s with
  | nil => exact .refl _
  | cons v l ih => unfold createCodesLoop; repeat (first | with_reducible exact ih _ _ | with_reducible intro _ | ref_step)
macro_rules | `(tactic| ref_step) => `(tactic| with_reducible exact createCodesLoop_ref _ _ _ _)
theorem createCodes_ref (l : List Nat) : RRef (createCodes ⟨true, b⟩ l) (createCodes ⟨false, b⟩ l) := by unfold createCodes; ref
macro_rules | `(tactic| ref_step) => `(tactic| with_reducible exact createCodes_ref _ _)
theorem createLookupTable_ref (l v : List Nat) : RRef (createLookupTable ⟨true, b⟩ l v) (createLookupTable ⟨false, b⟩ l v) := by unfold createLookupTable; ref
macro_rules | `(tactic| ref_step) => `(tactic| with_reducible exact createLookupTable_ref _ _ _)
theorem newTable_ref (l v : List Nat) : RRef (HuffmanTable.new ⟨true, b⟩ l v) (HuffmanTable.new ⟨false, b⟩ l v) := by unfold HuffmanTable.new; ref
theorem mergeLoop_ref (n : Nat) (f : List Nat) (o : List Int) (c : List Nat) : RRef (mergeLoop ⟨true, b⟩ n f o c) (mergeLoop ⟨false, b⟩ n f o c) := by
  induction n generalizing f o c with
  | zero => exact .refl _
  | succ n ih =>
    unfold mergeLoop
    split
    · exact .refl _
    · split
      · exact .refl _
      · repeat (first | with_reducible exact ih _ _ _ | with_reducible intro _ | ref_step)
theorem countBits_ref (l bits : List Nat) : RRef (countBits ⟨true, b⟩ l bits) (countBits ⟨false, b⟩ l bits) := by
  induction l generalizing bits with
  | nil => exact .refl _
  | cons v l ih => unfold countBits; repeat (first | with_reducible exact ih _ | with_reducible intro _ | ref_step)
theorem findJ_ref (bits : List Nat) (n j : Nat) : RRef (findJ ⟨true, b⟩ bits n j) (findJ ⟨false, b⟩ bits n j) := by
  induction n generalizing j with
  | zero => exact .refl _
  | succ n ih => unfold findJ; repeat (first | with_reducible exact ih _ | with_reducible intro _ | ref_step)
macro_rules | `(tactic| ref_step) => `(tactic| first | with_reducible exact mergeLoop_ref _ _ _ _ _ | with_reducible exact countBits_ref _ _ _ | with_reducible exact findJ_ref _ _ _ _)
theorem limitInner_ref (i n : Nat) (bits : List Nat) : RRef (limitInner ⟨true, b⟩ i n bits) (limitInner ⟨false, b⟩ i n bits) := by
  induction n generalizing bits with
  | zero => exact .refl _
  | succ n ih => unfold limitInner; repeat (first | with_reducible exact ih _ | with_reducible intro _ | ref_step)
macro_rules | `(tactic| ref_step) => `(tactic| with_reducible exact limitInner_ref _ _ _ _)
theorem limitLoop_ref (n : Nat) (bits : List Nat) : RRef (limitLoop ⟨true, b⟩ n bits) (limitLoop ⟨false, b⟩ n bits) := by
  induction n generalizing bits with
  | zero => exact .refl _
  | succ n ih => unfold limitLoop; repeat (first | with_reducible exact ih _ | with_reducible intro _ | ref_step)
theorem dropLast_ref (bits : List Nat) (n i : Nat) : RRef (dropLast ⟨true, b⟩ bits n i) (dropLast ⟨false, b⟩ bits n i) := by
  induction n generalizing i with
  | zero => exact .refl _
  | succ n ih => unfold dropLast; repeat (first | with_reducible exact ih _ | with_reducible intro _ | ref_step)
macro_rules | `(tactic| ref_step) => `(tactic| first | with_reducible exact limitLoop_ref _ _ _ | with_reducible exact dropLast_ref _ _ _ _)
theorem newOptimized_ref (f : List Nat) : RRef (HuffmanTable.newOptimized ⟨true, b⟩ f) (HuffmanTable.newOptimized ⟨false, b⟩ f) := by
  unfold HuffmanTable.newOptimized; ref
macro_rules | `(tactic| ref_step) => `(tactic| first | with_reducible exact newTable_ref _ _ _ | with_reducible exact newOptimized_ref _ _)

-- statistics
theorem numBitsLoop_ref (n : Nat) (v : Int) (k : Nat) : RRef (numBitsLoop ⟨true, b⟩ n v k) (numBitsLoop ⟨false, b⟩ n v k) := by
  induction n generalizing v k with
  | zero => exact .refl _
  | succ n ih => unfold numBitsLoop; repeat (first | with_reducible exact ih _ _ | with_reducible intro _ | ref_step)
macro_rules | `(tactic| ref_step) => `(tactic| with_reducible exact numBitsLoop_ref _ _ _ _)
theorem getNumBits_ref (v : Int) : RRef (getNumBits ⟨true, b⟩ v) (getNumBits ⟨false, b⟩ v) := by unfold getNumBits; ref
theorem bumpFreq_ref (f : List Nat) (i : Nat) : RRef (bumpFreq ⟨true, b⟩ f i) (bumpFreq ⟨false, b⟩ f i) := by unfold bumpFreq; ref
macro_rules | `(tactic| ref_step) => `(tactic| first | with_reducible exact getNumBits_ref _ _ | with_reducible exact bumpFreq_ref _ _ _)
theorem dcStats_ref (l : List (List Int)) (f : List Nat) : RRef (dcStats ⟨true, b⟩ l f) (dcStats ⟨false, b⟩ l f) := by unfold dcStats; ref
theorem zrlStats_ref (n z : Nat) (f : List Nat) : RRef (zrlStats ⟨true, b⟩ n z f) (zrlStats ⟨false, b⟩ n z f) := by
  induction n generalizing z f with
  | zero => exact .refl _
  | succ n ih => unfold zrlStats; repeat (first | with_reducible exact ih _ _ | with_reducible intro _ | ref_step)
macro_rules | `(tactic| ref_step) => `(tactic| first | with_reducible exact dcStats_ref _ _ _ | with_reducible exact zrlStats_ref _ _ _ _)
theorem acStatsLoop_ref (l : List Int) (z : Nat) (f : List Nat) : RRef (acStatsLoop ⟨true, b⟩ l z f) (acStatsLoop ⟨false, b⟩ l z f) := by
  induction l generalizing z f with
  | nil => exact .refl _
  | cons v l ih => unfold acStatsLoop; repeat (first | with_reducible exact ih _ _ | with_reducible intro _ | ref_step)
macro_rules | `(tactic| ref_step) => `(tactic| with_reducible exact acStatsLoop_ref _ _ _ _)
theorem acStatsBlock_ref (i j : Nat) (l : List Int) (f : List Nat) : RRef (acStatsBlock ⟨true, b⟩ i j l f) (acStatsBlock ⟨false, b⟩ i j l f) := by
  unfold acStatsBlock; ref
theorem acBands_ref (n : Nat) : RRef (acBands ⟨true, b⟩ n) (acBands ⟨false, b⟩ n) := by unfold acBands; ref
macro_rules | `(tactic| ref_step) => `(tactic| first | with_reducible exact acStatsBlock_ref _ _ _ _ _ | with_reducible exact acBands_ref _ _)
theorem acStats_ref (p : Option UInt8) (l : List (List Int)) (f : List Nat) : RRef (acStats ⟨true, b⟩ p l f) (acStats ⟨false, b⟩ p l f) := by
  cases p <;> unfold acStats <;> ref
macro_rules | `(tactic| ref_step) => `(tactic| with_reducible exact acStats_ref _ _ _ _)
theorem statsComponent_ref (p : Option UInt8) (bs : Blocks) (t : Nat) (s : Bool × Bool × List Nat × List Nat) (ci : Component × Nat) :
    RRef (statsComponent ⟨true, b⟩ p bs t s ci) (statsComponent ⟨false, b⟩ p bs t s ci) := by unfold statsComponent; ref
macro_rules | `(tactic| ref_step) => `(tactic| with_reducible exact statsComponent_ref _ _ _ _ _ _)
theorem optimizeTable_ref (p : Option UInt8) (c : List Component) (bs : Blocks) (t : Nat) :
    RRef (optimizeTable ⟨true, b⟩ p c bs t) (optimizeTable ⟨false, b⟩ p c bs t) := by unfold optimizeTable; ref
macro_rules | `(tactic| ref_step) => `(tactic| with_reducible exact optimizeTable_ref _ _ _ _ _)
theorem optimizeHuffman_ref (e : Encoder) (bs : Blocks) : RRef (e.optimizeHuffman ⟨true, b⟩ bs) (e.optimizeHuffman ⟨false, b⟩ bs) := by
  unfold Encoder.optimizeHuffman; ref
macro_rules | `(tactic| ref_step) => `(tactic| with_reducible exact optimizeHuffman_ref _ _ _)
theorem optimizeIf_ref (e : Encoder) (bs : Blocks) : RRef (e.optimizeIf ⟨true, b⟩ bs) (e.optimizeIf ⟨false, b⟩ bs) := by unfold Encoder.optimizeIf; ref
macro_rules | `(tactic| ref_step) => `(tactic| with_reducible exact optimizeIf_ref _ _ _)

-- scans
theorem sequentialScan_ref (e : Encoder) (bs : Blocks) (ci : Component × Nat) : WM.Ref (sequentialScan ⟨true, b⟩ e bs ci) (sequentialScan ⟨false, b⟩ e bs ci) := by
  unfold sequentialScan; ref
theorem dcScan_ref (e : Encoder) (bs : Blocks) (ci : Component × Nat) : WM.Ref (dcScan ⟨true, b⟩ e bs ci) (dcScan ⟨false, b⟩ e bs ci) := by
  unfold dcScan; ref
theorem acScan_ref (e : Encoder) (bs : Blocks) (band : Nat × Nat) (ci : Component × Nat) :
    WM.Ref (acScan ⟨true, b⟩ e bs band ci) (acScan ⟨false, b⟩ e bs band ci) := by unfold acScan; ref
theorem writeAdobe_ref (c : JpegColorType) : WM.Ref (writeAdobe ⟨true, b⟩ c) (writeAdobe ⟨false, b⟩ c) := by cases c <;> unfold writeAdobe <;> ref
macro_rules | `(tactic| ref_step) => `(tactic| first
  | with_reducible exact sequentialScan_ref _ _ _ _ | with_reducible exact dcScan_ref _ _ _ _ | with_reducible exact acScan_ref _ _ _ _ _
  | with_reducible exact writeAdobe_ref _ _)

-- image buffers
theorem rgbToYcbcr_ref (x y z : UInt8) : RRef (rgbToYcbcr ⟨true, b⟩ x y z) (rgbToYcbcr ⟨false, b⟩ x y z) := by unfold rgbToYcbcr; ref
theorem inv8_ref (x : UInt8) : RRef (inv8 ⟨true, b⟩ x) (inv8 ⟨false, b⟩ x) := by unfold inv8; ref
macro_rules | `(tactic| ref_step) => `(tactic| first | with_reducible exact rgbToYcbcr_ref _ _ _ _ | with_reducible exact inv8_ref _ _)
theorem cmykToYcck_ref (x y z k : UInt8) : RRef (cmykToYcck ⟨true, b⟩ x y z k) (cmykToYcck ⟨false, b⟩ x y z k) := by unfold cmykToYcck; ref
theorem getLine_ref (d : Bytes) (y w : UInt16) (n : Nat) : RRef (getLine ⟨true, b⟩ d y w n) (getLine ⟨false, b⟩ d y w n) := by unfold getLine; ref
macro_rules | `(tactic| ref_step) => `(tactic| first | with_reducible exact cmykToYcck_ref _ _ _ _ _ | with_reducible exact getLine_ref _ _ _ _ _)
theorem tailLoop_ref (n x y z : Nat) (d : Bytes) (k p : Nat) : RRef (Avx2.tailLoop ⟨true, b⟩ n x y z d k p) (Avx2.tailLoop ⟨false, b⟩ n x y z d k p) := by
  induction k generalizing p with
  | zero => exact .refl _
  | succ n ih => unfold Avx2.tailLoop; repeat (first | with_reducible exact ih _ | with_reducible intro _ | ref_step)
macro_rules | `(tactic| ref_step) => `(tactic| with_reducible exact tailLoop_ref _ _ _ _ _ _ _ _)
theorem fillGray_ref (d : Bytes) (w y : UInt16) (r : Rows) : RRef (fillGray ⟨true, b⟩ d w y r) (fillGray ⟨false, b⟩ d w y r) := by unfold fillGray; ref
theorem fillRgb_ref (n i j k : Nat) (d : Bytes) (w y : UInt16) (r : Rows) : RRef (fillRgb ⟨true, b⟩ n i j k d w y r) (fillRgb ⟨false, b⟩ n i j k d w y r) := by
  unfold fillRgb; ref
theorem fillYcbcr_ref (d : Bytes) (w y : UInt16) (r : Rows) : RRef (fillYcbcr ⟨true, b⟩ d w y r) (fillYcbcr ⟨false, b⟩ d w y r) := by unfold fillYcbcr; ref
theorem fillCmyk_ref (d : Bytes) (w y : UInt16) (r : Rows) : RRef (fillCmyk ⟨true, b⟩ d w y r) (fillCmyk ⟨false, b⟩ d w y r) := by unfold fillCmyk; ref
theorem fillCmykAsYcck_ref (d : Bytes) (w y : UInt16) (r : Rows) : RRef (fillCmykAsYcck ⟨true, b⟩ d w y r) (fillCmykAsYcck ⟨false, b⟩ d w y r) := by
  unfold fillCmykAsYcck; ref
theorem fillYcck_ref (d : Bytes) (w y : UInt16) (r : Rows) : RRef (fillYcck ⟨true, b⟩ d w y r) (fillYcck ⟨false, b⟩ d w y r) := by unfold fillYcck; ref
theorem fillRgbAvx2_ref (n i j k : Nat) (d : Bytes) (w y : UInt16) (r : Rows) :
    RRef (Avx2.fillRgbAvx2 ⟨true, b⟩ n i j k d w y r) (Avx2.fillRgbAvx2 ⟨false, b⟩ n i j k d w y r) := by unfold Avx2.fillRgbAvx2; simp only [wordBits_ref]; ref

/-- The built-in image buffers of both builds. -/
theorem imageFor_ref (simd : Bool) (d : Bytes) (w h : UInt16) (ct : ColorType) :
    ∃ c f f', imageFor ⟨true, b⟩ simd d w h ct = ⟨c, w, h, f⟩ ∧ imageFor ⟨false, b⟩ simd d w h ct = ⟨c, w, h, f'⟩ ∧ ∀ y r, RRef (f y r) (f' y r) := by
  cases ct <;> cases simd
  case luma.false | luma.true => exact ⟨_, _, _, rfl, rfl, fillGray_ref b d w⟩
  case ycbcr.false | ycbcr.true => exact ⟨_, _, _, rfl, rfl, fillYcbcr_ref b d w⟩
  case cmyk.false | cmyk.true => exact ⟨_, _, _, rfl, rfl, fillCmyk_ref b d w⟩
  case cmykAsYcck.false | cmykAsYcck.true => exact ⟨_, _, _, rfl, rfl, fillCmykAsYcck_ref b d w⟩
  case ycck.false | ycck.true => exact ⟨_, _, _, rfl, rfl, fillYcck_ref b d w⟩
  case rgb.false | rgba.false | bgr.false | bgra.false => exact ⟨_, _, _, rfl, rfl, fillRgb_ref b _ _ _ _ d w⟩
  case rgb.true | rgba.true | bgr.true | bgra.true => exact ⟨_, _, _, rfl, rfl, fillRgbAvx2_ref b _ _ _ _ d w⟩

-- encoding an image
section
variable {c : JpegColorType} {w h : UInt16} {f f' : UInt16 → Rows → R Rows} (hf : ∀ y r, RRef (f y r) (f' y r)) {op : Operations}
  (hop : ∀ d, RRef (op.fdct ⟨true, b⟩ d) (op.fdct ⟨false, b⟩ d))
include hop
theorem processBlock_ref (q : QuantizationTable × QuantizationTable) (k : Component) (d : Bytes) (x y cs rs bw : Nat) :
    RRef (processBlock ⟨true, b⟩ op q k d x y cs rs bw) (processBlock ⟨false, b⟩ op q k d x y cs rs bw) := by
  unfold processBlock; repeat (first | with_reducible exact hop _ | with_reducible intro _ | ref_step)
theorem encodeMcuBlock_ref (e : Encoder) (q : QuantizationTable × QuantizationTable) (rows : Rows) (mh mv bw bx i : Nat) (k : Component) (x y : Nat) (p : List Int) :
    WM.Ref (encodeMcuBlock ⟨true, b⟩ e op q rows mh mv bw bx i k x y p) (encodeMcuBlock ⟨false, b⟩ e op q rows mh mv bw bx i k x y p) := by
  unfold encodeMcuBlock; repeat (first | with_reducible exact processBlock_ref b hop _ _ _ _ _ _ _ _ | with_reducible intro _ | ref_step)
theorem encodeMcu_ref (e : Encoder) (q : QuantizationTable × QuantizationTable) (rows : Rows) (mh mv bw bx : Nat) (p : List Int) :
    WM.Ref (encodeMcu ⟨true, b⟩ e op q rows mh mv bw bx p) (encodeMcu ⟨false, b⟩ e op q rows mh mv bw bx p) := by
  unfold encodeMcu; repeat (first | with_reducible exact encodeMcuBlock_ref b hop _ _ _ _ _ _ _ _ _ _ _ _ | with_reducible intro _ | ref_step)
theorem componentBlocks_ref (q : QuantizationTable × QuantizationTable) (rows : Rows) (mh mv nc nr bw : Nat) (ci : Component × Nat) :
    RRef (componentBlocks ⟨true, b⟩ op q rows mh mv nc nr bw ci) (componentBlocks ⟨false, b⟩ op q rows mh mv nc nr bw ci) := by
  unfold componentBlocks; repeat (first | with_reducible exact processBlock_ref b hop _ _ _ _ _ _ _ _ | with_reducible intro _ | ref_step)
omit hop
include hf
theorem fillLine_ref (y bw : Nat) (r : Rows) : RRef (fillLine ⟨c, w, h, f⟩ y bw r) (fillLine ⟨c, w, h, f'⟩ y bw r) := by
  unfold fillLine; dsimp only; repeat (first | with_reducible exact hf _ _ | with_reducible intro _ | ref_step)
theorem fillMcuRow_ref (mv bw y : Nat) (r : Rows) : RRef (fillMcuRow ⟨true, b⟩ ⟨c, w, h, f⟩ mv bw y r) (fillMcuRow ⟨false, b⟩ ⟨c, w, h, f'⟩ mv bw y r) := by
  unfold fillMcuRow; repeat (first | with_reducible exact fillLine_ref hf _ _ _ | with_reducible intro _ | ref_step)
include hop
theorem encodeBlocks_ref (e : Encoder) (q : QuantizationTable × QuantizationTable) :
    RRef (encodeBlocks ⟨true, b⟩ e op ⟨c, w, h, f⟩ q) (encodeBlocks ⟨false, b⟩ e op ⟨c, w, h, f'⟩ q) := by
  unfold encodeBlocks; dsimp only
  repeat (first | with_reducible exact fillLine_ref hf _ _ _ | with_reducible exact componentBlocks_ref b hop _ _ _ _ _ _ _ _ | with_reducible intro _ | ref_step)
theorem encodeInterleaved_ref (e : Encoder) (q : QuantizationTable × QuantizationTable) :
    WM.Ref (e.encodeInterleaved ⟨true, b⟩ op ⟨c, w, h, f⟩ q) (e.encodeInterleaved ⟨false, b⟩ op ⟨c, w, h, f'⟩ q) := by
  unfold Encoder.encodeInterleaved; dsimp only
  repeat (first | with_reducible exact encWriteFrameHeader_ref _ _ _ _ _ ⟨rfl, rfl, rfl⟩ | with_reducible exact fillMcuRow_ref b hf _ _ _ _ | with_reducible exact encodeMcu_ref b hop _ _ _ _ _ _ _ _ | with_reducible intro _ | ref_step)
theorem encodeSequential_ref (e : Encoder) (q : QuantizationTable × QuantizationTable) :
    WM.Ref (e.encodeSequential ⟨true, b⟩ op ⟨c, w, h, f⟩ q) (e.encodeSequential ⟨false, b⟩ op ⟨c, w, h, f'⟩ q) := by
  unfold Encoder.encodeSequential
  repeat (first | with_reducible exact encWriteFrameHeader_ref _ _ _ _ _ ⟨rfl, rfl, rfl⟩ | with_reducible exact encodeBlocks_ref b hf hop _ _ | with_reducible intro _ | ref_step)
theorem encodeProgressive_ref (e : Encoder) (n : UInt8) (q : QuantizationTable × QuantizationTable) :
    WM.Ref (e.encodeProgressive ⟨true, b⟩ op ⟨c, w, h, f⟩ n q) (e.encodeProgressive ⟨false, b⟩ op ⟨c, w, h, f'⟩ n q) := by
  unfold Encoder.encodeProgressive
  repeat (first | with_reducible exact encWriteFrameHeader_ref _ _ _ _ _ ⟨rfl, rfl, rfl⟩ | with_reducible exact encodeBlocks_ref b hf hop _ _ | with_reducible intro _ | ref_step)
theorem encodeScans_ref (e : Encoder) (q : QuantizationTable × QuantizationTable) :
    WM.Ref (e.encodeScans ⟨true, b⟩ op ⟨c, w, h, f⟩ q) (e.encodeScans ⟨false, b⟩ op ⟨c, w, h, f'⟩ q) := by
  unfold Encoder.encodeScans
  split
  · exact encodeProgressive_ref b hf hop _ _ _
  · exact .ite (encodeSequential_ref b hf hop _ _) (encodeInterleaved_ref b hf hop _ _)
theorem encodeImageInternal_ref (e : Encoder) :
    WM.Ref (e.encodeImageInternal ⟨true, b⟩ op ⟨c, w, h, f⟩) (e.encodeImageInternal ⟨false, b⟩ op ⟨c, w, h, f'⟩) := by
  unfold Encoder.encodeImageInternal; dsimp only
  repeat (first | with_reducible exact encodeScans_ref b hf hop _ _ | with_reducible intro _ | ref_step)
end

theorem program_ref {m m' : WM α} (h : WM.Ref m m') : (m.program ⟨true, b⟩).Ref (m'.program ⟨false, b⟩) := by
  unfold WM.program
  exact Prog.Ref.bind (h _) (fun _ => .refl _) fun _ => rfl

theorem encodeImage_ref (simd : Bool) (e : Encoder) {c : JpegColorType} {w h : UInt16} {f f' : UInt16 → Rows → R Rows} (hf : ∀ y r, RRef (f y r) (f' y r)) :
    (e.encodeImage ⟨true, b⟩ simd ⟨c, w, h, f⟩).Ref (e.encodeImage ⟨false, b⟩ simd ⟨c, w, h, f'⟩) :=
  program_ref b (encodeImageInternal_ref b hf (op_ref b simd) e)

theorem requiredLen_ref (w h : UInt16) (ct : ColorType) : RRef (requiredLen ⟨true, b⟩ w h ct) (requiredLen ⟨false, b⟩ w h ct) := by unfold requiredLen; ref

theorem encode_ref (simd : Bool) (e : Encoder) (d : Bytes) (w h : UInt16) (ct : ColorType) :
    (e.encode ⟨true, b⟩ simd d w h ct).Ref (e.encode ⟨false, b⟩ simd d w h ct) := by
  unfold Encoder.encode
  rcases requiredLen_ref b w h ct with ⟨x, hx, hr⟩ | hr
  · rw [hr]
    exact .inl ⟨x, hx, rfl⟩
  · rw [hr]
    cases requiredLen ⟨false, b⟩ w h ct with
    | error x => exact .refl _
    | ok n =>
      dsimp only
      split
      · exact .refl _
      · obtain ⟨c, f, f', h1, h2, hf⟩ := imageFor_ref b simd d w h ct
        rw [h1, h2]
        exact encodeImage_ref b simd e hf

/-- Running both programs against the same writer. -/
theorem Prog.Ref.run {α σ : Type} (S : Sink σ) {p p' : Prog (R α)} (h : p.Ref p') (s : σ) : (∃ f, DebugOnly f ∧ (p.run S s).2 = .error f) ∨ p.run S s = p'.run S s := by
  induction p generalizing p' s with
  | done r =>
    rcases h with h | rfl
    · exact .inl h
    · exact .inr rfl
  | write c k ih =>
    obtain ⟨k', rfl, hk⟩ := h
    exact ih _ (hk _) _

end
end Jpeg
