import Verif.Proofs.Prog
/-! Every encoder method stops at the first failing write. -/
namespace Jpeg
open WM
set_option maxRecDepth 10000

theorem WM.Strict.pure' {α : Type} (a : α) : (Pure.pure a : WM α).Strict := WM.Strict.pure a

theorem WM.Strict.lift_bind {α β : Type} {r : R α} {f : α → WM β} (hf : ∀ a, (f a).Strict) :
    (WM.lift r >>= f).Strict := (WM.Strict.lift r).bind hf

theorem WM.Strict.ite {α : Type} {c : Prop} [Decidable c] {a b : WM α} (ha : a.Strict) (hb : b.Strict) :
    (if c then a else b).Strict := by split <;> assumption

syntax "strict_step" : tactic
macro_rules | `(tactic| strict_step) => `(tactic| first | with_reducible exact WM.Strict.pure _ | with_reducible exact WM.Strict.pure' _ | with_reducible exact WM.Strict.lift _ | with_reducible exact WM.Strict.get | with_reducible exact WM.Strict.set _ | with_reducible exact WM.Strict.writeAll _ | with_reducible apply WM.Strict.ite | with_reducible apply WM.Strict.bind' | with_reducible apply WM.Strict.bind | with_reducible apply WM.Strict.forEach | with_reducible apply WM.Strict.forFold | with_reducible (intro _))
syntax "strict" : tactic
macro_rules | `(tactic| strict) => `(tactic| repeat (first | with_reducible intro _ | with_reducible refine WM.Strict.lift_bind ?_ | strict_step))

theorem writeU8_strict (v : Nat) : (writeU8 v).Strict := by unfold writeU8; strict
theorem writeU16_strict (v : Nat) : (writeU16 v).Strict := by unfold writeU16; strict
theorem write_strict (v : Bytes) : (write v).Strict := by unfold write; strict
macro_rules | `(tactic| strict_step) => `(tactic| first | with_reducible exact writeU8_strict _ | with_reducible exact writeU16_strict _ | with_reducible exact write_strict _)
theorem flushByte_strict (pf : Platform) (f : Int) : (flushByteFromBitBuffer pf f).Strict := by
  unfold flushByteFromBitBuffer; strict
macro_rules | `(tactic| strict_step) => `(tactic| first | with_reducible exact flushByte_strict _ _)
theorem flushBitBuffer_strict (pf : Platform) (n : Nat) : (flushBitBuffer pf n).Strict := by
  induction n with
  | zero => unfold flushBitBuffer; strict
  | succ n ih => unfold flushBitBuffer; repeat (first | exact ih | strict_step)
theorem writeBitBuffer_strict (pf : Platform) : (writeBitBuffer pf).Strict := by unfold writeBitBuffer; strict
macro_rules | `(tactic| strict_step) => `(tactic| first | with_reducible exact flushBitBuffer_strict _ _ | with_reducible exact writeBitBuffer_strict _)
theorem writeBits_strict (pf : Platform) (v n : Nat) : (writeBits pf v n).Strict := by unfold writeBits; dsimp only; strict
macro_rules | `(tactic| strict_step) => `(tactic| first | with_reducible exact writeBits_strict _ _ _)
theorem finalize_strict (pf : Platform) : (finalizeBitBuffer pf).Strict := by unfold finalizeBitBuffer; strict
theorem writeMarker_strict (pf : Platform) (m : Marker) : (writeMarker pf m).Strict := by unfold writeMarker; strict
macro_rules | `(tactic| strict_step) => `(tactic| first | with_reducible exact finalize_strict _ | with_reducible exact writeMarker_strict _ _)
theorem writeSegment_strict (pf : Platform) (m : Marker) (d : Bytes) : (writeSegment pf m d).Strict := by
  unfold writeSegment; strict
theorem writeDensity_strict (d : Density) : (writeDensity d).Strict := by cases d <;> unfold writeDensity <;> strict
macro_rules | `(tactic| strict_step) => `(tactic| first | with_reducible exact writeSegment_strict _ _ _ | with_reducible exact writeDensity_strict _)
theorem writeHeader_strict (pf : Platform) (d : Density) : (writeHeader pf d).Strict := by unfold writeHeader; strict
theorem writeHuffmanSegment_strict (pf : Platform) (c : CodingClass) (n : Nat) (t : HuffmanTable) :
    (writeHuffmanSegment pf c n t).Strict := by unfold writeHuffmanSegment; strict
theorem writeQuantizationSegment_strict (pf : Platform) (n : Nat) (t : QuantizationTable) :
    (writeQuantizationSegment pf n t).Strict := by unfold writeQuantizationSegment; strict
theorem writeDri_strict (pf : Platform) (n : Nat) : (writeDri pf n).Strict := by unfold writeDri; strict
theorem huffmanEncode_strict (pf : Platform) (v : Nat) (t : HuffmanTable) : (huffmanEncode pf v t).Strict := by
  unfold huffmanEncode; strict
theorem huffmanEncodeValue_strict (pf : Platform) (a b c : Nat) (t : HuffmanTable) :
    (huffmanEncodeValue pf a b c t).Strict := by unfold huffmanEncodeValue; strict
macro_rules | `(tactic| strict_step) => `(tactic| first | with_reducible exact writeHeader_strict _ _ | with_reducible exact writeHuffmanSegment_strict _ _ _ _ | with_reducible exact writeQuantizationSegment_strict _ _ _ | with_reducible exact writeDri_strict _ _ | with_reducible exact huffmanEncode_strict _ _ _ | with_reducible exact huffmanEncodeValue_strict _ _ _ _ _)
theorem writeDc_strict (pf : Platform) (a b : Int) (t : HuffmanTable) : (writeDc pf a b t).Strict := by
  unfold writeDc; strict
theorem writeZrl_strict (pf : Platform) (t : HuffmanTable) (n z : Nat) : (writeZrl pf t n z).Strict := by
  induction n generalizing z with
  | zero => unfold writeZrl; strict
  | succ n ih => unfold writeZrl; repeat (first | exact ih _ | strict_step)
macro_rules | `(tactic| strict_step) => `(tactic| first | with_reducible exact writeDc_strict _ _ _ _ | with_reducible exact writeZrl_strict _ _ _ _)
theorem writeAcLoop_strict (pf : Platform) (t : HuffmanTable) (l : List Int) (z : Nat) :
    (writeAcLoop pf t l z).Strict := by
  induction l generalizing z with
  | nil => unfold writeAcLoop; strict
  | cons x xs ih => unfold writeAcLoop; repeat (first | exact ih _ | strict_step)
macro_rules | `(tactic| strict_step) => `(tactic| first | with_reducible exact writeAcLoop_strict _ _ _ _)
theorem writeAcBlock_strict (pf : Platform) (b : List Int) (i j : Nat) (t : HuffmanTable) :
    (writeAcBlock pf b i j t).Strict := by unfold writeAcBlock; strict
macro_rules | `(tactic| strict_step) => `(tactic| first | with_reducible exact writeAcBlock_strict _ _ _ _ _)
theorem writeBlock_strict (pf : Platform) (b : List Int) (p : Int) (t u : HuffmanTable) :
    (writeBlock pf b p t u).Strict := by unfold writeBlock; strict
theorem writeFrameHeader_strict (pf : Platform) (w h : UInt16) (c : List Component) (p : Bool) :
    (writeFrameHeader pf w h c p).Strict := by unfold writeFrameHeader; strict
theorem writeScanHeader_strict (pf : Platform) (c : List Component) (p : Option (Nat × Nat)) :
    (writeScanHeader pf c p).Strict := by unfold writeScanHeader; strict
macro_rules | `(tactic| strict_step) => `(tactic| first | with_reducible exact writeBlock_strict _ _ _ _ _ | with_reducible exact writeFrameHeader_strict _ _ _ _ _ | with_reducible exact writeScanHeader_strict _ _ _)
theorem writeChromaHuffman_strict (pf : Platform) (n : Nat) (t : HuffPair) : (writeChromaHuffman pf n t).Strict := by
  unfold writeChromaHuffman; strict
theorem writeDriOpt_strict (pf : Platform) (n : Option UInt16) : (writeDriOpt pf n).Strict := by
  cases n <;> unfold writeDriOpt <;> strict
macro_rules | `(tactic| strict_step) => `(tactic| first | with_reducible exact writeChromaHuffman_strict _ _ _ | with_reducible exact writeDriOpt_strict _ _)
theorem encWriteFrameHeader_strict (pf : Platform) (e : Encoder) (im : ImageBuffer) (q : QuantizationTable × QuantizationTable) :
    (e.writeFrameHeader pf im q).Strict := by unfold Encoder.writeFrameHeader; strict
theorem restartBefore_strict {σ : Type} (pf : Platform) (n : Nat) (r : Rst) (f : σ → σ) (s : σ) :
    (restartBefore pf n r f s).Strict := by unfold restartBefore; strict
macro_rules | `(tactic| strict_step) => `(tactic| first | with_reducible exact encWriteFrameHeader_strict _ _ _ _ | with_reducible exact restartBefore_strict _ _ _ _ _)
theorem scanLoop_strict {α σ : Type} (pf : Platform) (n : Nat) (f : σ → σ) (body : α → σ → WM σ) (l : List α) (st : Rst × σ)
    (h : ∀ x s, (body x s).Strict) : (scanLoop pf n f body l st).Strict := by
  unfold scanLoop; repeat (first | exact h _ _ | strict_step)
macro_rules | `(tactic| strict_step) => `(tactic| first | with_reducible apply scanLoop_strict)
theorem encodeMcuBlock_strict (pf : Platform) (e : Encoder) (op : Operations) (q : QuantizationTable × QuantizationTable)
    (rows : Rows) (a b c d i : Nat) (k : Component) (v h : Nat) (p : List Int) :
    (encodeMcuBlock pf e op q rows a b c d i k v h p).Strict := by unfold encodeMcuBlock; strict
macro_rules | `(tactic| strict_step) => `(tactic| first | with_reducible exact encodeMcuBlock_strict _ _ _ _ _ _ _ _ _ _ _ _ _ _)
theorem encodeMcu_strict (pf : Platform) (e : Encoder) (op : Operations) (q : QuantizationTable × QuantizationTable)
    (rows : Rows) (a b c d : Nat) (p : List Int) : (encodeMcu pf e op q rows a b c d p).Strict := by
  unfold encodeMcu; strict
macro_rules | `(tactic| strict_step) => `(tactic| first | with_reducible exact encodeMcu_strict _ _ _ _ _ _ _ _ _ _)
theorem encodeInterleaved_strict (pf : Platform) (e : Encoder) (op : Operations) (im : ImageBuffer)
    (q : QuantizationTable × QuantizationTable) : (e.encodeInterleaved pf op im q).Strict := by
  unfold Encoder.encodeInterleaved; dsimp only; strict
theorem sequentialScan_strict (pf : Platform) (e : Encoder) (b : Blocks) (ci : Component × Nat) :
    (sequentialScan pf e b ci).Strict := by unfold sequentialScan; strict
theorem dcScan_strict (pf : Platform) (e : Encoder) (b : Blocks) (ci : Component × Nat) :
    (dcScan pf e b ci).Strict := by unfold dcScan; strict
theorem acScan_strict (pf : Platform) (e : Encoder) (b : Blocks) (band : Nat × Nat) (ci : Component × Nat) :
    (acScan pf e b band ci).Strict := by unfold acScan; strict
macro_rules | `(tactic| strict_step) => `(tactic| first | with_reducible exact sequentialScan_strict _ _ _ _ | with_reducible exact dcScan_strict _ _ _ _ | with_reducible exact acScan_strict _ _ _ _ _)
theorem encodeSequential_strict (pf : Platform) (e : Encoder) (op : Operations) (im : ImageBuffer)
    (q : QuantizationTable × QuantizationTable) : (e.encodeSequential pf op im q).Strict := by
  unfold Encoder.encodeSequential; strict
theorem encodeProgressive_strict (pf : Platform) (e : Encoder) (op : Operations) (im : ImageBuffer) (n : UInt8)
    (q : QuantizationTable × QuantizationTable) : (e.encodeProgressive pf op im n q).Strict := by
  unfold Encoder.encodeProgressive; strict
theorem encodeScans_strict (pf : Platform) (e : Encoder) (op : Operations) (im : ImageBuffer)
    (q : QuantizationTable × QuantizationTable) : (e.encodeScans pf op im q).Strict := by
  unfold Encoder.encodeScans
  split
  · exact encodeProgressive_strict _ _ _ _ _ _
  · exact WM.Strict.ite (encodeSequential_strict _ _ _ _ _) (encodeInterleaved_strict _ _ _ _ _)
theorem writeAdobe_strict (pf : Platform) (c : JpegColorType) : (writeAdobe pf c).Strict := by
  cases c <;> unfold writeAdobe <;> strict
macro_rules | `(tactic| strict_step) => `(tactic| first | with_reducible exact encodeScans_strict _ _ _ _ _ | with_reducible exact writeAdobe_strict _ _)
theorem encodeImageInternal_strict (pf : Platform) (e : Encoder) (op : Operations) (im : ImageBuffer) :
    (e.encodeImageInternal pf op im).Strict := by
  unfold Encoder.encodeImageInternal; strict

theorem WM.Strict.program {α : Type} {m : WM α} (h : m.Strict) (pf : Platform) : (m.program pf).Strict :=
  Prog.Strict.bind (h _) (fun _ => trivial) (fun _ => rfl)

theorem encodeImage_strict (pf : Platform) (simd : Bool) (e : Encoder) (im : ImageBuffer) :
    (e.encodeImage pf simd im).Strict := (encodeImageInternal_strict _ _ _ _).program pf

theorem encode_strict (pf : Platform) (simd : Bool) (e : Encoder) (data : Bytes) (w h : UInt16) (ct : ColorType) :
    (e.encode pf simd data w h ct).Strict := by
  unfold Encoder.encode
  split
  · trivial
  · split
    · trivial
    · exact encodeImage_strict _ _ _ _

end Jpeg
