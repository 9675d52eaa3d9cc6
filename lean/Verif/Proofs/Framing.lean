import Verif.Proofs.Stream
import Verif.Proofs.BitWriter
import Verif.Proofs.Free
/-! What a reader that skips segments (`Spec.afterImage`) makes of an output while it is being written: a program logic for C85. -/
namespace Jpeg
open _root_.Spec

/-! ### The reader without fuel -/

theorem skipEntropy_length (l : Bytes) : ∀ {r : Bytes}, skipEntropy l = some r → r.length ≤ l.length := by
  induction l using skipEntropy.induct with
  | case1 => intro r h; cases h
  | case2 => intro r h; cases h
  | case3 c l hc ih =>
    intro r h
    rw [skipEntropy, if_pos rfl, if_pos hc] at h
    have := ih h
    simp only [List.length_cons]
    omega
  | case4 c l hc =>
    intro r h
    rw [skipEntropy, if_pos rfl, if_neg hc] at h
    cases h
    exact Nat.le_refl _
  | case5 b c l hb ih =>
    intro r h
    rw [skipEntropy, if_neg hb] at h
    have := ih h
    simp only [List.length_cons] at *
    omega

theorem skipSegments_fuel : ∀ (n m : Nat) (l : Bytes), l.length ≤ n → l.length ≤ m → skipSegments n l = skipSegments m l := by
  intro n
  induction n with
  | zero =>
    intro m l hn hm
    have : l = [] := List.length_eq_zero_iff.mp (by omega)
    subst this
    cases m <;> rfl
  | succ n ih =>
    intro m l hn hm
    cases m with
    | zero =>
      have : l = [] := List.length_eq_zero_iff.mp (by omega)
      subst this
      rfl
    | succ m =>
      match l, hn, hm with
      | [], _, _ => rfl
      | [b], _, _ =>
        rw [skipSegments.eq_def, skipSegments.eq_def]
        split
        · rename_i h; simp_all
        · split
          · simp_all
          · rfl
      | b :: c :: rest, hn, hm =>
        by_cases hb : b = 0xFF
        · subst hb
          by_cases h9 : c = 0xD9
          · subst h9
            rfl
          · match rest, hn, hm with
            | [], _, _ => unfold skipSegments; simp only [if_neg h9]
            | [_], _, _ => unfold skipSegments; simp only [if_neg h9]
            | l1 :: l0 :: rest, hn, hm =>
              rw [skip_cons, skip_cons, if_neg h9, if_neg h9]
              simp only [List.length_cons] at hn hm
              have hd := List.length_drop (l := rest) (i := 256 * l1.toNat + l0.toNat - 2)
              rw [ih m (rest.drop (256 * l1.toNat + l0.toNat - 2)) (by omega) (by omega)]
              cases hse : skipEntropy (rest.drop (256 * l1.toNat + l0.toNat - 2)) with
              | none => rfl
              | some r =>
                have := skipEntropy_length _ hse
                simp only [Option.bind_some]
                rw [ih m r (by omega) (by omega)]
        · rw [skipSegments.eq_def, skipSegments.eq_def]
          split
          · rename_i h; simp_all
          · split
            · simp_all
            · rfl

/-- What the reader finds behind the image if `r` begins with a marker. -/
def restSegments (r : Bytes) : Option Bytes := skipSegments r.length r
/-- What the reader finds behind the image if `r` begins inside a scan. -/
def restEntropy (r : Bytes) : Option Bytes := (skipEntropy r).bind restSegments
/-- What the reader finds behind the image if `r` begins with the last `n` bytes of a segment with marker `m`. -/
def restInside (m : UInt8) (n : Nat) (r : Bytes) : Option Bytes :=
  if r.length < n then none else if m = 0xDA then restEntropy (r.drop n) else restSegments (r.drop n)

theorem restSegments_nil : restSegments [] = none := rfl
theorem restEntropy_nil : restEntropy [] = none := rfl

theorem restSegments_cons {m l1 l0 : UInt8} (h9 : m ≠ 0xD9) (hl : 2 ≤ 256 * l1.toNat + l0.toNat) (r : Bytes) :
    restSegments (0xFF :: m :: l1 :: l0 :: r) = restInside m (256 * l1.toNat + l0.toNat - 2) r := by
  unfold restSegments restInside
  rw [List.length_cons, skip_cons, if_neg h9]
  by_cases hlen : r.length < 256 * l1.toNat + l0.toNat - 2
  · rw [if_pos (Or.inr hlen), if_pos hlen]
  · rw [if_neg (by omega), if_neg hlen]
    have hd := List.length_drop (l := r) (i := 256 * l1.toNat + l0.toNat - 2)
    unfold restEntropy restSegments
    rw [skipSegments_fuel _ (r.drop (256 * l1.toNat + l0.toNat - 2)).length (r.drop (256 * l1.toNat + l0.toNat - 2)) (by simp only [List.length_cons]; omega) (Nat.le_refl _)]
    cases hse : skipEntropy (r.drop (256 * l1.toNat + l0.toNat - 2)) with
    | none => rfl
    | some r' =>
      have := skipEntropy_length _ hse
      simp only [Option.bind_some]
      rw [skipSegments_fuel _ r'.length r' (by simp only [List.length_cons]; omega) (Nat.le_refl _)]

theorem restEntropy_byte {b : UInt8} (hb : b ≠ 0xFF) (r : Bytes) : restEntropy (b :: r) = restEntropy r := by
  unfold restEntropy
  cases r with
  | nil => rfl
  | cons c r => rw [skipEntropy, if_neg hb]

theorem restEntropy_stuffed {c : UInt8} (hc : c = 0 ∨ (0xD0 ≤ c ∧ c ≤ 0xD7)) (r : Bytes) : restEntropy (0xFF :: c :: r) = restEntropy r := by
  unfold restEntropy
  rw [skipEntropy, if_pos rfl, if_pos hc]

theorem restEntropy_marker {c : UInt8} (hc : ¬ (c = 0 ∨ (0xD0 ≤ c ∧ c ≤ 0xD7))) (r : Bytes) : restEntropy (0xFF :: c :: r) = restSegments (0xFF :: c :: r) := by
  unfold restEntropy
  rw [skipEntropy, if_pos rfl, if_neg hc]
  rfl

/-! ### States of the output -/

def AtMarker (acc : Bytes) : Prop := ∀ r, afterImage (acc ++ r) = restSegments r
def InScan (acc : Bytes) : Prop := ∀ r, afterImage (acc ++ r) = restEntropy r
def AfterMarker (m : UInt8) (acc : Bytes) : Prop := ∀ r, afterImage (acc ++ r) = restSegments (0xFF :: m :: r)
def InSegment (m : UInt8) (n : Nat) (acc : Bytes) : Prop := ∀ r, afterImage (acc ++ r) = restInside m n r
/-- Between two segments or in a scan. -/
def Between (acc : Bytes) : Prop := AtMarker acc ∨ InScan acc
def Unfinished (acc : Bytes) : Prop := afterImage acc = none

theorem AtMarker.unfinished {acc : Bytes} (h : AtMarker acc) : Unfinished acc := by
  have := h []
  rwa [List.append_nil, restSegments_nil] at this
theorem InScan.unfinished {acc : Bytes} (h : InScan acc) : Unfinished acc := by
  have := h []
  rwa [List.append_nil, restEntropy_nil] at this
theorem Between.unfinished {acc : Bytes} (h : Between acc) : Unfinished acc := h.elim AtMarker.unfinished InScan.unfinished
theorem AfterMarker.unfinished {m : UInt8} (hm : m ≠ 0xD9) {acc : Bytes} (h : AfterMarker m acc) : Unfinished acc := by
  have := h []
  rw [List.append_nil] at this
  unfold restSegments skipSegments at this
  simp only [List.length_cons, List.length_nil, if_neg hm] at this
  exact this
theorem InSegment.unfinished {m : UInt8} {n : Nat} {acc : Bytes} (h : InSegment m n acc) : Unfinished acc := by
  have := h []
  rw [List.append_nil] at this
  unfold Unfinished
  rw [this]
  unfold restInside
  split
  · rfl
  · rw [List.drop_nil]
    split <;> rfl

theorem InSegment.zero {m : UInt8} (hm : m ≠ 0xDA) {acc : Bytes} (h : InSegment m 0 acc) : AtMarker acc := fun r => by
  rw [h r]
  unfold restInside
  rw [if_neg (Nat.not_lt_zero _), if_neg hm, List.drop_zero]
theorem InSegment.scan {acc : Bytes} (h : InSegment 0xDA 0 acc) : InScan acc := fun r => by
  rw [h r]
  unfold restInside
  rw [if_neg (Nat.not_lt_zero _), if_pos rfl, List.drop_zero]

theorem InSegment.append {m : UInt8} {n : Nat} {acc c : Bytes} (h : InSegment m (c.length + n) acc) : InSegment m n (acc ++ c) := fun r => by
  rw [List.append_assoc, h]
  unfold restInside
  rw [List.length_append, List.drop_append]
  by_cases hl : r.length < n
  · rw [if_pos (by omega), if_pos hl]
  · rw [if_neg (by omega), if_neg hl, List.drop_eq_nil_of_le (by omega), List.nil_append, show c.length + n - c.length = n by omega]

/-! ### Programs -/

section
variable {α β : Type}

/-- From every state of the output in `P`, the computation ends with an output in `Q`, or fails with an unfinished one. -/
def WM.Tri (P : Bytes → Prop) (m : WM α) (Q : α → Bytes → Prop) : Prop :=
  ∀ s acc, P acc → match (m s).exec.2 with
    | .ok x => Q x.1 (acc ++ (m s).exec.1)
    | .error _ => Unfinished (acc ++ (m s).exec.1)

theorem WM.Tri.pure {P : Bytes → Prop} {a : α} {Q : α → Bytes → Prop} (h : ∀ acc, P acc → Q a acc) : WM.Tri P (WM.pure a) Q := by
  intro s acc hp
  change Q a (acc ++ [])
  rw [List.append_nil]
  exact h acc hp

theorem WM.Tri.bind' {P : Bytes → Prop} {m : WM α} {Q : α → Bytes → Prop} {f : α → WM β} {T : β → Bytes → Prop} (hm : WM.Tri P m Q) (hf : ∀ a, WM.Tri (Q a) (f a) T) :
    WM.Tri P (WM.bind m f) T := by
  intro s acc hp
  have h1 := hm s acc hp
  unfold WM.bind
  rw [Prog.exec_bind]
  cases hx : (m s).exec.2 with
  | error x =>
    rw [hx] at h1
    simp only [Prog.exec, List.append_nil]
    exact h1
  | ok x =>
    obtain ⟨a, s'⟩ := x
    rw [hx] at h1
    have h2 := hf a s' (acc ++ (m s).exec.1) h1
    simp only [List.append_assoc] at h2
    exact h2

theorem WM.Tri.bind {P : Bytes → Prop} {m : WM α} {Q : α → Bytes → Prop} {f : α → WM β} {T : β → Bytes → Prop} (hm : WM.Tri P m Q) (hf : ∀ a, WM.Tri (Q a) (f a) T) :
    WM.Tri P (m >>= f) T := WM.Tri.bind' hm hf

theorem WM.Tri.weaken {P P' : Bytes → Prop} {m : WM α} {Q Q' : α → Bytes → Prop} (h : WM.Tri P m Q) (hp : ∀ acc, P' acc → P acc) (hq : ∀ a acc, Q a acc → Q' a acc) :
    WM.Tri P' m Q' := by
  intro s acc hp'
  have := h s acc (hp acc hp')
  cases hx : (m s).exec.2 with
  | error x => rw [hx] at this; exact this
  | ok x => rw [hx] at this; exact hq _ _ this

theorem WM.Tri.or {P P' : Bytes → Prop} {m : WM α} {Q : α → Bytes → Prop} (h : WM.Tri P m Q) (h' : WM.Tri P' m Q) : WM.Tri (fun acc => P acc ∨ P' acc) m Q := by
  intro s acc hp
  rcases hp with hp | hp
  · exact h s acc hp
  · exact h' s acc hp

theorem WM.Tri.lift {P : Bytes → Prop} (hP : ∀ acc, P acc → Unfinished acc) {r : R α} {Q : α → Bytes → Prop} (h : ∀ a acc, r = .ok a → P acc → Q a acc) : WM.Tri P (WM.lift r) Q := by
  intro s acc hp
  cases r with
  | ok a =>
    change Q a (acc ++ [])
    rw [List.append_nil]
    exact h a acc rfl hp
  | error x =>
    change Unfinished (acc ++ [])
    rw [List.append_nil]
    exact hP acc hp

/-- A step that does not call the writer. -/
theorem WM.Tri.lift_bind {P : Bytes → Prop} (hP : ∀ acc, P acc → Unfinished acc) {r : R α} {f : α → WM β} {T : β → Bytes → Prop} (hf : ∀ a, r = .ok a → WM.Tri P (f a) T) :
    WM.Tri P (WM.lift r >>= f) T :=
  WM.Tri.bind (Q := fun a acc => r = .ok a ∧ P acc) (WM.Tri.lift hP fun a acc h1 h2 => ⟨h1, h2⟩) fun a s acc h => hf a h.1 s acc h.2

theorem WM.Tri.get_bind {P : Bytes → Prop} {f : BitState → WM β} {T : β → Bytes → Prop} (hf : ∀ a, WM.Tri P (f a) T) : WM.Tri P (WM.get >>= f) T :=
  WM.Tri.bind (Q := fun _ => P) (fun s acc hp => by change P (acc ++ []); rwa [List.append_nil]) hf

theorem WM.Tri.set {P : Bytes → Prop} {x : BitState} : WM.Tri P (WM.set x) fun _ => P := fun s acc hp => by
  change P (acc ++ [])
  rwa [List.append_nil]

theorem WM.Tri.writeAll {P : Bytes → Prop} {c : Bytes} {Q : Unit → Bytes → Prop} (h : ∀ acc, P acc → Q () (acc ++ c)) : WM.Tri P (WM.writeAll c) Q := fun s acc hp => by
  change Q () (acc ++ (c ++ []))
  rw [List.append_nil]
  exact h acc hp

theorem WM.Tri.forEach {P : Bytes → Prop} {l : List α} {body : α → WM Unit} (h : ∀ x ∈ l, WM.Tri P (body x) fun _ => P) : WM.Tri P (WM.forEach l body) fun _ => P := by
  induction l with
  | nil => exact .pure fun _ hp => hp
  | cons x l ih => exact .bind' (h x (by simp)) fun _ => ih fun y hy => h y (by simp [hy])

theorem WM.Tri.forFold {P : Bytes → Prop} {l : List α} {body : β → α → WM β} (h : ∀ s, ∀ x ∈ l, WM.Tri P (body s x) fun _ => P) :
    ∀ {s : β}, WM.Tri P (WM.forFold l s body) fun _ => P := by
  induction l with
  | nil => exact fun {s} => .pure fun _ hp => hp
  | cons x l ih => exact fun {s} => .bind' (h s x (by simp)) fun s' => ih fun s y hy => h s y (by simp [hy])

/-- Bytes of a segment. -/
theorem WM.Tri.inside {m : UInt8} {n : Nat} {c : Bytes} {k : Nat} (hk : k = c.length) : WM.Tri (InSegment m (k + n)) (WM.writeAll c) fun _ => InSegment m n := by
  subst hk
  exact .writeAll fun acc h => h.append

theorem WM.Tri.forInside {m : UInt8} {k n : Nat} {l : List α} {body : α → WM Unit} (h : ∀ x ∈ l, ∀ n, WM.Tri (InSegment m (k + n)) (body x) fun _ => InSegment m n) :
    WM.Tri (InSegment m (k * l.length + n)) (WM.forEach l body) fun _ => InSegment m n := by
  induction l with
  | nil =>
    rw [List.length_nil, Nat.mul_zero, Nat.zero_add]
    exact .pure fun _ hp => hp
  | cons x l ih =>
    rw [List.length_cons, Nat.mul_succ, Nat.add_comm _ k, Nat.add_assoc]
    exact .bind' (h x (by simp) _) fun _ => ih fun y hy => h y (by simp [hy])
end

/-! ### Headers -/

theorem u16_len {n : Nat} (hn : n < 65536) : 256 * (u8 (n / 256)).toNat + (u8 n).toNat = n := by
  have h1 : (u8 (n / 256)).toNat = n / 256 := u8_toNat (by omega)
  have h2 : (u8 n).toNat = n % 256 := by
    unfold u8
    simp
  omega

/-- A marker segment starts. -/
theorem marker_tri {pf : Platform} {m : Marker} {v : Nat} (hm : m.toU8 pf = .ok v) (h0 : ¬ (u8 v = 0 ∨ (0xD0 ≤ u8 v ∧ u8 v ≤ 0xD7))) :
    WM.Tri Between (writeMarker pf m) fun _ => AfterMarker (u8 v) := by
  unfold writeMarker
  refine WM.Tri.lift_bind (fun _ => Between.unfinished) fun a ha => ?_
  rw [hm] at ha
  cases ha
  refine WM.Tri.writeAll fun acc h r => ?_
  rw [List.append_assoc]
  rcases h with h | h
  · exact h _
  · exact (h _).trans (restEntropy_marker h0 r)

/-- The length of a segment. -/
theorem length_tri {m : UInt8} (hm : m ≠ 0xD9) {n : Nat} (hn : n + 2 < 65536) : WM.Tri (AfterMarker m) (writeU16 (n + 2)) fun _ => InSegment m n := by
  refine WM.Tri.writeAll fun acc h r => ?_
  rw [List.append_assoc, h]
  have hl := u16_len hn
  have := restSegments_cons (m := m) (l1 := u8 ((n + 2) / 256)) (l0 := u8 (n + 2)) hm (by omega) r
  rw [hl, show n + 2 - 2 = n by omega] at this
  exact this


theorem write_tri {m : UInt8} {N : Nat} (n : Nat) {c : Bytes} (h : N = c.length + n) : WM.Tri (InSegment m N) (write c) fun _ => InSegment m n := by
  subst h
  exact WM.Tri.inside rfl
theorem writeU8_tri {m : UInt8} {N : Nat} (n : Nat) {v : Nat} (h : N = 1 + n) : WM.Tri (InSegment m N) (writeU8 v) fun _ => InSegment m n := by
  subst h
  exact WM.Tri.inside rfl
theorem writeU16_tri {m : UInt8} {N : Nat} (n : Nat) {v : Nat} (h : N = 2 + n) : WM.Tri (InSegment m N) (writeU16 v) fun _ => InSegment m n := by
  subst h
  exact WM.Tri.inside rfl
theorem ckU_small {pf : Platform} {b : Nat} {v : Int} {n : Nat} (h : ckU pf b v = .ok n) (h0 : 0 ≤ v) (h1 : v < (2 : Int) ^ b) : (n : Int) = v := by
  unfold ckU at h
  rw [if_pos ⟨h0, h1⟩] at h
  have := Except.ok.inj h
  omega

/-- A marker without its bytes: not a marker of a scan, not the end. -/
structure SegMarker (pf : Platform) (m : Marker) (x : UInt8) : Prop where
  val : ∃ v, m.toU8 pf = .ok v ∧ u8 v = x
  out : ¬ (x = 0 ∨ (0xD0 ≤ x ∧ x ≤ 0xD7))
  eoi : x ≠ 0xD9

theorem SegMarker.tri {pf : Platform} {m : Marker} {x : UInt8} (h : SegMarker pf m x) : WM.Tri Between (writeMarker pf m) fun _ => AfterMarker x := by
  obtain ⟨⟨v, hv, rfl⟩, h1, h2⟩ := h
  exact marker_tri hv h1

theorem length_tri' {pf : Platform} {m : Marker} {x : UInt8} (hm : SegMarker pf m x) (n : Nat) {N : Nat} (hN : N = n + 2) (hn : n + 2 < 65536) :
    WM.Tri (AfterMarker x) (writeU16 N) fun _ => InSegment x n := by
  subst hN
  exact length_tri hm.eoi hn

theorem WM.Tri.close {m : UInt8} (hm : m ≠ 0xDA) {x : WM Unit} {P : Bytes → Prop} (h : WM.Tri P x fun _ => InSegment m 0) : WM.Tri P x fun _ => Between :=
  h.weaken (fun _ h => h) fun _ _ h => .inl (h.zero hm)

theorem SegMarker.app0 (pf : Platform) : SegMarker pf (.app 0) 0xE0 := ⟨⟨_, rfl, rfl⟩, by decide, by decide⟩
theorem SegMarker.dht (pf : Platform) : SegMarker pf .dht 0xC4 := ⟨⟨_, rfl, rfl⟩, by decide, by decide⟩
theorem SegMarker.dqt (pf : Platform) : SegMarker pf .dqt 0xDB := ⟨⟨_, rfl, rfl⟩, by decide, by decide⟩
theorem SegMarker.dri (pf : Platform) : SegMarker pf .dri 0xDD := ⟨⟨_, rfl, rfl⟩, by decide, by decide⟩
theorem SegMarker.sos (pf : Platform) : SegMarker pf .sos 0xDA := ⟨⟨_, rfl, rfl⟩, by decide, by decide⟩
theorem SegMarker.sof0 (pf : Platform) : SegMarker pf .sofBaseline 0xC0 := ⟨⟨_, rfl, rfl⟩, by decide, by decide⟩
theorem SegMarker.sof2 (pf : Platform) : SegMarker pf .sofProgressive 0xC2 := ⟨⟨_, rfl, rfl⟩, by decide, by decide⟩

theorem writeHeader_tri (pf : Platform) (d : Density) : WM.Tri Between (writeHeader pf d) fun _ => Between := by
  unfold writeHeader
  with_reducible
    refine WM.Tri.bind (SegMarker.app0 pf).tri fun _ => ?_
    refine WM.Tri.bind (length_tri' (SegMarker.app0 pf) 14 (by decide) (by decide)) fun _ => ?_
    refine WM.Tri.bind (write_tri 9 (by decide)) fun _ => ?_
    refine WM.Tri.bind (write_tri 7 (by decide)) fun _ => ?_
    refine WM.Tri.bind (Q := fun _ => InSegment 0xE0 2) ?_ fun _ => (write_tri 0 (by decide)).close (by decide)
  cases d <;>
    exact WM.Tri.bind (writeU8_tri 6 (by decide)) fun _ => WM.Tri.bind (writeU16_tri 4 (by decide)) fun _ => writeU16_tri 2 (by decide)

theorem SegMarker.app (pf : Platform) {k : Nat} (hk : k ≤ 15) : ∃ x, SegMarker pf (.app k) x ∧ x ≠ 0xDA := by
  have hm : (Marker.app k).toU8 pf = .ok (0xE0 + k) := by
    change ckU pf 8 (0xE0 + (k : Int)) = _
    unfold ckU
    rw [if_pos (by omega)]
    congr 1
  have ht : (u8 (0xE0 + k)).toNat = 0xE0 + k := u8_toNat (by omega)
  have hne : ∀ x : UInt8, x.toNat < 0xE0 → u8 (0xE0 + k) ≠ x := by rintro x hx rfl; omega
  refine ⟨u8 (0xE0 + k), ⟨⟨_, hm, rfl⟩, ?_, hne _ (by decide)⟩, hne _ (by decide)⟩
  rintro (h | h)
  · exact hne _ (by decide) h
  · have := h.2
    rw [UInt8.le_iff_toNat_le, ht] at this
    change 0xE0 + k ≤ 0xD7 at this
    omega

theorem writeSegment_tri (pf : Platform) {k : Nat} (hk : k ≤ 15) {data : Bytes} (hd : data.length ≤ 65533) :
    WM.Tri Between (writeSegment pf (.app k) data) fun _ => Between := by
  obtain ⟨x, hx, ha⟩ := SegMarker.app pf hk
  unfold writeSegment
  with_reducible
    refine WM.Tri.bind hx.tri fun _ => ?_
    refine WM.Tri.lift_bind (fun _ => AfterMarker.unfinished hx.eoi) fun n hn => ?_
  have := ckU_small hn (by omega) (by omega)
  with_reducible
    refine WM.Tri.bind (length_tri' hx data.length (by omega) (by omega)) fun _ => ?_
    exact (write_tri 0 (by omega)).close ha

theorem writeAdobe_tri (pf : Platform) (ct : JpegColorType) : WM.Tri Between (writeAdobe pf ct) fun _ => Between := by
  cases ct
  · exact .pure fun _ h => h
  · exact .pure fun _ h => h
  · exact writeSegment_tri pf (k := 14) (data := ascii [65, 100, 111, 98, 101, 0, 0, 0, 0, 0, 0, 0]) (by decide) (by decide)
  · exact writeSegment_tri pf (k := 14) (data := ascii [65, 100, 111, 98, 101, 0, 0, 0, 0, 0, 0, 2]) (by decide) (by decide)

/-- A table that fits in a segment. -/
def TableLen (t : HuffmanTable) : Prop := t.length.length = 16 ∧ t.values.length ≤ 256

theorem writeHuffmanSegment_tri (pf : Platform) (cls : CodingClass) (d : Nat) {t : HuffmanTable} (ht : TableLen t) :
    WM.Tri Between (writeHuffmanSegment pf cls d t) fun _ => Between := by
  have h1 := ht.1
  have h2 := ht.2
  unfold writeHuffmanSegment
  with_reducible
    refine WM.Tri.lift_bind (fun _ => Between.unfinished) fun _ _ => ?_
    refine WM.Tri.bind (SegMarker.dht pf).tri fun _ => ?_
    refine WM.Tri.lift_bind (fun _ => AfterMarker.unfinished (by decide)) fun n hn => ?_
  have := ckU_small hn (by omega) (by omega)
  with_reducible
    refine WM.Tri.bind (length_tri' (SegMarker.dht pf) (1 + (16 + t.values.length)) (by omega) (by omega)) fun _ => ?_
    refine WM.Tri.bind (writeU8_tri (16 + t.values.length) (by omega)) fun _ => ?_
    refine WM.Tri.bind (write_tri t.values.length (by rw [List.length_map]; omega)) fun _ => ?_
    exact (write_tri 0 (by rw [List.length_map]; omega)).close (by decide)

theorem writeQuantizationSegment_tri (pf : Platform) (d : Nat) (t : QuantizationTable) :
    WM.Tri Between (writeQuantizationSegment pf d t) fun _ => Between := by
  unfold writeQuantizationSegment
  have hz : ZIGZAG.length = 64 := by decide
  have hloop := WM.Tri.forInside (m := 0xDB) (k := 1) (n := 0) (l := ZIGZAG) (body := fun v => (do let b ← WM.lift (t.get v); writeU8 b)) fun x _ n => by
    with_reducible exact .lift_bind (fun _ => InSegment.unfinished) fun _ _ => writeU8_tri n (by omega)
  rw [hz, Nat.one_mul, Nat.add_zero] at hloop
  with_reducible
    refine WM.Tri.lift_bind (fun _ => Between.unfinished) fun _ _ => ?_
    refine WM.Tri.bind (SegMarker.dqt pf).tri fun _ => ?_
    refine WM.Tri.bind (length_tri' (SegMarker.dqt pf) 65 (by decide) (by decide)) fun _ => ?_
    refine WM.Tri.bind (writeU8_tri 64 (by decide)) fun _ => ?_
    exact hloop.close (by decide)

theorem writeDriOpt_tri (pf : Platform) (i : Option UInt16) : WM.Tri Between (writeDriOpt pf i) fun _ => Between := by
  cases i with
  | none => exact .pure fun _ h => h
  | some i =>
    change WM.Tri Between (writeDri pf i.toNat) fun _ => Between
    unfold writeDri
    with_reducible
      refine WM.Tri.bind (SegMarker.dri pf).tri fun _ => ?_
      refine WM.Tri.bind (length_tri' (SegMarker.dri pf) 2 (by decide) (by decide)) fun _ => ?_
      exact (writeU16_tri 0 (by decide)).close (by decide)

theorem writeChromaHuffman_tri (pf : Platform) (n : Nat) {t : HuffPair} (hd : TableLen t.dc) (ha : TableLen t.ac) :
    WM.Tri Between (writeChromaHuffman pf n t) fun _ => Between := by
  unfold writeChromaHuffman
  split
  · with_reducible exact WM.Tri.bind (writeHuffmanSegment_tri pf _ _ hd) fun _ => writeHuffmanSegment_tri pf _ _ ha
  · exact .pure fun _ h => h

theorem writeFrameHeader_tri (pf : Platform) (w h : UInt16) {cs : List Component} (hcs : cs.length ≤ 4) (progressive : Bool) :
    WM.Tri Between (Jpeg.writeFrameHeader pf w h cs progressive) fun _ => Between := by
  unfold Jpeg.writeFrameHeader
  have hv : ∃ x, SegMarker pf (if progressive then Marker.sofProgressive else .sofBaseline) x ∧ x ≠ 0xDA := by
    cases progressive
    · exact ⟨_, SegMarker.sof0 pf, by decide⟩
    · exact ⟨_, SegMarker.sof2 pf, by decide⟩
  obtain ⟨x, hx, ha⟩ := hv
  with_reducible
    refine WM.Tri.bind hx.tri fun _ => ?_
    refine WM.Tri.lift_bind (fun _ => AfterMarker.unfinished hx.eoi) fun m hm => ?_
    refine WM.Tri.lift_bind (fun _ => AfterMarker.unfinished hx.eoi) fun n hn => ?_
  have h1 := ckU_small hm (by omega) (by omega)
  have h2 := ckU_small hn (by omega) (by omega)
  have hloop := WM.Tri.forInside (m := x) (k := 3) (n := 0) (l := cs) (body := fun c => (do
    writeU8 c.id
    let hi ← WM.lift (shlU pf 8 c.horizontalSamplingFactor 4)
    writeU8 (hi ||| c.verticalSamplingFactor)
    writeU8 c.quantizationTable)) fun c _ n => by
      with_reducible
        refine WM.Tri.bind (writeU8_tri (2 + n) (by omega)) fun _ => ?_
        refine .lift_bind (fun _ => InSegment.unfinished) fun _ _ => ?_
        exact WM.Tri.bind (writeU8_tri (1 + n) (by omega)) fun _ => writeU8_tri n (by omega)
  with_reducible
    refine WM.Tri.bind (length_tri' hx (6 + 3 * cs.length) (by omega) (by omega)) fun _ => ?_
    refine WM.Tri.bind (writeU8_tri (5 + 3 * cs.length) (by omega)) fun _ => ?_
    refine WM.Tri.bind (writeU16_tri (3 + 3 * cs.length) (by omega)) fun _ => ?_
    refine WM.Tri.bind (writeU16_tri (1 + 3 * cs.length) (by omega)) fun _ => ?_
    refine WM.Tri.bind (writeU8_tri (3 * cs.length + 0) (by omega)) fun _ => ?_
    exact hloop.close ha

theorem writeScanHeader_tri (pf : Platform) {cs : List Component} (hcs : cs.length ≤ 4) (spectral : Option (Nat × Nat)) :
    WM.Tri Between (writeScanHeader pf cs spectral) fun _ => InScan := by
  unfold writeScanHeader
  with_reducible
    refine WM.Tri.bind (SegMarker.sos pf).tri fun _ => ?_
    refine WM.Tri.lift_bind (fun _ => AfterMarker.unfinished (by decide)) fun m hm => ?_
    refine WM.Tri.lift_bind (fun _ => AfterMarker.unfinished (by decide)) fun n hn => ?_
  have h1 := ckU_small hm (by omega) (by omega)
  have h2 := ckU_small hn (by omega) (by omega)
  have hloop := WM.Tri.forInside (m := 0xDA) (k := 2) (n := 3) (l := cs) (body := fun c => (do
    writeU8 c.id
    let hi ← WM.lift (shlU pf 8 c.dcHuffmanTable 4)
    writeU8 (hi ||| c.acHuffmanTable))) fun c _ n => by
      with_reducible
        refine WM.Tri.bind (writeU8_tri (1 + n) (by omega)) fun _ => ?_
        exact .lift_bind (fun _ => InSegment.unfinished) fun _ _ => writeU8_tri n (by omega)
  with_reducible
    refine WM.Tri.bind (length_tri' (SegMarker.sos pf) (4 + 2 * cs.length) (by omega) (by omega)) fun _ => ?_
    refine WM.Tri.bind (writeU8_tri (2 * cs.length + 3) (by omega)) fun _ => ?_
    refine WM.Tri.bind hloop fun _ => ?_
    refine WM.Tri.bind (writeU8_tri 2 (by decide)) fun _ => ?_
    refine WM.Tri.bind (writeU8_tri 1 (by decide)) fun _ => ?_
    exact (writeU8_tri 0 (by decide)).weaken (fun _ h => h) fun _ _ h => h.scan

/-! ### Entropy coded data -/

theorem InScan.byte {acc : Bytes} (h : InScan acc) {b : UInt8} (hb : b ≠ 0xFF) : InScan (acc ++ [b]) := fun r => by
  rw [List.append_assoc, h]
  exact restEntropy_byte hb r
theorem InScan.bytes {acc : Bytes} (h : InScan acc) : ∀ {c : Bytes}, (∀ b ∈ c, b ≠ 0xFF) → InScan (acc ++ c) := by
  intro c
  induction c generalizing acc with
  | nil => intro _; rwa [List.append_nil]
  | cons b c ih =>
    intro hc
    have := ih (h.byte (hc b (by simp))) fun x hx => hc x (by simp [hx])
    rwa [List.append_assoc] at this
theorem InScan.stuffed {acc : Bytes} (h : InScan acc) {c : UInt8} (hc : c = 0 ∨ (0xD0 ≤ c ∧ c ≤ 0xD7)) : InScan (acc ++ [0xFF, c]) := fun r => by
  rw [List.append_assoc, h]
  exact restEntropy_stuffed hc r

/-- Computations that stay inside a scan. -/
abbrev WM.Stays {α : Type} (m : WM α) : Prop := WM.Tri InScan m fun _ => InScan

theorem WM.Stays.bind {α β : Type} {m : WM α} {f : α → WM β} (hm : m.Stays) (hf : ∀ a, (f a).Stays) : (m >>= f).Stays := WM.Tri.bind hm hf
theorem WM.Stays.lift {α : Type} (r : R α) : (WM.lift r).Stays := WM.Tri.lift (fun _ => InScan.unfinished) fun _ _ _ h => h
theorem WM.Stays.lift_bind {α β : Type} {r : R α} {f : α → WM β} (hf : ∀ a, (f a).Stays) : (WM.lift r >>= f).Stays := WM.Tri.lift_bind (fun _ => InScan.unfinished) fun a _ => hf a
theorem WM.Stays.pure {α : Type} (a : α) : (WM.pure a).Stays := WM.Tri.pure fun _ h => h

theorem flushByte_stays (pf : Platform) (f : Int) : (flushByteFromBitBuffer pf f).Stays := by
  unfold flushByteFromBitBuffer
  with_reducible refine WM.Tri.get_bind fun s => ?_
  with_reducible refine WM.Stays.lift_bind fun _ => WM.Stays.lift_bind fun _ => WM.Stays.lift_bind fun v => ?_
  generalize hx : v &&& 0xFF = x
  have hx' : x < 256 := by
    rw [← hx]
    exact Nat.lt_of_le_of_lt Nat.and_le_right (by decide)
  by_cases hff : x = 0xFF
  · subst hff
    simp only [if_true]
    intro s acc h
    change InScan (acc ++ ([u8 0xFF] ++ ([u8 0] ++ [])))
    exact h.stuffed (Or.inl rfl)
  · simp only [if_neg hff]
    have hb : u8 x ≠ 0xFF := by
      intro h'
      have := congrArg UInt8.toNat h'
      rw [u8_toNat hx'] at this
      exact hff this
    with_reducible refine WM.Tri.bind (Q := fun _ => InScan) ?_ fun _ => WM.Stays.pure ()
    exact WM.Tri.writeAll fun acc h => h.byte hb

theorem flushBitBuffer_stays (pf : Platform) (fuel : Nat) : (flushBitBuffer pf fuel).Stays := by
  induction fuel with
  | zero => exact WM.Stays.lift _
  | succ fuel ih =>
    unfold flushBitBuffer
    with_reducible refine WM.Tri.get_bind fun s => ?_
    split
    · with_reducible refine WM.Tri.bind (flushByte_stays pf _) fun _ => ?_
      with_reducible refine WM.Tri.get_bind fun s => ?_
      with_reducible refine WM.Stays.lift_bind fun _ => ?_
      with_reducible exact WM.Tri.bind WM.Tri.set fun _ => ih
    · exact WM.Stays.pure ()

theorem toBeBytes_mod (pf : Platform) (B : Nat) : toBeBytes pf B = toBeBytes pf (B % 2 ^ pf.wordBits) := by
  unfold toBeBytes
  refine List.map_congr_left fun i hi => ?_
  rw [List.mem_range] at hi
  rw [wordBits_eq_bytes, ← u8_mod, ← u8_mod (B % _ / _)]
  congr 1
  have h8 : (2 : Nat) ^ (8 * pf.wordBytes) = 256 ^ (pf.wordBytes - 1 - i) * (256 * 256 ^ i) := by
    rw [Nat.pow_mul, show (2 : Nat) ^ 8 = 256 from rfl, ← Nat.pow_succ', ← Nat.pow_add]
    congr 1
    omega
  rw [h8, Nat.mod_mul_right_div_self, Nat.mod_mul_right_mod]

theorem mayContainFF_mod (pf : Platform) (B : Nat) : mayContainFF pf B = mayContainFF pf (B % 2 ^ pf.wordBits) := by
  unfold mayContainFF
  dsimp only
  rw [Nat.mod_add_mod]
  congr 1
  apply Nat.eq_of_testBit_eq
  intro i
  simp only [Nat.testBit_and, Nat.testBit_mod_two_pow]
  by_cases hi : i < pf.wordBits <;> simp [hi]

theorem writeBitBuffer_stays (pf : Platform) (hpf : pf.Valid) : (writeBitBuffer pf).Stays := by
  unfold writeBitBuffer
  with_reducible refine WM.Tri.get_bind fun s => ?_
  split
  · exact .forEach fun i _ => flushByte_stays pf _
  · rename_i hff
    refine .writeAll fun acc h => h.bytes ?_
    rw [toBeBytes_mod]
    refine toBeBytes_no_ff pf hpf _ (Nat.mod_lt _ (by positivity)) ?_
    rw [← mayContainFF_mod]
    simpa using hff

theorem writeBits_stays (pf : Platform) (hpf : pf.Valid) (value size : Nat) : (writeBits pf value size).Stays := by
  unfold writeBits
  dsimp only
  with_reducible refine WM.Tri.get_bind fun s => ?_
  with_reducible refine WM.Stays.lift_bind fun _ => ?_
  split
  · with_reducible refine WM.Stays.lift_bind fun _ => WM.Stays.lift_bind fun _ => WM.Stays.lift_bind fun _ => WM.Stays.lift_bind fun _ => ?_
    with_reducible refine WM.Tri.bind WM.Tri.set fun _ => ?_
    with_reducible refine WM.Tri.bind (writeBitBuffer_stays pf hpf) fun _ => ?_
    with_reducible exact WM.Stays.lift_bind fun _ => WM.Tri.set
  · with_reducible exact WM.Stays.lift_bind fun _ => WM.Tri.set

theorem finalize_stays (pf : Platform) (hpf : pf.Valid) : (finalizeBitBuffer pf).Stays := by
  unfold finalizeBitBuffer
  with_reducible exact WM.Tri.bind (writeBits_stays pf hpf _ _) fun _ => WM.Tri.bind (flushBitBuffer_stays pf _) fun _ => WM.Tri.set

theorem finalize_between (pf : Platform) (hpf : pf.Valid) : WM.Tri InScan (finalizeBitBuffer pf) fun _ => Between :=
  (finalize_stays pf hpf).weaken (fun _ h => h) fun _ _ h => Or.inr h

theorem huffmanEncode_stays (pf : Platform) (hpf : pf.Valid) (v : Nat) (t : HuffmanTable) : (huffmanEncode pf v t).Stays := by
  unfold huffmanEncode
  with_reducible exact WM.Stays.lift_bind fun _ => writeBits_stays pf hpf _ _

theorem huffmanEncodeValue_stays (pf : Platform) (hpf : pf.Valid) (size symbol v : Nat) (t : HuffmanTable) : (huffmanEncodeValue pf size symbol v t).Stays := by
  unfold huffmanEncodeValue
  with_reducible exact WM.Stays.lift_bind fun _ => WM.Stays.lift_bind fun _ => WM.Stays.lift_bind fun _ => writeBits_stays pf hpf _ _

theorem writeDc_stays (pf : Platform) (hpf : pf.Valid) (v p : Int) (t : HuffmanTable) : (writeDc pf v p t).Stays := by
  unfold writeDc
  with_reducible exact WM.Stays.lift_bind fun _ => WM.Stays.lift_bind fun _ => huffmanEncodeValue_stays pf hpf _ _ _ _

theorem writeZrl_stays (pf : Platform) (hpf : pf.Valid) (t : HuffmanTable) (fuel : Nat) : ∀ z, (writeZrl pf t fuel z).Stays := by
  induction fuel with
  | zero => exact fun z => WM.Stays.lift _
  | succ fuel ih =>
    intro z
    unfold writeZrl
    split
    · with_reducible exact WM.Tri.bind (huffmanEncode_stays pf hpf _ _) fun _ => WM.Stays.lift_bind fun _ => ih _
    · exact WM.Stays.pure _

theorem writeAcLoop_stays (pf : Platform) (hpf : pf.Valid) (t : HuffmanTable) (l : List Int) : ∀ z, (writeAcLoop pf t l z).Stays := by
  induction l with
  | nil => exact fun z => WM.Stays.pure _
  | cons v l ih =>
    intro z
    unfold writeAcLoop
    split
    · with_reducible exact WM.Stays.lift_bind fun _ => ih _
    · with_reducible refine WM.Tri.bind (writeZrl_stays pf hpf _ _ _) fun _ => WM.Stays.lift_bind fun _ => WM.Stays.lift_bind fun _ => ?_
      with_reducible exact WM.Tri.bind (huffmanEncodeValue_stays pf hpf _ _ _ _) fun _ => ih _

theorem writeAcBlock_stays (pf : Platform) (hpf : pf.Valid) (b : List Int) (start stop : Nat) (t : HuffmanTable) : (writeAcBlock pf b start stop t).Stays := by
  unfold writeAcBlock
  with_reducible refine WM.Stays.lift_bind fun _ => WM.Tri.bind (writeAcLoop_stays pf hpf _ _ _) fun _ => ?_
  split
  · exact huffmanEncode_stays pf hpf _ _
  · exact WM.Stays.pure _

theorem writeBlock_stays (pf : Platform) (hpf : pf.Valid) (b : List Int) (p : Int) (t u : HuffmanTable) : (writeBlock pf b p t u).Stays := by
  unfold writeBlock
  with_reducible exact WM.Stays.lift_bind fun _ => WM.Tri.bind (writeDc_stays pf hpf _ _ _) fun _ => writeAcBlock_stays pf hpf _ _ _ _

theorem rstMarker_stays (pf : Platform) (k : Nat) : (writeMarker pf (.rst (k % 8))).Stays := by
  unfold writeMarker
  with_reducible refine WM.Tri.lift_bind (fun _ => InScan.unfinished) fun a ha => ?_
  have hk : k % 8 < 8 := Nat.mod_lt _ (by decide)
  have ha' : a = 0xD0 + k % 8 := by
    change ckU pf 8 (0xD0 + ((k % 8 : Nat) : Int)) = _ at ha
    unfold ckU at ha
    rw [if_pos (by omega)] at ha
    have := Except.ok.inj ha
    omega
  have ht : (u8 a).toNat = 0xD0 + k % 8 := by rw [ha']; exact u8_toNat (by omega)
  refine .writeAll fun acc h => h.stuffed (Or.inr ?_)
  rw [UInt8.le_iff_toNat_le, UInt8.le_iff_toNat_le, ht]
  change 0xD0 ≤ _ ∧ _ ≤ 0xD7
  omega

theorem scanLoop_stays {α σ : Type} (pf : Platform) (hpf : pf.Valid) (interval : Nat) (reset : σ → σ) {body : α → σ → WM σ} (hb : ∀ x s, (body x s).Stays) (items : List α)
    (st : Rst × σ) : (scanLoop pf interval reset body items st).Stays := by
  unfold scanLoop
  refine .forFold fun st x _ => ?_
  with_reducible refine WM.Tri.bind ?_ fun _ => WM.Tri.bind (hb _ _) fun _ => WM.Stays.lift_bind fun _ => WM.Stays.pure _
  unfold restartBefore
  split
  · with_reducible exact WM.Tri.bind (finalize_stays pf hpf) fun _ => WM.Tri.bind (rstMarker_stays pf _) fun _ => WM.Stays.pure _
  · exact WM.Stays.pure _

theorem encodeMcu_stays (pf : Platform) (hpf : pf.Valid) (e : Encoder) (op : Operations) (q : QuantizationTable × QuantizationTable) (rows : Rows) (maxH maxV bufferWidth blockX : Nat)
    (prevDc : List Int) : (encodeMcu pf e op q rows maxH maxV bufferWidth blockX prevDc).Stays := by
  unfold encodeMcu
  refine .forFold fun _ c _ => .forFold fun _ v _ => .forFold fun _ h _ => ?_
  unfold encodeMcuBlock
  with_reducible refine WM.Stays.lift_bind fun _ => WM.Stays.lift_bind fun _ => WM.Stays.lift_bind fun _ => WM.Stays.lift_bind fun _ => WM.Stays.lift_bind fun _ => ?_
  with_reducible refine WM.Stays.lift_bind fun _ => WM.Stays.lift_bind fun _ => WM.Tri.bind (writeBlock_stays pf hpf _ _ _ _) fun _ => ?_
  with_reducible exact WM.Stays.lift_bind fun _ => WM.Stays.lift _

theorem sequentialScan_tri (pf : Platform) (hpf : pf.Valid) (e : Encoder) (blocks : Blocks) (ci : Component × Nat) : WM.Tri Between (sequentialScan pf e blocks ci) fun _ => Between := by
  unfold sequentialScan
  with_reducible refine WM.Tri.bind (writeScanHeader_tri pf (by simp) none) fun _ => .lift_bind (fun _ => InScan.unfinished) fun bs _ => ?_
  with_reducible refine WM.Tri.bind (scanLoop_stays pf hpf _ _ (fun block prevDc => ?_) _ _) fun _ => finalize_between pf hpf
  with_reducible exact WM.Stays.lift_bind fun _ => WM.Stays.lift_bind fun _ => WM.Tri.bind (writeBlock_stays pf hpf _ _ _ _) fun _ => WM.Stays.lift _

theorem dcScan_tri (pf : Platform) (hpf : pf.Valid) (e : Encoder) (blocks : Blocks) (ci : Component × Nat) : WM.Tri Between (dcScan pf e blocks ci) fun _ => Between := by
  unfold dcScan
  with_reducible refine WM.Tri.bind (writeScanHeader_tri pf (by simp) _) fun _ => .lift_bind (fun _ => InScan.unfinished) fun bs _ => ?_
  with_reducible refine WM.Tri.bind (scanLoop_stays pf hpf _ _ (fun block prevDc => ?_) _ _) fun _ => finalize_between pf hpf
  with_reducible exact WM.Stays.lift_bind fun _ => WM.Stays.lift_bind fun _ => WM.Tri.bind (writeDc_stays pf hpf _ _ _) fun _ => WM.Stays.pure _

theorem acScan_tri (pf : Platform) (hpf : pf.Valid) (e : Encoder) (blocks : Blocks) (band : Nat × Nat) (ci : Component × Nat) : WM.Tri Between (acScan pf e blocks band ci) fun _ => Between := by
  unfold acScan
  with_reducible refine WM.Tri.lift_bind (fun _ => Between.unfinished) fun _ _ => ?_
  with_reducible refine WM.Tri.bind (writeScanHeader_tri pf (by simp) _) fun _ => .lift_bind (fun _ => InScan.unfinished) fun bs _ => ?_
  with_reducible refine WM.Tri.bind (scanLoop_stays pf hpf _ _ (fun block _ => ?_) _ _) fun _ => finalize_between pf hpf
  with_reducible exact WM.Stays.lift_bind fun _ => writeAcBlock_stays pf hpf _ _ _ _

end Jpeg
