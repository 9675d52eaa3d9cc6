import Verif.Proofs.File
import Verif.Proofs.Quant
import Verif.Model.Encoder
/-! The marker segments the encoder writes, and how the decoder reads them. -/
namespace Jpeg
open Spec

/-! ### What is written -/

theorem Emits.writeU16_bind {β : Type} {n : Nat} {f : Unit → WM β} {s s' : BitState} {o : Bytes} {b : β}
    (h2 : Emits (f ()) s o b s') : Emits (writeU16 n >>= f) s (u8 (n / 256) :: u8 n :: o) b s' :=
  Emits.writeAll_bind (c := [u8 (n / 256), u8 n]) h2

theorem Emits.writeU8_bind {β : Type} {n : Nat} {f : Unit → WM β} {s s' : BitState} {o : Bytes} {b : β}
    (h2 : Emits (f ()) s o b s') : Emits (writeU8 n >>= f) s (u8 n :: o) b s' :=
  Emits.writeAll_bind (c := [u8 n]) h2

theorem Emits.write_bind {β : Type} {c : Bytes} {f : Unit → WM β} {s s' : BitState} {o : Bytes} {b : β}
    (h2 : Emits (f ()) s o b s') : Emits (write c >>= f) s (c ++ o) b s' :=
  Emits.writeAll_bind h2

theorem Emits.marker_bind {β : Type} {pf : Platform} {m : Marker} {v : Nat} {f : Unit → WM β} {s s' : BitState} {o : Bytes} {b : β}
    (h : m.toU8 pf = .ok v) (h2 : Emits (f ()) s o b s') : Emits (writeMarker pf m >>= f) s (0xFF :: u8 v :: o) b s' :=
  (writeMarker_emits h s).bind' h2

theorem Emits.writeU8 (n : Nat) (s : BitState) : Emits (Jpeg.writeU8 n) s [u8 n] () s := Emits.writeAll _ s
theorem Emits.writeU16 (n : Nat) (s : BitState) : Emits (Jpeg.writeU16 n) s [u8 (n / 256), u8 n] () s := Emits.writeAll _ s
theorem Emits.write (c : Bytes) (s : BitState) : Emits (Jpeg.write c) s c () s := Emits.writeAll _ s

theorem appMarker (pf : Platform) {n : Nat} (h : n ≤ 15) : (Marker.app n).toU8 pf = .ok (0xE0 + n) :=
  ckU8_ok (by omega) (by omega)

theorem writeSegment_emits (pf : Platform) {n : Nat} (hn : n ≤ 15) (data : Bytes) (hl : data.length ≤ 65533) (s : BitState) :
    Emits (writeSegment pf (.app n) data) s (seg (u8 (0xE0 + n)) data) () s := by
  unfold writeSegment
  refine Emits.marker_bind (appMarker pf hn) ?_
  refine Emits.lift_bind (a := data.length + 2) ?_ ?_
  · rw [ckU16_ok (by omega) (by omega)]; congr 1; omega
  exact Emits.writeU16_bind (Emits.write data s)

/-- The payload of the JFIF segment (JFIF 1.02). -/
def jfifPayload (d : Density) : Bytes :=
  let (u, x, y) : Nat × Nat × Nat := match d with
    | .none => (0, 1, 1)
    | .inch x y => (1, x.toNat, y.toNat)
    | .centimeter x y => (2, x.toNat, y.toNat)
  [0x4A, 0x46, 0x49, 0x46, 0, 1, 2, u8 u, u8 (x / 256), u8 x, u8 (y / 256), u8 y, 0, 0]

theorem writeHeader_emits (pf : Platform) (d : Density) (s : BitState) :
    Emits (writeHeader pf d) s (seg 0xE0 (jfifPayload d)) () s := by
  unfold writeHeader
  refine Emits.congr (Emits.marker_bind (appMarker pf (Nat.zero_le _)) (Emits.writeU16_bind (Emits.write_bind (Emits.write_bind
    (Emits.bind' (o1 := (jfifPayload d).drop 7 |>.take 5) (a := ()) (s1 := s) ?_ (Emits.write _ s)))))) ?_
  · cases d
    · exact Emits.writeU8_bind (Emits.writeU16_bind (Emits.writeU16 _ s))
    · exact Emits.writeU8_bind (Emits.writeU16_bind (Emits.writeU16 _ s))
    · exact Emits.writeU8_bind (Emits.writeU16_bind (Emits.writeU16 _ s))
  · cases d <;> rfl

/-- The Adobe segment, if any. -/
def adobeSeg : JpegColorType → Bytes
  | .cmyk => seg 0xEE [0x41, 0x64, 0x6F, 0x62, 0x65, 0, 0, 0, 0, 0, 0, 0]
  | .ycck => seg 0xEE [0x41, 0x64, 0x6F, 0x62, 0x65, 0, 0, 0, 0, 0, 0, 2]
  | _ => []

theorem writeAdobe_emits (pf : Platform) (ct : JpegColorType) (s : BitState) : Emits (writeAdobe pf ct) s (adobeSeg ct) () s := by
  cases ct
  · exact Emits.pure _ s
  · exact Emits.pure _ s
  · exact writeSegment_emits pf (by omega) _ (by decide) s
  · exact writeSegment_emits pf (by omega) _ (by decide) s

def appsBytes (l : List (UInt8 × Bytes)) : Bytes := (l.map fun a => seg (u8 (0xE0 + a.1.toNat)) a.2).flatten

theorem writeApps_emits (pf : Platform) (l : List (UInt8 × Bytes)) (h : ∀ a ∈ l, a.1.toNat ≤ 15 ∧ a.2.length ≤ 65533)
    (s : BitState) :
    Emits (WM.forEach l fun s => writeSegment pf (.app s.1.toNat) s.2) s (appsBytes l) () s :=
  Emits.forEach fun a ha => writeSegment_emits pf (h a ha).1 a.2 (h a ha).2 s

/-- DQT payload. -/
def dqtPayload (dest : Nat) (steps : List Nat) : Bytes := u8 dest :: ZIGZAG.map fun z => u8 (steps.getD z 1)

theorem mkQ_get' (s : List Nat) {k : Nat} (hk : k < s.length) : (mkQ s).get k = .ok (s.getD k 1 % 256) := by
  unfold QuantizationTable.get
  rw [idx_ok (by simpa [mkQ] using hk)]
  simp only [mkQ, List.getElem_map, ok_bind, List.getD, List.getElem?_eq_getElem hk, Option.getD_some]
  congr 2
  omega

theorem ZIGZAG_lt : ∀ z ∈ ZIGZAG, z < 64 := by decide

theorem writeQuantizationSegment_emits (pf : Platform) {dest : Nat} (hd : dest < 4) (steps : List Nat) (hl : steps.length = 64)
    (s : BitState) :
    Emits (writeQuantizationSegment pf dest (mkQ steps)) s (seg 0xDB (dqtPayload dest steps)) () s := by
  unfold writeQuantizationSegment
  refine Emits.lift_bind (a := ()) (by simp [hd]) ?_
  refine Emits.congr (Emits.marker_bind (v := 0xDB) rfl (Emits.writeU16_bind (Emits.writeU8_bind
    (Emits.forEach (f := fun z => [u8 (steps.getD z 1)]) ?_)))) ?_
  · intro z hz
    have hz64 := ZIGZAG_lt z hz
    refine Emits.lift_bind (mkQ_get' steps (by omega)) ?_
    refine (Emits.writeU8 _ s).congr ?_
    rw [u8_mod]
  · rw [show (ZIGZAG.map fun z => [u8 (steps.getD z 1)]).flatten = ZIGZAG.map fun z => u8 (steps.getD z 1) by
      generalize ZIGZAG = l
      induction l with
      | nil => rfl
      | cons a l ih => rw [List.map_cons, List.flatten_cons, ih]; rfl]
    rfl

def dhtPayload (cls dest : Nat) (t : HuffmanTable) : Bytes := u8 (16 * cls + dest) :: (t.length.map u8 ++ t.values.map u8)

theorem writeHuffmanSegment_emits (pf : Platform) (cls : CodingClass) {dest : Nat} (hd : dest < 4) {t : HuffmanTable}
    (h16 : t.length.length = 16) (hv : t.values.length ≤ 256) (s : BitState) :
    Emits (writeHuffmanSegment pf cls dest t) s (seg 0xC4 (dhtPayload cls.toNat dest t)) () s := by
  unfold writeHuffmanSegment
  refine Emits.lift_bind (a := ()) (by simp [hd]) ?_
  have hlen : (dhtPayload cls.toNat dest t).length + 2 = 19 + t.values.length := by
    simp [dhtPayload, h16]; omega
  refine Emits.congr (Emits.marker_bind (o := u8 ((19 + t.values.length) / 256) :: u8 (19 + t.values.length) :: dhtPayload cls.toNat dest t) (v := 0xC4) rfl ?_) ?_
  · refine Emits.lift_bind (a := 19 + t.values.length) ?_ ?_
    · rw [ckU16_ok (by omega) (by omega)]; congr 1; omega
    · refine Emits.writeU16_bind ?_
      have e : cls.toNat * 16 % 256 ||| dest = 16 * cls.toNat + dest := by
        cases cls
        · simp [CodingClass.toNat]
        · show 16 ||| dest = 16 + dest
          exact (Nat.two_pow_add_eq_or_of_lt (i := 4) (a := 1) (by omega)).symm
      rw [e]
      exact Emits.writeU8_bind (Emits.write_bind (Emits.write _ s))
  · unfold seg
    rw [hlen]
    rfl

theorem writeDri_emits (pf : Platform) (n : Nat) (s : BitState) :
    Emits (writeDri pf n) s (seg 0xDD [u8 (n / 256), u8 n]) () s := by
  unfold writeDri
  exact Emits.marker_bind (v := 0xDD) rfl (Emits.writeU16_bind (Emits.writeU16 n s))

def frameCompBytes (c : Component) : Bytes :=
  [u8 c.id, u8 (16 * c.horizontalSamplingFactor + c.verticalSamplingFactor), u8 c.quantizationTable]

def sofPayload (width height : UInt16) (cs : List Component) : Bytes :=
  [8, u8 (height.toNat / 256), u8 height.toNat, u8 (width.toNat / 256), u8 width.toNat, u8 cs.length] ++
    (cs.map frameCompBytes).flatten

theorem flatten_const_length {α β : Type} (l : List α) (f : α → List β) (n : Nat) (h : ∀ x, (f x).length = n) :
    (l.map f).flatten.length = n * l.length := by
  induction l with
  | nil => rfl
  | cons a l ih => simp only [List.map_cons, List.flatten_cons, List.length_append, ih, h, List.length_cons]; ring

theorem writeFrameHeader_emits (pf : Platform) (w h : UInt16) (cs : List Component) (hn : cs.length ≤ 4)
    (hc : ∀ c ∈ cs, c.horizontalSamplingFactor ≤ 4 ∧ c.verticalSamplingFactor ≤ 4) (prog : Bool) (s : BitState) :
    Emits (writeFrameHeader pf w h cs prog) s (seg (if prog then 0xC2 else 0xC0) (sofPayload w h cs)) () s := by
  unfold writeFrameHeader
  have hlen : (sofPayload w h cs).length + 2 = 8 + 3 * cs.length := by
    rw [sofPayload, List.length_append, flatten_const_length _ _ 3 (fun _ => rfl)]
    simp; omega
  have hmk : Marker.toU8 pf (if prog then .sofProgressive else .sofBaseline) = .ok (if prog then 0xC2 else 0xC0) := by
    cases prog <;> rfl
  refine Emits.congr (Emits.marker_bind (o := u8 ((8 + 3 * cs.length) / 256) :: u8 (8 + 3 * cs.length) :: sofPayload w h cs) hmk ?_) ?_
  · refine Emits.lift_bind (a := 3 * cs.length) ?_ ?_
    · rw [ckU16_ok (by omega) (by omega)]; congr 1; omega
    refine Emits.lift_bind (a := 8 + 3 * cs.length) ?_ ?_
    · rw [ckU16_ok (by omega) (by omega)]; congr 1
    refine Emits.writeU16_bind (Emits.writeU8_bind (Emits.writeU16_bind (Emits.writeU16_bind (Emits.writeU8_bind
      (Emits.forEach (f := frameCompBytes) ?_)))))
    intro c hcm
    obtain ⟨h1, h2⟩ := hc c hcm
    refine Emits.writeU8_bind (Emits.lift_bind (a := 16 * c.horizontalSamplingFactor) ?_ (Emits.congr
      (Emits.writeU8_bind (Emits.writeU8 _ s)) ?_))
    · unfold shlU ckShift
      rw [if_pos (by omega), ok_bind, show (Int.toNat 4) = 4 from rfl, Nat.mod_eq_of_lt (by omega), Nat.mul_comm]
    · rw [show 16 * c.horizontalSamplingFactor ||| c.verticalSamplingFactor =
        16 * c.horizontalSamplingFactor + c.verticalSamplingFactor from
          (Nat.two_pow_add_eq_or_of_lt (i := 4) (by omega) _).symm]
  · unfold seg
    rw [hlen]
    cases prog <;> rfl

def scanCompBytes (c : Component) : Bytes := [u8 c.id, u8 (16 * c.dcHuffmanTable + c.acHuffmanTable)]

def sosPayload (cs : List Component) (ss se : Nat) : Bytes :=
  u8 cs.length :: ((cs.map scanCompBytes).flatten ++ [u8 ss, u8 se, 0])

theorem writeScanHeader_emits (pf : Platform) (cs : List Component) (hn : cs.length ≤ 4)
    (hc : ∀ c ∈ cs, c.dcHuffmanTable ≤ 3 ∧ c.acHuffmanTable ≤ 3) (sp : Option (Nat × Nat)) (s : BitState) :
    Emits (writeScanHeader pf cs sp) s (seg 0xDA (sosPayload cs (sp.getD (0, 63)).1 (sp.getD (0, 63)).2)) () s := by
  unfold writeScanHeader
  generalize sp.getD (0, 63) = b
  have hlen : (sosPayload cs b.1 b.2).length + 2 = 6 + 2 * cs.length := by
    rw [sosPayload, List.length_cons, List.length_append, flatten_const_length _ _ 2 (fun _ => rfl)]
    simp; omega
  refine Emits.congr (Emits.marker_bind (o := u8 ((6 + 2 * cs.length) / 256) :: u8 (6 + 2 * cs.length) :: sosPayload cs b.1 b.2) (v := 0xDA) rfl ?_) ?_
  · refine Emits.lift_bind (a := 2 * cs.length) ?_ ?_
    · rw [ckU16_ok (by omega) (by omega)]; congr 1; omega
    refine Emits.lift_bind (a := 6 + 2 * cs.length) ?_ ?_
    · rw [ckU16_ok (by omega) (by omega)]; congr 1; omega
    refine Emits.writeU16_bind (Emits.writeU8_bind (Emits.bind' (a := ()) (s1 := s)
      (Emits.forEach (f := scanCompBytes) ?_) (Emits.writeU8_bind (Emits.writeU8_bind (Emits.writeU8 _ s)))))
    intro c hcm
    obtain ⟨h1, h2⟩ := hc c hcm
    refine Emits.writeU8_bind (Emits.lift_bind (a := 16 * c.dcHuffmanTable) ?_ (Emits.congr (Emits.writeU8 _ s) ?_))
    · unfold shlU ckShift
      rw [if_pos (by omega), ok_bind, show (Int.toNat 4) = 4 from rfl, Nat.mod_eq_of_lt (by omega), Nat.mul_comm]
    · rw [show 16 * c.dcHuffmanTable ||| c.acHuffmanTable = 16 * c.dcHuffmanTable + c.acHuffmanTable from
          (Nat.two_pow_add_eq_or_of_lt (i := 4) (by omega) _).symm]
  · unfold seg
    rw [hlen]
    rfl

end Jpeg
