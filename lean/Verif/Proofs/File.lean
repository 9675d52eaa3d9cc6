import Verif.Proofs.ScanLoop
/-! The T.81 decoder on a file made of marker segments and scans. -/
namespace Jpeg
open Spec

/-- A marker segment. -/
def seg (m : UInt8) (payload : Bytes) : Bytes :=
  0xFF :: m :: u8 ((payload.length + 2) / 256) :: u8 (payload.length + 2) :: payload

theorem seg_len {n : Nat} (h : n < 65536) : 256 * (u8 (n / 256)).toNat + (u8 n).toNat = n := by
  rw [u8_toNat (by omega)]
  simp only [u8, UInt8.toNat_ofNat']
  omega

/-- The decoder accepts `bytes` in state `d` and ends in state `d'`. -/
def Parses (strict : Bool) (d : Dec) (bytes : Bytes) (d' : Dec) : Prop :=
  ∀ fuel, bytes.length ≤ fuel → segments strict true fuel d bytes = some d'

/-- `d` with one more marker recorded. -/
def _root_.Spec.Dec.mark (d : Dec) (m : UInt8) : Dec := { d with markers := d.markers ++ [m.toNat] }

theorem parses_eoi {strict : Bool} {d : Dec} (h : complete d = true) : Parses strict d [0xFF, 0xD9] d := by
  intro fuel hf
  obtain ⟨f, rfl⟩ : ∃ f, fuel = f + 1 := ⟨fuel - 1, by simp at hf; omega⟩
  change (if (0xD9 : UInt8) = 0xD9 then if ([] : Bytes) = [] ∧ (true = true → complete d = true) then some d else none else _) = _
  rw [if_pos rfl, if_pos ⟨rfl, fun _ => h⟩]

theorem segments_seg (strict whole : Bool) (f : Nat) (d : Dec) (m : UInt8) (hm : m ≠ 0xD9) (payload rest : Bytes)
    (hl : payload.length + 2 < 65536) :
    segments strict whole (f + 1) d (seg m payload ++ rest) =
      if m = 0xDA then (decodeScan strict (d.mark m) payload rest).bind fun r => segments strict whole f r.1 r.2
      else (applySegment m payload (d.mark m)).bind fun d => segments strict whole f d rest := by
  have e := seg_len hl
  have e2 : payload.length + 2 - 2 = payload.length := by omega
  change (if m = 0xD9 then _ else
    if 256 * (u8 ((payload.length + 2) / 256)).toNat + (u8 (payload.length + 2)).toNat < 2 ∨
      (payload ++ rest).length < 256 * (u8 ((payload.length + 2) / 256)).toNat + (u8 (payload.length + 2)).toNat - 2 then none
    else if m = 0xDA then
      (decodeScan strict (d.mark m)
        ((payload ++ rest).take (256 * (u8 ((payload.length + 2) / 256)).toNat + (u8 (payload.length + 2)).toNat - 2))
        ((payload ++ rest).drop (256 * (u8 ((payload.length + 2) / 256)).toNat + (u8 (payload.length + 2)).toNat - 2))).bind
          fun r => segments strict whole f r.1 r.2
    else (applySegment m ((payload ++ rest).take (256 * (u8 ((payload.length + 2) / 256)).toNat + (u8 (payload.length + 2)).toNat - 2))
      (d.mark m)).bind fun d => segments strict whole f d
        ((payload ++ rest).drop (256 * (u8 ((payload.length + 2) / 256)).toNat + (u8 (payload.length + 2)).toNat - 2))) = _
  rw [if_neg hm, e, e2, if_neg (by simp), List.take_left, List.drop_left]

/-- The bytes start with a marker. -/
def MarkerStart (bytes : Bytes) : Prop := ∃ c r, bytes = 0xFF :: c :: r ∧ c ≠ 0

theorem MarkerStart.append {a b : Bytes} (h : MarkerStart a) : MarkerStart (a ++ b) := by
  obtain ⟨c, r, rfl, hc⟩ := h
  exact ⟨c, r ++ b, rfl, hc⟩

theorem seg_markerStart (m : UInt8) (hm : m ≠ 0) (p : Bytes) : MarkerStart (seg m p) := ⟨m, _, rfl, hm⟩

/-- The decoder, in state `d`, consumes `bytes` and is in state `d'`. -/
structure Steps (strict : Bool) (d : Dec) (bytes : Bytes) (d' : Dec) : Prop where
  start : (bytes = [] ∧ d = d') ∨ MarkerStart bytes
  run : ∀ whole rest, MarkerStart rest → ∀ fuel, (bytes ++ rest).length ≤ fuel →
    ∃ fuel', rest.length ≤ fuel' ∧ segments strict whole fuel d (bytes ++ rest) = segments strict whole fuel' d' rest

theorem Steps.nil (strict : Bool) (d : Dec) : Steps strict d [] d := ⟨Or.inl ⟨rfl, rfl⟩, fun _ _ _ fuel h => ⟨fuel, h, rfl⟩⟩

theorem Steps.trans {strict : Bool} {d1 d2 d3 : Dec} {a b : Bytes} (h1 : Steps strict d1 a d2) (h2 : Steps strict d2 b d3) :
    Steps strict d1 (a ++ b) d3 := by
  rcases h1.start with ⟨rfl, rfl⟩ | hs
  · simpa using h2
  · refine ⟨Or.inr hs.append, ?_⟩
    intro whole rest hr fuel hf
    rw [List.append_assoc] at hf ⊢
    have hbr : MarkerStart (b ++ rest) := by
      rcases h2.start with ⟨rfl, rfl⟩ | hs2
      · exact hr
      · exact hs2.append
    obtain ⟨f1, hf1, e1⟩ := h1.run whole _ hbr fuel hf
    obtain ⟨f2, hf2, e2⟩ := h2.run whole _ hr f1 hf1
    exact ⟨f2, hf2, e1.trans e2⟩

theorem Steps.congr {strict : Bool} {d1 d2 : Dec} {a b : Bytes} (h1 : Steps strict d1 a d2) (e : a = b) :
    Steps strict d1 b d2 := e ▸ h1

/-- A list of steps. -/
theorem Steps.foldl {strict : Bool} {α : Type} (l : List α) (d : Dec) (bytes : α → Bytes) (next : Dec → α → Dec) (P : Dec → List α → Prop)
    (hP : ∀ d x xs, P d (x :: xs) → Steps strict d (bytes x) (next d x) ∧ P (next d x) xs) (h0 : P d l) :
    Steps strict d (l.map bytes).flatten (l.foldl next d) ∧ P (l.foldl next d) [] := by
  induction l generalizing d with
  | nil => exact ⟨Steps.nil strict d, h0⟩
  | cons x xs ih =>
    obtain ⟨h1, h2⟩ := hP d x xs h0
    obtain ⟨h3, h4⟩ := ih _ h2
    exact ⟨h1.trans h3, h4⟩

theorem Steps.seg {strict : Bool} {d d' : Dec} {m : UInt8} {payload : Bytes} (h0 : m ≠ 0) (hm : m ≠ 0xD9) (ha : m ≠ 0xDA)
    (hl : payload.length + 2 < 65536) (h : applySegment m payload (d.mark m) = some d') :
    Steps strict d (seg m payload) d' := by
  refine ⟨Or.inr (seg_markerStart m h0 payload), ?_⟩
  intro whole rest _ fuel hf
  have hlen : (Jpeg.seg m payload ++ rest).length = payload.length + 4 + rest.length := by
    simp [Jpeg.seg]; omega
  obtain ⟨f, rfl⟩ : ∃ f, fuel = f + 1 := ⟨fuel - 1, by omega⟩
  rw [segments_seg strict whole f d m hm payload rest hl, if_neg ha, h]
  exact ⟨f, by omega, rfl⟩

theorem intervals_flatten {α : Type} (n : Nat) (l : List α) : (intervals n l).flatten = l := by
  unfold intervals
  split
  · simp
  · exact grp_flatten (by omega) l

theorem intervals_ne_nil {α : Type} (n : Nat) (l : List α) : intervals n l ≠ [] := by
  unfold intervals
  split
  · simp
  · exact grp_ne_nil n l

/-- The state after a scan. -/
def _root_.Spec.Dec.afterScan (d : Dec) (C : Coder) (s : Scan) (mcus : List (List DataUnit)) (data : Bytes) : Dec :=
  { d.mark 0xDA with
    coefs := C.merge d.coefs (mcus.flatten.map C.addr)
    coded := fun c k => d.coded c k || (s.comps.any (·.comp == c) && decide (s.ss ≤ k ∧ k ≤ s.se))
    scans := d.scans ++ [⟨s, mcus.length, data⟩] }

/-- The entropy coded bytes of a scan. -/
def Coder.scanBytes (C : Coder) (ri : Nat) (mcus : List (List DataUnit)) : Bytes :=
  C.intervalsBytes ((intervals ri mcus).map List.flatten) 0

theorem scanValid_mark {strict : Bool} {d : Dec} {f : Frame} {s : Scan} {m : UInt8} (h : scanValid strict d f s) :
    scanValid strict (d.mark m) f s := h

theorem Steps.scan {strict : Bool} {d : Dec} {f : Frame} {s : Scan} {payload : Bytes} (C : Coder)
    (hl : payload.length + 2 < 65536) (hf : d.frame = some f) (hp : parseScan f payload = some s)
    (hv : scanValid strict d f s) (hm : C.Matches ⟨f.progressive, s, d.dc, d.ac⟩ s.comps.length)
    (hu : ∀ mcu ∈ layout f (scanFrameComps f s), ∀ u ∈ mcu, u.1 < s.comps.length)
    (ho : ∀ g ∈ intervals d.ri (layout f (scanFrameComps f s)), C.UnitsOk g.flatten fun _ => 0) :
    Steps strict d (Jpeg.seg 0xDA payload ++ C.scanBytes d.ri (layout f (scanFrameComps f s)))
      (d.afterScan C s (layout f (scanFrameComps f s)) (C.scanBytes d.ri (layout f (scanFrameComps f s)))) := by
  refine ⟨Or.inr (MarkerStart.append (seg_markerStart _ (by decide) payload)), ?_⟩
  rintro whole _ ⟨c, r, rfl, hc⟩ fuel hfuel
  generalize hmc : layout f (scanFrameComps f s) = mcus at *
  have hlen : (Jpeg.seg 0xDA payload ++ C.scanBytes d.ri mcus ++ 0xFF :: c :: r).length =
      payload.length + 4 + (C.scanBytes d.ri mcus).length + (r.length + 2) := by
    simp [Jpeg.seg]; omega
  obtain ⟨f', rfl⟩ : ∃ f', fuel = f' + 1 := ⟨fuel - 1, by omega⟩
  rw [List.append_assoc, segments_seg strict whole f' d 0xDA (by decide) payload _ hl, if_pos rfl]
  have hdec : decodeIntervals ⟨f.progressive, s, d.dc, d.ac⟩ ((intervals d.ri mcus).map List.flatten) 0 d.coefs
      (C.scanBytes d.ri mcus ++ 0xFF :: c :: r) = some (C.merge d.coefs (mcus.flatten.map C.addr), 0xFF :: c :: r) := by
    have h := C.decodeIntervals_ok hm ((intervals d.ri mcus).map List.flatten) (by
        simp [intervals_ne_nil]) (by
        intro g hg u hgu
        simp only [List.mem_map] at hg
        obtain ⟨g', hg', rfl⟩ := hg
        obtain ⟨mcu, hmcu, hum⟩ := List.mem_flatten.mp hgu
        refine hu mcu ?_ u hum
        rw [← intervals_flatten d.ri mcus]
        exact List.mem_flatten.mpr ⟨g', hg', hmcu⟩) (by
        intro g hg
        simp only [List.mem_map] at hg
        obtain ⟨g', hg', rfl⟩ := hg
        exact ho g' hg') 0 d.coefs c hc r
    have e : ((intervals d.ri mcus).map List.flatten).flatten = mcus.flatten := by
      rw [← List.flatten_flatten, intervals_flatten]
    rw [e] at h
    exact h
  have : decodeScan strict (d.mark 0xDA) payload (C.scanBytes d.ri mcus ++ 0xFF :: c :: r) =
      some (d.afterScan C s mcus (C.scanBytes d.ri mcus), 0xFF :: c :: r) := by
    unfold decodeScan
    have hf' : (d.mark 0xDA).frame = some f := hf
    rw [hf']
    simp only [Option.bind_eq_bind, Option.bind_some, hp]
    rw [if_pos (scanValid_mark hv)]
    have hdec' : decodeIntervals ⟨f.progressive, s, (d.mark 0xDA).dc, (d.mark 0xDA).ac⟩
        ((intervals (d.mark 0xDA).ri (layout f (scanFrameComps f s))).map List.flatten) 0 (d.mark 0xDA).coefs
        (C.scanBytes d.ri mcus ++ 0xFF :: c :: r) = some (C.merge d.coefs (mcus.flatten.map C.addr), 0xFF :: c :: r) := by
      rw [hmc]; exact hdec
    rw [hdec']
    simp only [Option.bind_some, hmc]
    rw [show (C.scanBytes d.ri mcus ++ 255 :: c :: r).take ((C.scanBytes d.ri mcus ++ 255 :: c :: r).length -
      (255 :: c :: r).length) = C.scanBytes d.ri mcus by simp]
    rw [← hf]
    rfl
  rw [this]
  exact ⟨f', by simp only [List.length_cons]; omega, rfl⟩

theorem decode_of_steps {strict : Bool} {bytes : Bytes} {d : Dec} (h : Steps strict Dec.init bytes d) (hc : complete d = true) :
    decode strict ([0xFF, 0xD8] ++ (bytes ++ [0xFF, 0xD9])) = some d := by
  obtain ⟨f, hf, he⟩ := h.run true _ ⟨0xD9, [], rfl, by decide⟩ _ (Nat.le_refl _)
  exact he.trans (parses_eoi hc f hf)

theorem preview_of_steps {strict : Bool} {bytes : Bytes} {d : Dec} (h : Steps strict Dec.init bytes d) :
    preview strict ([0xFF, 0xD8] ++ (bytes ++ [0xFF, 0xD9])) = some d := by
  obtain ⟨f, hf, he⟩ := h.run false _ ⟨0xD9, [], rfl, by decide⟩ _ (Nat.le_refl _)
  refine he.trans ?_
  obtain ⟨f, rfl⟩ : ∃ g, f = g + 1 := ⟨f - 1, by simp at hf; omega⟩
  change (if (0xD9 : UInt8) = 0xD9 then if ([] : Bytes) = [] ∧ (false = true → complete d = true) then some d else none else _) = _
  rw [if_pos rfl, if_pos ⟨rfl, fun h => by cases h⟩]

end Jpeg
