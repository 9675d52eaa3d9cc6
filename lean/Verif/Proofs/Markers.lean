import Verif.Proofs.Bundle
import Verif.Spec.File
/-! Markers in entropy coded data, application segments of a configuration. -/
namespace Jpeg
open _root_.Spec

theorem scanMarkers_stuff_append (raw rest : Bytes) : Spec.scanMarkers (stuff raw ++ rest) = Spec.scanMarkers rest := by
  induction raw with
  | nil => rfl
  | cons b raw ih =>
    by_cases hb : b = 0xFF
    · subst hb
      have : stuff (0xFF :: raw) ++ rest = 0xFF :: 0 :: (stuff raw ++ rest) := by simp [stuff]
      rw [this, Spec.scanMarkers, if_pos rfl, if_pos rfl, ih]
    · have : stuff (b :: raw) ++ rest = b :: (stuff raw ++ rest) := by simp [stuff, hb]
      rw [this]
      cases h : stuff raw ++ rest with
      | nil => rw [h] at ih; rw [Spec.scanMarkers, if_neg hb, ← ih]; rfl
      | cons c r => rw [h] at ih; rw [Spec.scanMarkers, if_neg hb, ih]

theorem scanMarkers_stuff (raw : Bytes) : Spec.scanMarkers (stuff raw) = some [] := by
  have := scanMarkers_stuff_append raw []
  rw [List.append_nil] at this
  rw [this]; rfl

theorem u8_rst_ne (k : Nat) : u8 (0xD0 + k % 8) ≠ 0 := by
  intro h
  have := congrArg UInt8.toNat h
  rw [u8_toNat (by omega)] at this
  simp at this

theorem intervalsBytes_markers (C : Coder) (gs : List (List DataUnit)) (k : Nat) :
    Spec.scanMarkers (C.intervalsBytes gs k) = some ((List.range (gs.length - 1)).map fun i => u8 (0xD0 + (k + i) % 8)) := by
  induction gs generalizing k with
  | nil => rfl
  | cons g gs ih =>
    cases gs with
    | nil => exact scanMarkers_stuff _
    | cons g' gs =>
      rw [Coder.intervalsBytes, scanMarkers_stuff_append, Coder.rstMarker]
      change Spec.scanMarkers (0xFF :: u8 (0xD0 + k % 8) :: C.intervalsBytes (g' :: gs) (k + 1)) = _
      rw [Spec.scanMarkers, if_pos rfl, if_neg (u8_rst_ne k), ih]
      simp only [List.length_cons, Nat.add_sub_cancel, Option.map_some, List.range_succ_eq_map, List.map_cons, List.map_map, Nat.add_zero]
      congr 2
      refine List.map_congr_left fun i _ => ?_
      simp only [Function.comp]
      congr 3
      omega

theorem groups_length {α : Type} {n : Nat} (hn : 0 < n) (fuel : Nat) (l : List α) (h : l.length < fuel) :
    (groups n fuel l).length - 1 = _root_.Spec.ceilDiv l.length n - 1 ∧ 1 ≤ (groups n fuel l).length := by
  induction fuel generalizing l with
  | zero => omega
  | succ fuel ih =>
    rw [groups]
    split
    · rename_i hl
      simp only [List.length_singleton, _root_.Spec.ceilDiv]
      have : (l.length + n - 1) / n ≤ 1 := Nat.le_of_lt_succ (by rw [Nat.div_lt_iff_lt_mul hn]; omega)
      omega
    · rename_i hl
      have hd : (l.drop n).length = l.length - n := by simp
      obtain ⟨h1, h2⟩ := ih (l.drop n) (by omega)
      simp only [List.length_cons]
      rw [hd] at h1
      simp only [_root_.Spec.ceilDiv] at *
      have e : l.length + n - 1 = (l.length - n + n - 1) + n := by omega
      rw [e, Nat.add_div_right _ hn]
      have : 1 ≤ (l.length - n + n - 1) / n := (Nat.one_le_div_iff hn).mpr (by omega)
      omega

theorem intervals_length {α : Type} (n : Nat) (l : List α) : (intervals n l).length - 1 = Spec.restartCount n l.length := by
  unfold intervals Spec.restartCount
  split
  · rfl
  · exact (groups_length (by omega) _ _ (by omega)).1

theorem scanBytes_markers (C : Coder) (ri : Nat) (mcus : List (List DataUnit)) :
    Spec.scanMarkers (C.scanBytes ri mcus) = some (Spec.restartMarkers (Spec.restartCount ri mcus.length)) := by
  rw [Coder.scanBytes, intervalsBytes_markers, List.length_map, intervals_length]
  simp only [Spec.restartMarkers, Nat.zero_add]
  rfl

theorem markerFree_of_markers (l : List UInt8) : ∀ ms, Spec.scanMarkers l = some ms →
    (∀ m ∈ ms, ∃ k, k < 8 ∧ m = UInt8.ofNat (0xD0 + k)) → Spec.MarkerFree l := by
  induction l using Spec.scanMarkers.induct with
  | case1 => intro ms _ _ i hi; simp at hi
  | case2 => intro ms h; simp [Spec.scanMarkers] at h
  | case3 b hb =>
    intro ms _ _ i hi
    cases i with
    | zero => simp at hi; exact absurd hi hb
    | succ i => simp at hi
  | case4 r ih =>
    intro ms h hm i hi
    rw [Spec.scanMarkers, if_pos rfl, if_pos rfl] at h
    rcases i with _ | _ | i
    · simp
    · simp at hi
    · exact ih ms h hm i hi
  | case5 c r hc ih =>
    intro ms h hm i hi
    rw [Spec.scanMarkers, if_pos rfl, if_neg hc] at h
    cases hr : Spec.scanMarkers r with
    | none => rw [hr] at h; cases h
    | some ms' =>
      rw [hr] at h
      cases h
      obtain ⟨k, hk, rfl⟩ := hm c (by simp)
      rcases i with _ | _ | i
      · exact Or.inr ⟨k, hk, rfl⟩
      · exfalso
        simp only [zero_add, List.getElem?_cons_succ, List.getElem?_cons_zero, Option.some.injEq] at hi
        have := congrArg UInt8.toNat hi
        simp at this
        omega
      · exact ih ms' hr (fun m hm' => hm m (by simp [hm'])) i hi
  | case6 b c r hb ih =>
    intro ms h hm i hi
    rw [Spec.scanMarkers, if_neg hb] at h
    cases i with
    | zero => simp at hi; exact absurd hi hb
    | succ i => exact ih ms h hm i hi

theorem restartMarkers_mem (n : Nat) : ∀ m ∈ Spec.restartMarkers n, ∃ k, k < 8 ∧ m = UInt8.ofNat (0xD0 + k) := by
  intro m hm
  simp only [Spec.restartMarkers, List.mem_map, List.mem_range] at hm
  obtain ⟨i, _, rfl⟩ := hm
  exact ⟨i % 8, by omega, rfl⟩

/-! ### Scans and MCUs -/

theorem layout_length_one (f : Frame) (c : FrameComp) : (layout f [c]).length = f.blocksHigh c * f.blocksWide c := by
  simp [layout, layoutSingle, raster_length]

theorem layout_length_many {f : Frame} {cs : List FrameComp} (h : 1 < cs.length) : (layout f cs).length = f.mcusHigh * f.mcusWide := by
  match cs, h with
  | a :: b :: l, _ => simp [layout, layoutInterleaved, raster_length]

theorem initComponents_ne_nil (sf : SamplingFactor) (ct : JpegColorType) : initComponents sf ct ≠ [] := by cases ct <;> simp [initComponents]

theorem scans_ne_nil (m : Mode) (cs : List Component) (h : cs ≠ []) : m.scans cs ≠ [] := by cases m <;> simp [Mode.scans, h]

theorem mem_scans {m : Mode} {cs : List Component} {sd : ScanDesc} (h : sd ∈ m.scans cs) : (∃ c ∈ cs, sd.cs = [c]) ∨ sd.cs = cs := by
  cases m with
  | interleaved => simp only [Mode.scans, List.mem_singleton] at h; subst h; exact Or.inr rfl
  | sequential =>
    simp only [Mode.scans, List.mem_map] at h
    obtain ⟨c, hc, rfl⟩ := h
    exact Or.inl ⟨c, hc, rfl⟩
  | progressive n =>
    simp only [Mode.scans, List.mem_append, List.mem_map, List.mem_flatMap] at h
    rcases h with ⟨c, hc, rfl⟩ | ⟨b, _, c, hc, rfl⟩
    · exact Or.inl ⟨c, hc, rfl⟩
    · exact Or.inl ⟨c, hc, rfl⟩

theorem mem_scans' {m : Mode} {cs : List Component} (hne : cs ≠ []) {sd : ScanDesc} (h : sd ∈ m.scans cs) :
    (∃ c ∈ cs, sd.cs = [c]) ∨ (1 < cs.length ∧ sd.cs = cs) := by
  rcases mem_scans h with h | h
  · exact Or.inl h
  · match cs, hne with
    | [c], _ => exact Or.inl ⟨c, by simp, h⟩
    | a :: b :: l, _ => exact Or.inr ⟨by simp, h⟩

/-- Only the number of all ones has no zero bit. -/
theorem false_mem_toBits {n v : Nat} (h : v + 1 < 2 ^ n) : false ∈ toBits n v := by
  induction n generalizing v with
  | zero => simp at h
  | succ n ih =>
    have hp := Nat.two_pow_pos n
    rw [Nat.pow_succ] at h
    rw [toBits, List.mem_cons]
    by_cases hv : v < 2 ^ n
    · left
      rw [Nat.div_eq_of_lt hv]
      rfl
    · right
      rw [← toBits_mod n v n (Nat.le_refl _)]
      apply ih
      have : v % 2 ^ n = v - 2 ^ n := by
        rw [Nat.mod_eq_sub_mod (by omega), Nat.mod_eq_of_lt (by omega)]
      omega

theorem ZIGZAG_getD_lt {k : Nat} (hk : k < 64) : ZIGZAG.getD k 0 < 64 := by
  by_cases h0 : k = 0
  · subst h0; decide
  · exact (ZIGZAG_pos k hk (by omega)).2

/-! ### Bands -/

theorem band_next {m s : Nat} (h1 : 1 ≤ m) (h63 : m ≤ 63) (hs : s + 1 < m) : (band m (s + 1)).1 = (band m s).2 := by
  have hp : 1 ≤ 64 / m := (Nat.le_div_iff_mul_le (by omega)).mpr (by omega)
  unfold band
  dsimp only
  rw [if_neg (by omega)]
  have : 64 / m ≤ (s + 1) * (64 / m) := Nat.le_mul_of_pos_left _ (by omega)
  omega

/-- The bands as in the scan headers. -/
theorem bandList_spec {n : Nat} (h2 : 2 ≤ n) (h64 : n ≤ 64) :
    let bands := (bandList n).map fun b => (b.1, b.2 - 1)
    bands.length = n - 1 ∧ bands.head?.map (·.1) = some 1 ∧ bands.getLast?.map (·.2) = some 63 ∧
    bands.IsChain (fun a b => b.1 = a.2 + 1) ∧ (n ≤ 33 → ∀ b ∈ bands, b.1 ≤ b.2) ∧ (34 ≤ n → bands.head? = some (1, 0)) := by
  have hl : (bandList n).length = n - 1 := by simp [bandList]
  have hget : ∀ i (h : i < ((bandList n).map fun b => (b.1, b.2 - 1)).length),
      ((bandList n).map fun b => (b.1, b.2 - 1))[i] = ((band (n - 1) i).1, (band (n - 1) i).2 - 1) := by
    intro i h
    simp [bandList]
  have hl' : ((bandList n).map fun b => (b.1, b.2 - 1)).length = n - 1 := by rw [List.length_map, hl]
  dsimp only
  refine ⟨hl', ?_, ?_, ?_, ?_, ?_⟩
  · rw [List.head?_eq_getElem?, List.getElem?_eq_getElem (by omega), hget]
    simp [band]
  · rw [List.getLast?_eq_getElem?, List.getElem?_eq_getElem (by omega), hget]
    simp [band, hl]
  · rw [List.isChain_iff_getElem]
    intro i hi
    rw [hget, hget]
    have := band_next (m := n - 1) (s := i) (by omega) (by omega) (by omega)
    have h3 := band_ok (m := n - 1) (s := i) (by omega) (by omega) (by omega)
    dsimp only
    omega
  · intro hn b hb
    obtain ⟨i, hi, rfl⟩ := List.mem_iff_getElem.mp hb
    rw [hget]
    have h3 := band_ok (m := n - 1) (s := i) (by omega) (by omega) (by omega)
    have := h3.2.2.2 (by omega)
    dsimp only
    omega
  · intro hn
    rw [List.head?_eq_getElem?, List.getElem?_eq_getElem (by omega), hget]
    have hd : 64 / (n - 1) = 1 := by
      have : 64 / (n - 1) < 2 := by rw [Nat.div_lt_iff_lt_mul (by omega)]; omega
      have : 1 ≤ 64 / (n - 1) := (Nat.le_div_iff_mul_le (by omega)).mpr (by omega)
      omega
    simp only [band, hd]
    rw [if_neg (by omega)]
    rfl

/-! ### The strict and the lenient decoder -/

theorem scanValid_mono {d : Dec} {f : Frame} {s : Scan} (h : scanValid true d f s) : scanValid false d f s ∧ s.ss ≤ s.se := by
  obtain ⟨h1, h2, h3, h4, h5, h6⟩ := h
  by_cases hp : f.progressive = true
  · rw [if_pos hp] at h5
    obtain ⟨h5, h7⟩ := h5
    refine ⟨⟨h1, h2, h3, h4, ?_, h6⟩, ?_⟩
    · rw [if_pos hp]
      refine ⟨?_, h7⟩
      rcases h5 with h5 | ⟨a, b | b, c⟩
      · exact Or.inl h5
      · exact Or.inr ⟨a, Or.inl b, c⟩
      · exact absurd b.1 (by decide)
    · rcases h5 with h5 | ⟨a, b | b, c⟩
      · omega
      · exact b
      · exact absurd b.1 (by decide)
  · rw [if_neg hp] at h5
    refine ⟨⟨h1, h2, h3, h4, ?_, h6⟩, by omega⟩
    rw [if_neg hp]
    exact h5

theorem decodeScan_mono {d : Dec} {payload bytes : Bytes} {r : Dec × Bytes} (h : decodeScan true d payload bytes = some r) :
    decodeScan false d payload bytes = some r ∧ ∃ s, r.1.scans = d.scans ++ [s] ∧ s.scan.ss ≤ s.scan.se := by
  unfold decodeScan at *
  cases hf : d.frame with
  | none => rw [hf] at h; cases h
  | some f =>
    rw [hf] at h
    simp only [Option.bind_eq_bind, Option.bind_some] at *
    cases hs : parseScan f payload with
    | none => rw [hs] at h; cases h
    | some s =>
      rw [hs] at h
      simp only [Option.bind_some] at *
      by_cases hv : scanValid true d f s
      · rw [if_pos hv] at h
        rw [if_pos (scanValid_mono hv).1]
        refine ⟨h, ?_⟩
        cases hi : decodeIntervals ⟨f.progressive, s, d.dc, d.ac⟩ ((intervals d.ri (layout f (scanFrameComps f s))).map List.flatten) 0 d.coefs bytes with
        | none => rw [hi] at h; cases h
        | some x =>
          rw [hi] at h
          simp only [Option.bind_some, Option.some.injEq] at h
          subst h
          exact ⟨_, rfl, (scanValid_mono hv).2⟩
      · rw [if_neg hv] at h; cases h

theorem parseDht_scans (fuel : Nat) (payload : Bytes) (d d' : Dec) (h : parseDht fuel payload d = some d') : d'.scans = d.scans := by
  induction fuel generalizing payload d with
  | zero =>
    cases payload with
    | nil => cases h; rfl
    | cons a l => cases h
  | succ fuel ih =>
    cases payload with
    | nil => cases h; rfl
    | cons a l =>
      simp only [parseDht] at h
      split at h
      · split at h
        · rw [ih _ _ h]
        · rw [ih _ _ h]
      · cases h

theorem applySegment_scans {m : UInt8} {payload : Bytes} {d d' : Dec} (h : applySegment m payload d = some d') : d'.scans = d.scans := by
  unfold applySegment at h
  split at h
  · cases h; rfl
  split at h
  · cases h; rfl
  split at h
  · cases hq : parseDqt payload.length payload d.qts with
    | none => rw [hq] at h; cases h
    | some q => rw [hq] at h; cases h; rfl
  split at h
  · exact parseDht_scans _ _ _ _ h
  split at h
  · split at h
    · cases h; rfl
    · cases h
  split at h
  · split at h
    · cases h
    · cases hq : parseSof (m = 0xC2) payload with
      | none => rw [hq] at h; cases h
      | some q => rw [hq] at h; cases h; rfl
  · cases h

theorem segments_cons (strict : Bool) (fuel : Nat) (d : Dec) (m : UInt8) (rest : Bytes) : segments strict true (fuel + 1) d (0xFF :: m :: rest) =
    if m = 0xD9 then if rest = [] ∧ (true = true → complete d = true) then some d else none
    else
      match rest with
      | l1 :: l0 :: rest =>
        if 256 * l1.toNat + l0.toNat < 2 ∨ rest.length < 256 * l1.toNat + l0.toNat - 2 then none
        else if m = 0xDA then
          (decodeScan strict { d with markers := d.markers ++ [m.toNat] } (rest.take (256 * l1.toNat + l0.toNat - 2))
            (rest.drop (256 * l1.toNat + l0.toNat - 2))).bind fun r => segments strict true fuel r.1 r.2
        else (applySegment m (rest.take (256 * l1.toNat + l0.toNat - 2)) { d with markers := d.markers ++ [m.toNat] }).bind
          fun d => segments strict true fuel d (rest.drop (256 * l1.toNat + l0.toNat - 2))
      | _ => none := rfl

theorem segments_mono (fuel : Nat) (d d' : Dec) (bytes : Bytes) (h : segments true true fuel d bytes = some d') :
    segments false true fuel d bytes = some d' ∧ ∀ s ∈ d'.scans, s ∈ d.scans ∨ s.scan.ss ≤ s.scan.se := by
  induction fuel generalizing d bytes with
  | zero => simp [segments] at h
  | succ fuel ih =>
    rcases bytes with _ | ⟨a, _ | ⟨m, rest⟩⟩
    · simp [segments] at h
    · unfold segments at h; split at h <;> simp_all
    · by_cases ha : a = 0xFF
      · subst ha
        rw [segments_cons] at h ⊢
        by_cases hm : m = 0xD9
        · rw [if_pos hm] at h ⊢
          refine ⟨h, ?_⟩
          split at h
          · cases h; exact fun s hs => Or.inl hs
          · cases h
        · rw [if_neg hm] at h ⊢
          match rest, h with
          | [], h => simp at h
          | [_], h => simp at h
          | l1 :: l0 :: rest, h =>
            dsimp only at h ⊢
            split at h
            · cases h
            · rename_i hlen
              rw [if_neg hlen]
              split at h
              · rename_i hda
                rw [if_pos hda]
                cases hsc : decodeScan true { d with markers := d.markers ++ [m.toNat] } (List.take (256 * l1.toNat + l0.toNat - 2) rest)
                    (List.drop (256 * l1.toNat + l0.toNat - 2) rest) with
                | none => rw [hsc] at h; cases h
                | some r =>
                  rw [hsc] at h
                  obtain ⟨h1, s0, h2, h3⟩ := decodeScan_mono hsc
                  rw [h1]
                  obtain ⟨h4, h5⟩ := ih _ _ h
                  refine ⟨h4, fun s hs => ?_⟩
                  rcases h5 s hs with h6 | h6
                  · rw [h2] at h6
                    rcases List.mem_append.mp h6 with h6 | h6
                    · exact Or.inl h6
                    · rw [List.mem_singleton.mp h6]; exact Or.inr h3
                  · exact Or.inr h6
              · rename_i hda
                rw [if_neg hda]
                cases hsc : applySegment m (List.take (256 * l1.toNat + l0.toNat - 2) rest) { d with markers := d.markers ++ [m.toNat] } with
                | none => rw [hsc] at h; cases h
                | some r =>
                  rw [hsc] at h
                  obtain ⟨h4, h5⟩ := ih _ _ h
                  refine ⟨h4, fun s hs => ?_⟩
                  have := h5 s hs
                  rwa [applySegment_scans hsc] at this
      · unfold segments at h
        split at h
        · rename_i heq
          simp only [List.cons.injEq] at heq
          exact absurd heq.1 ha
        · cases h

/-- The strict decoder accepts less, and never an empty band. -/
theorem decode_mono {bytes : Bytes} {d : Dec} (h : decode true bytes = some d) :
    decode false bytes = some d ∧ ∀ s ∈ d.scans, s.scan.ss ≤ s.scan.se := by
  unfold decode at *
  split at h
  · obtain ⟨h1, h2⟩ := segments_mono _ _ _ _ h
    refine ⟨h1, fun s hs => ?_⟩
    rcases h2 s hs with h3 | h3
    · simp [Dec.init] at h3
    · exact h3
  · cases h

/-- Coefficients after some scans are the intended ones or what was there before. -/
theorem coefsAfter_or {f : Frame} {t : HuffPair × HuffPair} {E : Coefs} (l : List ScanDesc) (m : Coefs) (c y x k : Nat) :
    coefsAfter f t E l m c y x k = E c y x k ∨ coefsAfter f t E l m c y x k = m c y x k := by
  induction l generalizing m with
  | nil => exact Or.inr rfl
  | cons a l ih =>
    unfold coefsAfter
    rw [List.foldl_cons]
    rcases ih ((a.coder t E).merge m ((a.mcus f).flatten.map (a.coder t E).addr)) with h | h
    · exact Or.inl h
    · unfold coefsAfter at h
      by_cases hm : (c, y, x) ∈ (a.mcus f).flatten.map (a.coder t E).addr ∧ a.ss ≤ k ∧ k ≤ a.se
      · left
        rw [h]
        exact if_pos hm
      · right
        rw [h]
        exact if_neg hm

/-! ### Application segments -/

theorem iccSegments_eq (data : Bytes) :
    ((chunks 65519 data).mapIdx fun j c => ((2 : UInt8), Spec.iccSignature ++ u8 (0 + j + 1) :: u8 ((data.length + 65519 - 1) / 65519) :: c)) =
      Spec.iccSegments data := by
  unfold Spec.iccSegments chunks
  refine List.ext_getElem (by simp [_root_.Spec.ceilDiv]) ?_
  intro i h1 h2
  simp [_root_.Spec.ceilDiv, u8, Nat.mul_comm]

theorem applyCall_apps {pf : Platform} {e e' : Encoder} {c : Spec.Call} (h : applyCall pf e c = .ok e') :
    e'.appSegments = e.appSegments ++ c.segments := by
  cases c with
  | addAppSegment nr d =>
    simp only [applyCall] at h
    cases h1 : e.addAppSegment nr d with
    | ok e1 =>
      rw [h1] at h
      cases h
      obtain ⟨h2, rfl⟩ := (C33_add_app_segment_ok e _ nr d).mp h1
      simp only [Spec.Call.segments, if_pos h2]
    | error f =>
      rw [h1] at h
      have hn : ¬ (1 ≤ nr.toNat ∧ nr.toNat ≤ 15 ∧ d.length ≤ 65533) := by
        intro hh
        have := (C33_add_app_segment_ok e _ nr d).mpr ⟨hh, rfl⟩
        rw [h1] at this
        cases this
      simp only [Spec.Call.segments, if_neg hn, List.append_nil]
      cases f <;> cases h
      rfl
  | addIccProfile d =>
    simp only [applyCall] at h
    by_cases hd : d.length ≤ 254 * 65519
    · have key : e.addIccProfile pf d = .ok { e with appSegments := e.appSegments ++ Spec.iccSegments d } := by
        simp only [Encoder.addIccProfile, max_chunk]
        rw [ceilDiv_eq (by omega)]
        simp only [ok_bind]
        rw [if_neg (by omega), ← iccSegments_eq]
        exact iccLoop_ok pf ((d.length + 65519 - 1) / 65519) (chunks 65519 d) 0 e
          (fun c hc => chunks_mem_length _ _ _ hc) (by rw [chunks_length, Nat.zero_add]; omega)
      rw [key] at h
      cases h
      simp only [Spec.Call.segments, if_pos hd]
    · rw [C34_icc_rejected pf e d (by omega)] at h
      cases h
      simp only [Spec.Call.segments, if_neg hd, List.append_nil]
  | setProgressiveScans n =>
    simp only [applyCall, Encoder.setProgressiveScans, assert_decide] at h
    split at h
    · cases h; simp [Spec.Call.segments]
    · cases h
  | _ => cases h; simp [Spec.Call.segments, Encoder.setDensity, Encoder.setSamplingFactor, Encoder.setQuantizationTables, Encoder.setProgressive, Encoder.setRestartInterval, Encoder.setOptimizedHuffmanTables]

theorem Configured.apps {pf : Platform} {q : UInt8} {calls : List Spec.Call} {e : Encoder} (h : Configured pf q calls e) :
    e.appSegments = calls.flatMap Spec.Call.segments := by
  obtain ⟨e0, h0, h1⟩ := h
  have key : ∀ (calls : List Spec.Call) (e0 e : Encoder), forFoldR calls e0 (applyCall pf) = .ok e →
      e.appSegments = e0.appSegments ++ calls.flatMap Spec.Call.segments := by
    intro calls
    induction calls with
    | nil => intro e0 e h; cases h; simp
    | cons c cs ih =>
      intro e0 e h
      simp only [forFoldR] at h
      cases h1 : applyCall pf e0 c with
      | error f => rw [h1] at h; cases h
      | ok e1 =>
        rw [h1] at h
        rw [ih e1 e h, applyCall_apps h1, List.flatMap_cons, List.append_assoc]
  rw [key calls e0 e h1]
  obtain ⟨t0, t1, f0, f1, hn⟩ := encoder_new_ok q
  rw [hn pf] at h0
  cases h0
  rfl

theorem readDensity_payload (d : Density) : Spec.readDensity (jfifPayload d) = some d := by
  have key : ∀ x : UInt16, UInt16.ofNat (256 * (u8 (x.toNat / 256)).toNat + (u8 x.toNat).toNat) = x := by
    intro x
    have := x.toNat_lt
    rw [← UInt16.toNat_inj]
    simp only [u8, UInt8.toNat_ofNat', UInt16.toNat_ofNat']
    omega
  cases d with
  | none => decide
  | inch x y =>
    simp only [jfifPayload, Spec.readDensity]
    rw [key x, key y, if_neg (by rintro ⟨h, _⟩; revert h; decide), if_pos (by decide)]
  | centimeter x y =>
    simp only [jfifPayload, Spec.readDensity]
    rw [key x, key y, if_neg (by rintro ⟨h, _⟩; revert h; decide), if_neg (by decide), if_pos (by decide)]

end Jpeg
