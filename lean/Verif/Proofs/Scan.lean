import Verif.Proofs.Block
/-! Entropy coded segments of a scan: what the encoder writes, and that the T.81 decoder inverts it. -/
namespace Jpeg
open Spec

/-! ### Packing bits into bytes -/

/-- Bits to bytes, the last byte filled with ones. -/
def packBits : Bits → List UInt8
  | b7 :: b6 :: b5 :: b4 :: b3 :: b2 :: b1 :: b0 :: rest => u8 (ofBits [b7, b6, b5, b4, b3, b2, b1, b0]) :: packBits rest
  | [] => []
  | rest => [u8 (ofBits (rest ++ List.replicate (8 - rest.length) true))]

theorem packBits_short {b : Bits} (h : b ≠ []) (h8 : b.length < 8) :
    packBits b = [u8 (ofBits (b ++ List.replicate (8 - b.length) true))] := by
  match b with
  | [] => exact absurd rfl h
  | [_] => rfl
  | [_, _] => rfl
  | [_, _, _] => rfl
  | [_, _, _, _] => rfl
  | [_, _, _, _, _] => rfl
  | [_, _, _, _, _, _] => rfl
  | [_, _, _, _, _, _, _] => rfl
  | _ :: _ :: _ :: _ :: _ :: _ :: _ :: _ :: _ => simp at h8; omega

theorem packBits_byte (x : UInt8) (b : Bits) : packBits (toBits 8 x.toNat ++ b) = x :: packBits b := by
  have h := toBits_ofBits (toBits 8 x.toNat)
  have h2 := ofBits_toBits 8 x.toNat
  have h3 : x.toNat % 2 ^ 8 = x.toNat := Nat.mod_eq_of_lt x.toNat_lt
  have : u8 (ofBits (toBits 8 x.toNat)) = x := by
    rw [h2, h3]; simp [u8]
  have e : packBits (toBits 8 x.toNat ++ b) = u8 (ofBits (toBits 8 x.toNat)) :: packBits b := rfl
  rw [e, this]

theorem packBits_bytes (raw : List UInt8) (b : Bits) : packBits (bytesToBits raw ++ b) = raw ++ packBits b := by
  induction raw with
  | nil => rfl
  | cons x xs ih => rw [bytesToBits_cons, List.append_assoc, packBits_byte, ih]; rfl

/-- The packed bytes contain the bits and fewer than 8 ones. -/
theorem bytesToBits_packBits (b : Bits) :
    ∃ pad, pad < 8 ∧ bytesToBits (packBits b) = b ++ List.replicate pad true := by
  induction hn : b.length using Nat.strong_induction_on generalizing b with
  | _ n ih =>
    by_cases h8 : b.length < 8
    · by_cases h0 : b = []
      · subst h0; exact ⟨0, by omega, rfl⟩
      · refine ⟨8 - b.length, ?_, ?_⟩
        · have := List.length_pos_iff.mpr h0; omega
        · rw [packBits_short h0 h8, bytesToBits_cons]
          have hl : (b ++ List.replicate (8 - b.length) true).length = 8 := by simp; omega
          have h1 := toBits_ofBits (b ++ List.replicate (8 - b.length) true)
          have h2 := ofBits_lt (b ++ List.replicate (8 - b.length) true)
          rw [hl] at h1 h2
          rw [u8_toNat h2, h1]; simp [bytesToBits]
    · obtain ⟨p, q, rfl, hp⟩ : ∃ p q : Bits, b = p ++ q ∧ p.length = 8 :=
        ⟨b.take 8, b.drop 8, by simp, by simp; omega⟩
      have h1 := toBits_ofBits p
      have h2 := ofBits_lt p
      rw [hp] at h1 h2
      have h3 : p = toBits 8 (u8 (ofBits p)).toNat := by rw [u8_toNat h2, h1]
      obtain ⟨pad, hpad, he⟩ := ih q.length (by simp at hn; omega) q rfl
      refine ⟨pad, hpad, ?_⟩
      rw [h3, packBits_byte, bytesToBits_cons, he, List.append_assoc]

/-- `finalize_bit_buffer` writes the packed pending bits. -/
theorem finalize_emits_pack (pf : Platform) (hpf : pf.Valid) (s : BitState) (pend : Bits) (h : BitRel pf s pend) :
    Emits (finalizeBitBuffer pf) s (stuff (packBits pend)) () (BitState.init pf) := by
  obtain ⟨raw, pad, he, hp, hb⟩ := finalize_emits pf hpf s pend h
  suffices hs : packBits pend = raw by rw [hs]; exact he
  -- both are the bytes of `pend` followed by fewer than 8 ones
  obtain ⟨pad', hp', hb'⟩ := bytesToBits_packBits pend
  have hl := congrArg List.length hb
  have hl' := congrArg List.length hb'
  simp only [bytesToBits_length, List.length_append, List.length_replicate] at hl hl'
  have : pad = pad' := by omega
  rw [this, ← hb'] at hb
  have h1 := packBits_bytes raw []
  have h2 := packBits_bytes (packBits pend) []
  rw [List.append_nil] at h1 h2
  rw [hb, h2] at h1
  simpa [packBits] using h1

/-! ### Unstuffing -/

theorem ecs_stuff (raw : List UInt8) (c : UInt8) (hc : c ≠ 0) (rest : List UInt8) :
    ecs (stuff raw ++ 0xFF :: c :: rest) = (raw, 0xFF :: c :: rest) := by
  induction raw with
  | nil => simp [stuff, ecs, hc]
  | cons x xs ih =>
    rw [show x :: xs = [x] ++ xs from rfl, stuff_append, List.append_assoc]
    by_cases hx : x = 0xFF
    · subst hx
      simp only [stuff, List.flatMap_cons, List.flatMap_nil, if_true, List.append_nil, List.cons_append, List.nil_append]
      simp only [ecs, if_true]
      rw [show (List.flatMap (fun b : UInt8 => if b = 255 then [255, 0] else [b]) xs) = stuff xs from rfl, ih]
    · have : stuff [x] = [x] := by simp [stuff, hx]
      rw [this, List.cons_append, List.nil_append]
      generalize hL : stuff xs ++ 0xFF :: c :: rest = L at ih ⊢
      match L with
      | [] => simp at hL
      | a :: L' =>
        simp only [ecs, if_neg hx]
        rw [ih]; rfl

/-! ### Data units -/

/-- What a scan codes: band, tables per scan component, the coefficients. -/
structure Coder where
  ss : Nat
  se : Nat
  comp : Nat → Nat
  dcT : Nat → HuffmanTable
  acT : Nat → HuffmanTable
  E : Coefs

namespace Coder
variable (C : Coder)

def first : Nat := max C.ss 1
def n : Nat := C.se + 1 - C.first

/-- The AC coefficients of a unit that are in the band. -/
def band (u : DataUnit) : List Int := (List.range C.n).map fun i => C.E (C.comp u.1) u.2.1 u.2.2 (C.first + i)

def dc (u : DataUnit) : Int := C.E (C.comp u.1) u.2.1 u.2.2 0

def addr (u : DataUnit) : Nat × Nat × Nat := (C.comp u.1, u.2.1, u.2.2)

/-- The bits of a unit given the DC predictions. -/
def unitBits (u : DataUnit) (p : Nat → Int) : Bits :=
  (if C.ss = 0 then (dcTok (C.dc u - p u.1)).bits (C.dcT u.1) else []) ++ toksBits (C.acT u.1) (acToks (C.band u) 0)

/-- The predictions after a unit. -/
def nextPreds (u : DataUnit) (p : Nat → Int) : Nat → Int := if C.ss = 0 then upd p u.1 (C.dc u) else p

def unitsBits : List DataUnit → (Nat → Int) → Bits
  | [], _ => []
  | u :: us, p => C.unitBits u p ++ unitsBits us (C.nextPreds u p)

def predsAfter : List DataUnit → (Nat → Int) → Nat → Int
  | [], p => p
  | u :: us, p => predsAfter us (C.nextPreds u p)

/-- The unit can be coded with the tables, with magnitudes a decoder accepts. -/
structure UnitOk (u : DataUnit) (p : Nat → Int) : Prop where
  diff : C.ss = 0 → (C.dc u - p u.1).natAbs ≤ 2047
  diffSym : C.ss = 0 → catOf (C.dc u - p u.1) ∈ (C.dcT u.1).values
  dcOk : C.ss = 0 → TableOk (C.dcT u.1)
  bandSyms : HasSyms (C.acT u.1) (acToks (C.band u) 0)
  bandLe : ∀ v ∈ C.band u, v.natAbs ≤ 1023
  acOk : C.n ≠ 0 → TableOk (C.acT u.1)

def UnitsOk : List DataUnit → (Nat → Int) → Prop
  | [], _ => True
  | u :: us, p => C.UnitOk u p ∧ UnitsOk us (C.nextPreds u p)

/-- The unit can be written. Only builds with checks insist on a code for every symbol. -/
structure UnitCan (ck : Bool) (u : DataUnit) (p : Nat → Int) : Prop where
  diff : C.ss = 0 → (C.dc u - p u.1).natAbs ≤ 2047
  diffSym : C.ss = 0 → ck = true → catOf (C.dc u - p u.1) ∈ (C.dcT u.1).values
  dcOk : C.ss = 0 → TableOk (C.dcT u.1)
  bandSyms : ck = true → HasSyms (C.acT u.1) (acToks (C.band u) 0)
  bandLe : ∀ v ∈ C.band u, v.natAbs ≤ 1023
  acOk : C.n ≠ 0 → TableOk (C.acT u.1)

def UnitsCan (ck : Bool) : List DataUnit → (Nat → Int) → Prop
  | [], _ => True
  | u :: us, p => C.UnitCan ck u p ∧ UnitsCan ck us (C.nextPreds u p)

variable {C} in
theorem UnitOk.can {u : DataUnit} {p : Nat → Int} (h : C.UnitOk u p) (ck : Bool) : C.UnitCan ck u p :=
  ⟨h.diff, fun h0 _ => h.diffSym h0, h.dcOk, fun _ => h.bandSyms, h.bandLe, h.acOk⟩

variable {C} in
theorem UnitsOk.can {us : List DataUnit} {p : Nat → Int} (h : C.UnitsOk us p) (ck : Bool) : C.UnitsCan ck us p := by
  induction us generalizing p with
  | nil => trivial
  | cons u us ih => exact ⟨h.1.can ck, ih h.2⟩

theorem unitsCan_append (ck : Bool) (a b : List DataUnit) (p : Nat → Int) :
    C.UnitsCan ck (a ++ b) p ↔ C.UnitsCan ck a p ∧ C.UnitsCan ck b (C.predsAfter a p) := by
  induction a generalizing p with
  | nil => simp [UnitsCan, predsAfter]
  | cons u us ih => simp only [List.cons_append, UnitsCan, predsAfter, ih, and_assoc]

theorem unitsBits_append (a b : List DataUnit) (p : Nat → Int) :
    C.unitsBits (a ++ b) p = C.unitsBits a p ++ C.unitsBits b (C.predsAfter a p) := by
  induction a generalizing p with
  | nil => rfl
  | cons u us ih => simp only [List.cons_append, unitsBits, predsAfter, ih, List.append_assoc]

theorem unitsOk_append (a b : List DataUnit) (p : Nat → Int) :
    C.UnitsOk (a ++ b) p ↔ C.UnitsOk a p ∧ C.UnitsOk b (C.predsAfter a p) := by
  induction a generalizing p with
  | nil => simp [UnitsOk, predsAfter]
  | cons u us ih => simp only [List.cons_append, UnitsOk, predsAfter, ih, and_assoc]

/-- Coefficients of the blocks `A` in the band replaced by `E`. -/
def merge (m : Coefs) (A : List (Nat × Nat × Nat)) : Coefs := fun c y x k =>
  if (c, y, x) ∈ A ∧ C.ss ≤ k ∧ k ≤ C.se then C.E c y x k else m c y x k

theorem merge_append (m : Coefs) (A B : List (Nat × Nat × Nat)) : C.merge (C.merge m A) B = C.merge m (A ++ B) := by
  funext c y x k
  simp only [merge, List.mem_append]
  by_cases h1 : (c, y, x) ∈ A <;> by_cases h2 : (c, y, x) ∈ B <;> by_cases h3 : C.ss ≤ k ∧ k ≤ C.se <;> simp [h1, h2, h3]

theorem merge_nil (m : Coefs) : C.merge m [] = m := by
  funext c y x k; simp [merge]

/-- The decoder's view of the scan agrees with the coder. -/
structure Matches (env : ScanEnv) (nc : Nat) : Prop where
  ss : env.scan.ss = C.ss
  se : env.scan.se = C.se
  se63 : C.se ≤ 63
  band : C.ss ≤ C.se + 1
  comps : ∀ j, j < nc → ∃ sc, env.scan.comps[j]? = some sc ∧ sc.comp = C.comp j ∧
    (C.ss = 0 → env.dc sc.td = some (C.dcT j).spec) ∧ (C.n ≠ 0 → env.ac sc.ta = some (C.acT j).spec)

theorem decodeUnit_ok {env : ScanEnv} {nc : Nat} (hm : C.Matches env nc) (u : DataUnit) (hu : u.1 < nc) (p : Nat → Int)
    (ho : C.UnitOk u p) (rest : Bits) (m : Coefs) :
    decodeUnit env ⟨C.unitBits u p ++ rest, p, 0, m⟩ u = some ⟨rest, C.nextPreds u p, 0, C.merge m [C.addr u]⟩ := by
  obtain ⟨sc, hsc, hcomp, hdc, hac⟩ := hm.comps u.1 hu
  have hlen : (C.band u).length = C.n := by simp [band]
  have hn64 : C.n ≤ 64 := by have := hm.se63; unfold n; omega
  -- the AC part
  have hacpart : ∀ (m0 : Coefs) (p' : Nat → Int),
      (if C.n = 0 then some (⟨toksBits (C.acT u.1) (acToks (C.band u) 0) ++ rest, p', 0, m0⟩ : IntervalState)
        else (env.ac sc.ta).bind fun t =>
          (decodeAc env.progressive t 64 C.n (toksBits (C.acT u.1) (acToks (C.band u) 0) ++ rest)).bind fun y =>
            some ⟨y.2.2, p', y.2.1, store m0 sc.comp u.2.1 u.2.2 C.first y.1⟩) =
      some ⟨rest, p', 0, store m0 (C.comp u.1) u.2.1 u.2.2 C.first (C.band u)⟩ := by
    intro m0 p'
    by_cases h0 : C.n = 0
    · have hb : C.band u = [] := List.eq_nil_of_length_eq_zero (by omega)
      simp only [if_pos h0, hb, acToks, gt_iff_lt, Nat.lt_irrefl, if_false, toksBits_nil, List.nil_append, Option.some.injEq,
        IntervalState.mk.injEq, true_and]
      funext c y x k
      have : ¬ (c = C.comp u.1 ∧ y = u.2.1 ∧ x = u.2.2 ∧ C.first ≤ k ∧ k < C.first + ([] : List Int).length) := by
        simp
      rw [store, if_neg this]
    · rw [if_neg h0, hac h0]
      have := decodeAc_toks (ho.acOk h0) env.progressive (C.band u) 0 64 rest ho.bandLe ho.bandSyms (by omega)
      rw [hlen, Nat.zero_add] at this
      simp only [Option.bind_some, this, List.replicate_zero, List.nil_append, hcomp]
  unfold decodeUnit
  simp only [Option.bind_eq_bind, hsc, Option.bind_some]
  rw [hm.ss, hm.se]
  by_cases hs0 : C.ss = 0
  · simp only [if_pos hs0, hdc hs0, Option.bind_some]
    have e0 : C.unitBits u p ++ rest = (dcTok (C.dc u - p u.1)).bits (C.dcT u.1) ++
        (toksBits (C.acT u.1) (acToks (C.band u) 0) ++ rest) := by
      rw [unitBits, if_pos hs0, List.append_assoc]
    rw [e0, decodeDiff_tok (ho.dcOk hs0) (ho.diff hs0) (ho.diffSym hs0)]
    simp only [Option.bind_some]
    have hv : p u.1 + (C.dc u - p u.1) = C.dc u := by omega
    rw [hv]
    have key := hacpart (store m sc.comp u.2.1 u.2.2 0 [C.dc u]) (upd p u.1 (C.dc u))
    simp only [gt_iff_lt, Nat.lt_irrefl, if_false]
    refine Eq.trans key ?_
    simp only [Option.some.injEq, IntervalState.mk.injEq, true_and]
    refine ⟨by rw [nextPreds, if_pos hs0], ?_⟩
    funext c y x k
    simp only [store, merge, addr, List.mem_singleton, hlen, hcomp, List.length_cons, List.length_nil, Prod.mk.injEq]
    have hf1 : C.first = 1 := by unfold first; omega
    have hn1 : C.n = C.se := by unfold n; omega
    by_cases ha : c = C.comp u.1 ∧ y = u.2.1 ∧ x = u.2.2
    · obtain ⟨rfl, rfl, rfl⟩ := ha
      by_cases hk0 : k = 0
      · subst hk0
        simp [hf1, hs0, dc]
      · by_cases hk : k ≤ C.se
        · have hb : (C.band u).getD (k - C.first) 0 = C.E (C.comp u.1) u.2.1 u.2.2 k := by
            rw [List.getD_eq_getElem?_getD, List.getElem?_eq_getElem (by omega)]
            simp only [band, List.getElem_map, List.getElem_range, Option.getD_some]
            congr 1; omega
          rw [if_pos (by omega), if_pos (by omega), hb]
        · rw [if_neg (by omega), if_neg (by omega), if_neg (by omega)]
    · rw [if_neg (by tauto), if_neg (by tauto), if_neg (by tauto)]
  · simp only [if_neg hs0, Option.bind_some]
    have e0 : C.unitBits u p ++ rest = toksBits (C.acT u.1) (acToks (C.band u) 0) ++ rest := by
      rw [unitBits, if_neg hs0, List.nil_append]
    rw [e0]
    have key := hacpart m p
    simp only [gt_iff_lt, Nat.lt_irrefl, if_false]
    refine Eq.trans key ?_
    simp only [Option.some.injEq, IntervalState.mk.injEq, true_and]
    refine ⟨by rw [nextPreds, if_neg hs0], ?_⟩
    funext c y x k
    have hf1 : C.first = C.ss := by unfold first; omega
    have hn1 : C.n = C.se + 1 - C.ss := by unfold n; omega
    simp only [store, merge, addr, List.mem_singleton, hlen, Prod.mk.injEq]
    have hmb := hm.band
    by_cases ha : c = C.comp u.1 ∧ y = u.2.1 ∧ x = u.2.2
    · obtain ⟨rfl, rfl, rfl⟩ := ha
      by_cases hk : C.ss ≤ k ∧ k ≤ C.se
      · have hb : (C.band u).getD (k - C.first) 0 = C.E (C.comp u.1) u.2.1 u.2.2 k := by
          rw [List.getD_eq_getElem?_getD, List.getElem?_eq_getElem (by omega)]
          simp only [band, List.getElem_map, List.getElem_range, Option.getD_some]
          congr 1; omega
        rw [if_pos (by omega), if_pos (by omega), hb]
      · rw [if_neg (by omega), if_neg (by omega)]
    · rw [if_neg (by tauto), if_neg (by tauto)]

theorem decodeUnits_ok {env : ScanEnv} {nc : Nat} (hm : C.Matches env nc) (us : List DataUnit) (hu : ∀ u ∈ us, u.1 < nc)
    (p : Nat → Int) (ho : C.UnitsOk us p) (rest : Bits) (m : Coefs) :
    decodeUnits env us ⟨C.unitsBits us p ++ rest, p, 0, m⟩ =
      some ⟨rest, C.predsAfter us p, 0, C.merge m (us.map C.addr)⟩ := by
  induction us generalizing p m with
  | nil => simp [decodeUnits, unitsBits, predsAfter, merge_nil]
  | cons u us ih =>
    simp only [decodeUnits, unitsBits, List.append_assoc]
    rw [C.decodeUnit_ok hm u (hu u (by simp)) p ho.1, Option.bind_some,
      ih (fun v hv => hu v (by simp [hv])) _ ho.2, merge_append]
    rfl

theorem decodeInterval_ok {env : ScanEnv} {nc : Nat} (hm : C.Matches env nc) (us : List DataUnit) (hu : ∀ u ∈ us, u.1 < nc)
    (ho : C.UnitsOk us fun _ => 0) (m : Coefs) :
    decodeInterval env us (packBits (C.unitsBits us fun _ => 0)) m = some (C.merge m (us.map C.addr)) := by
  obtain ⟨pad, hp, hb⟩ := bytesToBits_packBits (C.unitsBits us fun _ => 0)
  unfold decodeInterval
  rw [hb, C.decodeUnits_ok hm us hu _ ho]
  simp [hp]

/-! ### Restart intervals -/

def rstMarker (k : Nat) : Bytes := [0xFF, u8 (0xD0 + k % 8)]

/-- The bytes of the restart intervals `gs`, numbered from `k`. -/
def intervalsBytes : List (List DataUnit) → Nat → Bytes
  | [], _ => []
  | [g], _ => stuff (packBits (C.unitsBits g fun _ => 0))
  | g :: g' :: gs, k => stuff (packBits (C.unitsBits g fun _ => 0)) ++ (rstMarker k ++ intervalsBytes (g' :: gs) (k + 1))

theorem decodeIntervals_ok {env : ScanEnv} {nc : Nat} (hm : C.Matches env nc) (gs : List (List DataUnit)) (hne : gs ≠ [])
    (hu : ∀ g ∈ gs, ∀ u ∈ g, u.1 < nc) (ho : ∀ g ∈ gs, C.UnitsOk g fun _ => 0) (k : Nat) (m : Coefs)
    (c : UInt8) (hc : c ≠ 0) (rest : Bytes) :
    decodeIntervals env gs k m (C.intervalsBytes gs k ++ 0xFF :: c :: rest) =
      some (C.merge m (gs.flatten.map C.addr), 0xFF :: c :: rest) := by
  induction gs generalizing k m with
  | nil => exact absurd rfl hne
  | cons g gs ih =>
    cases gs with
    | nil =>
      simp only [intervalsBytes, decodeIntervals]
      rw [ecs_stuff _ c hc, C.decodeInterval_ok hm g (hu g (by simp)) (ho g (by simp))]
      simp
    | cons g' gs =>
      have h8 : (0xD0 + k % 8 : Nat) < 256 := by omega
      have hc' : u8 (0xD0 + k % 8) ≠ 0 := by
        intro h
        have := congrArg UInt8.toNat h
        rw [u8_toNat h8] at this
        simp at this
      have e1 : C.intervalsBytes (g :: g' :: gs) k ++ 0xFF :: c :: rest =
          stuff (packBits (C.unitsBits g fun _ => 0)) ++ 0xFF :: u8 (0xD0 + k % 8) ::
            (C.intervalsBytes (g' :: gs) (k + 1) ++ 0xFF :: c :: rest) := by
        simp only [intervalsBytes, rstMarker, List.append_assoc, List.cons_append, List.nil_append]
      rw [e1, decodeIntervals, ecs_stuff _ _ hc', C.decodeInterval_ok hm g (hu g (by simp)) (ho g (by simp))]
      change (if (u8 (0xD0 + k % 8)).toNat = 0xD0 + k % 8 then decodeIntervals env (g' :: gs) (k + 1)
        (C.merge m (List.map C.addr g)) (C.intervalsBytes (g' :: gs) (k + 1) ++ 0xFF :: c :: rest) else none) = _
      rw [if_pos (u8_toNat h8), ih (by simp) (fun x hx => hu x (by simp [hx])) (fun x hx => ho x (by simp [hx]))]
      rw [merge_append, ← List.map_append]; rfl

end Coder
end Jpeg
