import Verif.Spec.Huffman
import Verif.Spec.Quant
/-! A decoder for the entropy coded part and the syntax of JPEG files, written from ITU-T T.81 (baseline
sequential and progressive with spectral selection only, Huffman coding, 8 bit samples). It stops at the
quantised coefficients. It is strict: whatever T.81 forbids is rejected. It uses no definition of the model. -/
namespace Spec

/-- Component parameters of a frame header (B.2.2). -/
structure FrameComp where
  id : Nat
  h : Nat
  v : Nat
  tq : Nat
deriving DecidableEq, Repr

/-- Frame header (B.2.2), for SOF0 (baseline) and SOF2 (progressive). -/
structure Frame where
  progressive : Bool
  height : Nat
  width : Nat
  comps : List FrameComp
deriving DecidableEq, Repr

/-- Component parameters of a scan header (B.2.3); `comp` is the position of the component in the frame header. -/
structure ScanComp where
  comp : Nat
  td : Nat
  ta : Nat
deriving DecidableEq, Repr

/-- Scan header (B.2.3) with `Ah = Al = 0`. -/
structure Scan where
  comps : List ScanComp
  ss : Nat
  se : Nat
deriving DecidableEq, Repr

/-- Quantised coefficients: component, block row, block column, zig-zag index. -/
abbrev Coefs := Nat → Nat → Nat → Nat → Int

/-- What is recorded about a scan: header, number of MCUs, the bytes between the header and the next marker segment. -/
structure ScanLog where
  scan : Scan
  mcus : Nat
  data : List UInt8
deriving DecidableEq, Repr

/-- Everything the decoder knows. -/
structure Dec where
  qts : Nat → Option (List Nat)
  dc : Nat → Option HuffTable
  ac : Nat → Option HuffTable
  ri : Nat
  frame : Option Frame
  coefs : Coefs
  /-- which coefficients (component, zig-zag index) have been coded by a scan -/
  coded : Nat → Nat → Bool
  /-- the scans in order -/
  scans : List ScanLog
  /-- application segments in order: number and payload -/
  apps : List (Nat × List UInt8)
  /-- the second bytes of the marker segments in order -/
  markers : List Nat

def Dec.init : Dec :=
  ⟨fun _ => none, fun _ => none, fun _ => none, 0, none, fun _ _ _ _ => 0, fun _ _ => false, [], [], []⟩

/-- Function update. -/
def upd {α : Type} (f : Nat → α) (i : Nat) (a : α) : Nat → α := fun j => if j = i then a else f j

/-! ### Entropy coded segments -/

/-- F.1.2.3, B.1.1.5: the data bytes up to the next marker, stuffed zero bytes removed; and what follows. -/
def ecs : List UInt8 → List UInt8 × List UInt8
  | [] => ([], [])
  | [b] => if b = 0xFF then ([], [b]) else ([b], [])
  | b :: c :: r =>
    if b = 0xFF then
      if c = 0x00 then (0xFF :: (ecs r).1, (ecs r).2) else ([], b :: c :: r)
    else (b :: (ecs (c :: r)).1, (ecs (c :: r)).2)

/-- RECEIVE (F.2.2.4): the next `n` bits as a number. -/
def receive (n : Nat) (bits : Bits) : Option (Nat × Bits) :=
  if n ≤ bits.length then some (ofBits (bits.take n), bits.drop n) else none

/-- F.2.2.1: the DC difference. For 8 bit samples there are the categories 0..11 (Table F.1). -/
def decodeDiff (t : HuffTable) (bits : Bits) : Option (Int × Bits) := do
  let (s, bits) ← t.decode bits
  if s ≤ 11 then do
    let (v, bits) ← receive s bits
    some (extend v s, bits)
  else none

/-- F.2.2.2 and G.2.2: the next `n` AC coefficients in zig-zag order, the remaining end-of-band run, and the
remaining bits. For 8 bit samples there are the categories 1..10 (Table F.2). A run may not leave the band.
End-of-band runs longer than one block exist only in progressive mode. -/
def decodeAc (progressive : Bool) (t : HuffTable) : (fuel n : Nat) → Bits → Option (List Int × Nat × Bits)
  | _, 0, bits => some ([], 0, bits)
  | 0, _, _ => none
  | fuel + 1, n, bits => do
    let (rs, bits) ← t.decode bits
    let r := rs / 16
    let s := rs % 16
    if s = 0 then
      if r = 15 then
        if n > 16 then do
          let (l, e, bits) ← decodeAc progressive t fuel (n - 16) bits
          some (List.replicate 16 0 ++ l, e, bits)
        else none
      else if r = 0 then some (List.replicate n 0, 0, bits)
      else if progressive then do
        let (v, bits) ← receive r bits
        some (List.replicate n 0, 2 ^ r + v - 1, bits)
      else none
    else if s ≤ 10 ∧ r < n then do
      let (v, bits) ← receive s bits
      let (l, e, bits) ← decodeAc progressive t fuel (n - r - 1) bits
      some (List.replicate r 0 ++ extend v s :: l, e, bits)
    else none

/-- A data unit: position of the component in the scan, block row, block column. -/
abbrev DataUnit := Nat × Nat × Nat

/-- State within a restart interval: bits, DC predictions per scan component, end-of-band run, coefficients. -/
structure IntervalState where
  bits : Bits
  preds : Nat → Int
  eobrun : Nat
  coefs : Coefs

/-- Store coefficients `vals` from zig-zag index `start` of block `(y, x)` of component `c`. -/
def store (m : Coefs) (c y x start : Nat) (vals : List Int) : Coefs := fun c' y' x' k =>
  if c' = c ∧ y' = y ∧ x' = x ∧ start ≤ k ∧ k < start + vals.length then vals.getD (k - start) 0 else m c' y' x' k

/-- What is needed to decode data units of a scan. -/
structure ScanEnv where
  progressive : Bool
  scan : Scan
  dc : Nat → Option HuffTable
  ac : Nat → Option HuffTable

/-- One data unit: the DC coefficient if the scan contains it, then the AC coefficients of the band. -/
def decodeUnit (env : ScanEnv) (st : IntervalState) (u : DataUnit) : Option IntervalState := do
  let sc ← env.scan.comps[u.1]?
  let st ← if env.scan.ss = 0 then do
      let t ← env.dc sc.td
      let (diff, bits) ← decodeDiff t st.bits
      let v := st.preds u.1 + diff
      some { st with bits := bits, preds := upd st.preds u.1 v, coefs := store st.coefs sc.comp u.2.1 u.2.2 0 [v] }
    else some st
  let first := max env.scan.ss 1
  let n := env.scan.se + 1 - first
  if n = 0 then some st
  else if st.eobrun > 0 then
    some { st with eobrun := st.eobrun - 1, coefs := store st.coefs sc.comp u.2.1 u.2.2 first (List.replicate n 0) }
  else do
    let t ← env.ac sc.ta
    let (l, e, bits) ← decodeAc env.progressive t 64 n st.bits
    some { st with bits := bits, eobrun := e, coefs := store st.coefs sc.comp u.2.1 u.2.2 first l }

/-- A list of data units one after the other. -/
def decodeUnits (env : ScanEnv) : List DataUnit → IntervalState → Option IntervalState
  | [], st => some st
  | u :: us, st => (decodeUnit env st u).bind (decodeUnits env us)

/-- A restart interval (E.2.4, F.2.1.3.1): predictions start at zero; at the end fewer than 8 one-bits remain (F.1.2.3). -/
def decodeInterval (env : ScanEnv) (units : List DataUnit) (data : List UInt8) (m : Coefs) : Option Coefs := do
  let st ← decodeUnits env units ⟨bytesToBits data, fun _ => 0, 0, m⟩
  if st.bits.length < 8 ∧ st.bits.all id ∧ st.eobrun = 0 then some st.coefs else none

/-- The restart intervals of a scan, separated by RST markers counting modulo 8 from `k`. -/
def decodeIntervals (env : ScanEnv) : List (List DataUnit) → (k : Nat) → Coefs → List UInt8 → Option (Coefs × List UInt8)
  | [], _, _, _ => none
  | units :: more, k, m, bytes =>
    match decodeInterval env units (ecs bytes).1 m with
    | none => none
    | some m =>
      match more with
      | [] => some (m, (ecs bytes).2)
      | _ :: _ =>
        match (ecs bytes).2 with
        | 0xFF :: c :: rest => if c.toNat = 0xD0 + k % 8 then decodeIntervals env more (k + 1) m rest else none
        | _ => none

/-! ### Order of the data units (A.2) -/

def ceilDiv (a b : Nat) : Nat := (a + b - 1) / b

def Frame.hmax (f : Frame) : Nat := (f.comps.map (·.h)).foldl max 0
def Frame.vmax (f : Frame) : Nat := (f.comps.map (·.v)).foldl max 0

/-- A.2.2, A.1.1: blocks per line and column of a component when it is coded alone. -/
def Frame.blocksWide (f : Frame) (c : FrameComp) : Nat := ceilDiv (ceilDiv (f.width * c.h) f.hmax) 8
def Frame.blocksHigh (f : Frame) (c : FrameComp) : Nat := ceilDiv (ceilDiv (f.height * c.v) f.vmax) 8

/-- A.2.3: number of MCUs per line and column of an interleaved scan. -/
def Frame.mcusWide (f : Frame) : Nat := ceilDiv f.width (8 * f.hmax)
def Frame.mcusHigh (f : Frame) : Nat := ceilDiv f.height (8 * f.vmax)

/-- All positions of a grid in raster order, as (row, column). -/
def raster (rows cols : Nat) : List (Nat × Nat) :=
  (List.range rows).flatMap fun y => (List.range cols).map fun x => (y, x)

/-- A.2.2: the MCUs of a scan with a single component: one block each, in raster order. -/
def layoutSingle (f : Frame) (c : FrameComp) : List (List DataUnit) :=
  (raster (f.blocksHigh c) (f.blocksWide c)).map fun p => [(0, p.1, p.2)]

/-- A.2.3: the MCU in row `my` and column `mx` of an interleaved scan with components `cs`. -/
def interleavedMcu (cs : List FrameComp) (my mx : Nat) : List DataUnit :=
  cs.zipIdx.flatMap fun cj => (raster cj.1.v cj.1.h).map fun p => (cj.2, my * cj.1.v + p.1, mx * cj.1.h + p.2)

def layoutInterleaved (f : Frame) (cs : List FrameComp) : List (List DataUnit) :=
  (raster f.mcusHigh f.mcusWide).map fun p => interleavedMcu cs p.1 p.2

/-- The MCUs of a scan with components `cs`. -/
def layout (f : Frame) (cs : List FrameComp) : List (List DataUnit) :=
  match cs with
  | [c] => layoutSingle f c
  | _ => layoutInterleaved f cs

/-- Groups of `n` (the last possibly shorter). -/
def groups {α : Type} (n : Nat) : (fuel : Nat) → List α → List (List α)
  | 0, _ => []
  | fuel + 1, l => if l.length ≤ n then [l] else l.take n :: groups n fuel (l.drop n)

/-- E.1.4: the MCUs grouped into restart intervals (`ri = 0`: restart disabled). -/
def intervals {α : Type} (ri : Nat) (mcus : List α) : List (List α) :=
  if ri = 0 then [mcus] else groups ri (mcus.length + 1) mcus

/-! ### Marker segments (Annex B) -/

/-- B.2.4.1: quantisation tables. Only 8 bit entries (required for 8 bit samples); zero is not allowed. -/
def parseDqt : Nat → List UInt8 → (Nat → Option (List Nat)) → Option (Nat → Option (List Nat))
  | _, [], q => some q
  | 0, _, _ => none
  | fuel + 1, pt :: rest, q =>
    if pt.toNat < 4 ∧ 64 ≤ rest.length ∧ (rest.take 64).all (· != 0) then
      parseDqt fuel (rest.drop 64) (upd q pt.toNat (some ((rest.take 64).map UInt8.toNat)))
    else none

/-- B.2.4.2: Huffman tables. -/
def parseDht : Nat → List UInt8 → Dec → Option Dec
  | _, [], d => some d
  | 0, _, _ => none
  | fuel + 1, ct :: rest, d =>
    let counts := (rest.take 16).map UInt8.toNat
    let values := ((rest.drop 16).take counts.sum).map UInt8.toNat
    if (HuffTable.mk counts values).WellFormed ∧ ct.toNat / 16 < 2 ∧ ct.toNat % 16 < 4 then
      let rest := rest.drop (16 + counts.sum)
      if ct.toNat / 16 = 0 then parseDht fuel rest { d with dc := upd d.dc (ct.toNat % 16) (some ⟨counts, values⟩) }
      else parseDht fuel rest { d with ac := upd d.ac (ct.toNat % 16) (some ⟨counts, values⟩) }
    else none

/-- B.2.2, the component list. -/
def parseFrameComps : Nat → List UInt8 → Option (List FrameComp)
  | 0, [] => some []
  | n + 1, id :: hv :: tq :: rest => do
    let cs ← parseFrameComps n rest
    let c : FrameComp := ⟨id.toNat, hv.toNat / 16, hv.toNat % 16, tq.toNat⟩
    if 1 ≤ c.h ∧ c.h ≤ 4 ∧ 1 ≤ c.v ∧ c.v ≤ 4 ∧ c.tq < 4 then some (c :: cs) else none
  | _, _ => none

/-- B.2.2: 8 bit samples, both dimensions given (no DNL), 1 to 4 components with distinct identifiers. -/
def parseSof (progressive : Bool) (payload : List UInt8) : Option Frame :=
  match payload with
  | p :: h1 :: h0 :: w1 :: w0 :: n :: rest => do
    let cs ← parseFrameComps n.toNat rest
    let f : Frame := ⟨progressive, 256 * h1.toNat + h0.toNat, 256 * w1.toNat + w0.toNat, cs⟩
    if p = 8 ∧ f.height ≠ 0 ∧ f.width ≠ 0 ∧ 1 ≤ cs.length ∧ cs.length ≤ 4 ∧ (cs.map (·.id)).Nodup then some f else none
  | _ => none

/-- B.2.3, the component list: identifiers refer to components of the frame. -/
def parseScanComps (f : Frame) : Nat → List UInt8 → Option (List ScanComp × List UInt8)
  | 0, rest => some ([], rest)
  | n + 1, cs :: t :: rest => do
    let (l, rest) ← parseScanComps f n rest
    let i := f.comps.findIdx (fun c => c.id == cs.toNat)
    if i < f.comps.length then some (⟨i, t.toNat / 16, t.toNat % 16⟩ :: l, rest) else none
  | _, _ => none

/-- The frame components of a scan. -/
def scanFrameComps (f : Frame) (s : Scan) : List FrameComp := s.comps.filterMap fun c => f.comps[c.comp]?

/-- B.2.3, G.1.1.1: conditions on a scan header. `strict = false` also admits an empty band (`Se = Ss - 1`)
in an AC scan, which T.81 does not allow. -/
def scanValid (strict : Bool) (d : Dec) (f : Frame) (s : Scan) : Prop :=
  1 ≤ s.comps.length ∧ s.comps.length ≤ 4 ∧
  (s.comps.map (·.comp)).Pairwise (· < ·) ∧
  (s.comps.length > 1 → ((scanFrameComps f s).map fun c => c.h * c.v).sum ≤ 10) ∧
  (if f.progressive then
      ((s.ss = 0 ∧ s.se = 0) ∨
        (1 ≤ s.ss ∧ (s.ss ≤ s.se ∨ (strict = false ∧ s.ss = s.se + 1)) ∧ s.se ≤ 63 ∧ s.comps.length = 1)) ∧
      (∀ c ∈ s.comps, c.td < 4 ∧ c.ta < 4)
    else s.ss = 0 ∧ s.se = 63 ∧ (∀ c ∈ s.comps, c.td < 2 ∧ c.ta < 2)) ∧
  (∀ c ∈ s.comps, ∀ k ∈ List.range 64, s.ss ≤ k → k ≤ s.se → d.coded c.comp k = false) ∧
  (∀ c ∈ s.comps, s.ss > 0 → d.coded c.comp 0 = true) ∧
  (∀ c ∈ s.comps, s.ss = 0 → (d.dc c.td).isSome) ∧
  (∀ c ∈ s.comps, s.se > 0 → (d.ac c.ta).isSome) ∧
  (∀ c ∈ scanFrameComps f s, (d.qts c.tq).isSome)

instance (strict : Bool) (d : Dec) (f : Frame) (s : Scan) : Decidable (scanValid strict d f s) := by
  unfold scanValid; infer_instance

/-- B.2.3: the scan header. -/
def parseScan (f : Frame) (payload : List UInt8) : Option Scan :=
  match payload with
  | n :: rest =>
    match parseScanComps f n.toNat rest with
    | some (cs, [ss, se, a]) => if a = 0 then some ⟨cs, ss.toNat, se.toNat⟩ else none
    | _ => none
  | _ => none

/-- A scan: header, then entropy coded segments; returns what follows. -/
def decodeScan (strict : Bool) (d : Dec) (payload bytes : List UInt8) : Option (Dec × List UInt8) := do
  let f ← d.frame
  let s ← parseScan f payload
  if scanValid strict d f s then do
    let mcus := layout f (scanFrameComps f s)
    let (m, rest) ← decodeIntervals ⟨f.progressive, s, d.dc, d.ac⟩ ((intervals d.ri mcus).map List.flatten) 0 d.coefs bytes
    let coded := fun c k => d.coded c k || (s.comps.any (·.comp == c) && decide (s.ss ≤ k ∧ k ≤ s.se))
    some ({ d with
      coefs := m
      coded := coded
      scans := d.scans ++ [⟨s, mcus.length, bytes.take (bytes.length - rest.length)⟩] }, rest)
  else none

/-- Marker segments other than SOS. -/
def applySegment (m : UInt8) (payload : List UInt8) (d : Dec) : Option Dec :=
  if 0xE0 ≤ m ∧ m ≤ 0xEF then some { d with apps := d.apps ++ [(m.toNat - 0xE0, payload)] }
  else if m = 0xFE then some d
  else if m = 0xDB then (parseDqt payload.length payload d.qts).map fun q => { d with qts := q }
  else if m = 0xC4 then parseDht payload.length payload d
  else if m = 0xDD then
    match payload with
    | [a, b] => some { d with ri := 256 * a.toNat + b.toNat }
    | _ => none
  else if m = 0xC0 ∨ m = 0xC2 then
    match d.frame with
    | some _ => none
    | none => (parseSof (m = 0xC2) payload).map fun f => { d with frame := some f }
  else none

/-- At the end of the image all coefficients of all components have been coded. -/
def complete (d : Dec) : Bool :=
  match d.frame with
  | none => false
  | some f => (List.range f.comps.length).all fun c => (List.range 64).all fun k => d.coded c k

/-- The sequence of marker segments up to EOI, which must end the data. With `whole` all coefficients must have been coded at the end. -/
def segments (strict whole : Bool) : (fuel : Nat) → Dec → List UInt8 → Option Dec
  | fuel + 1, d, 0xFF :: m :: rest =>
    if m = 0xD9 then if rest = [] ∧ (whole = true → complete d = true) then some d else none
    else
      match rest with
      | l1 :: l0 :: rest =>
        let len := 256 * l1.toNat + l0.toNat
        let d := { d with markers := d.markers ++ [m.toNat] }
        if len < 2 ∨ rest.length < len - 2 then none
        else if m = 0xDA then
          (decodeScan strict d (rest.take (len - 2)) (rest.drop (len - 2))).bind fun r => segments strict whole fuel r.1 r.2
        else (applySegment m (rest.take (len - 2)) d).bind fun d => segments strict whole fuel d (rest.drop (len - 2))
      | _ => none
  | _, _, _ => none

/-- Decode a JPEG file: SOI, segments, EOI (B.2.1). -/
def decode (strict : Bool) (bytes : List UInt8) : Option Dec :=
  match bytes with
  | 0xFF :: 0xD8 :: rest => segments strict true rest.length Dec.init rest
  | _ => none

/-- Decode a file in which scans are missing at the end: coefficients that have not been coded are zero. -/
def preview (strict : Bool) (bytes : List UInt8) : Option Dec :=
  match bytes with
  | 0xFF :: 0xD8 :: rest => segments strict false rest.length Dec.init rest
  | _ => none

end Spec
