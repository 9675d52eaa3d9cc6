import Verif.Spec.Jpeg
/-! Decoding damaged files: what a decoder can do that skips restart intervals it does not understand. -/
namespace Spec

/-- The data of a restart interval: every 0xFF is followed by a zero. -/
def NoMarker (data : List UInt8) : Prop := ∀ i : Nat, data[i]? = some 0xFF → data[i + 1]? = some 0

/-- The data of a scan: its restart intervals with the markers RST0 .. RST7, counting from `k`, between them (E.1.4). -/
def joinParts (k : Nat) : List (List UInt8) → List UInt8
  | [] => []
  | [p] => p
  | p :: q :: ps => p ++ 0xFF :: UInt8.ofNat (0xD0 + k % 8) :: joinParts (k + 1) (q :: ps)

/-- The restart intervals of a scan, from a decoder that goes on with the next interval if the data of one cannot be decoded. -/
def concealIntervals (env : ScanEnv) : List (List DataUnit) → Coefs → List UInt8 → Coefs × List UInt8
  | [], m, bytes => (m, bytes)
  | units :: more, m, bytes =>
    let m := (decodeInterval env units (ecs bytes).1 m).getD m
    match more with
    | [] => (m, (ecs bytes).2)
    | _ :: _ => concealIntervals env more m ((ecs bytes).2.drop 2)

/-- A scan, see `decodeScan`. -/
def concealScan (strict : Bool) (d : Dec) (payload bytes : List UInt8) : Option (Dec × List UInt8) := do
  let f ← d.frame
  let s ← parseScan f payload
  if scanValid strict d f s then do
    let mcus := layout f (scanFrameComps f s)
    let (m, rest) := concealIntervals ⟨f.progressive, s, d.dc, d.ac⟩ ((intervals d.ri mcus).map List.flatten) d.coefs bytes
    let coded := fun c k => d.coded c k || (s.comps.any (·.comp == c) && decide (s.ss ≤ k ∧ k ≤ s.se))
    some ({ d with
      coefs := m
      coded := coded
      scans := d.scans ++ [⟨s, mcus.length, bytes.take (bytes.length - rest.length)⟩] }, rest)
  else none

/-- The marker segments, see `segments`. -/
def concealSegments (strict : Bool) : (fuel : Nat) → Dec → List UInt8 → Option Dec
  | fuel + 1, d, 0xFF :: m :: rest =>
    if m = 0xD9 then if rest = [] then some d else none
    else
      match rest with
      | l1 :: l0 :: rest =>
        let len := 256 * l1.toNat + l0.toNat
        let d := { d with markers := d.markers ++ [m.toNat] }
        if len < 2 ∨ rest.length < len - 2 then none
        else if m = 0xDA then
          (concealScan strict d (rest.take (len - 2)) (rest.drop (len - 2))).bind fun r => concealSegments strict fuel r.1 r.2
        else (applySegment m (rest.take (len - 2)) d).bind fun d => concealSegments strict fuel d (rest.drop (len - 2))
      | _ => none
  | _, _, _ => none

/-- Decode a JPEG file with damaged restart intervals. -/
def conceal (strict : Bool) (bytes : List UInt8) : Option Dec :=
  match bytes with
  | 0xFF :: 0xD8 :: rest => concealSegments strict rest.length Dec.init rest
  | _ => none

/-- Coefficient `k` of block `(y, x)` of component `c` belongs to these data units and the band of the scan. -/
def Covers (s : Scan) (units : List DataUnit) (c y x k : Nat) : Prop :=
  ∃ u ∈ units, ∃ sc, s.comps[u.1]? = some sc ∧ sc.comp = c ∧ u.2 = (y, x) ∧ s.ss ≤ k ∧ k ≤ s.se

/-- The coefficient belongs to a restart interval whose data has been changed from `parts` to `parts'`, and to the band of the scan. `ints` are the MCUs of
each restart interval. -/
def Damaged (s : Scan) (ints : List (List (List DataUnit))) (parts parts' : List (List UInt8)) (c y x k : Nat) : Prop :=
  ∃ (i : Nat) (mcus : List (List DataUnit)), parts'[i]? ≠ parts[i]? ∧ ints[i]? = some mcus ∧ Covers s mcus.flatten c y x k

end Spec
