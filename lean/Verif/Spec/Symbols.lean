import Verif.Spec.Jpeg
/-! The symbols of Huffman coding (ITU-T T.81, F.1.2). Uses no model definition. -/
namespace Spec

/-- Table F.1, F.2: the number of binary digits of the magnitude. -/
def category (v : Int) : Nat := if v = 0 then 0 else Nat.log2 v.natAbs + 1

/-- F.1.2.1: the symbols of the DC coefficients `l`, each coded as the difference to the one before; `pred` is the prediction for the first. -/
def dcSymbols : (l : List Int) → (pred : Int) → List Nat
  | [], _ => []
  | v :: l, pred => category (v - pred) :: dcSymbols l v

/-- F.1.2.2: the symbols of the AC coefficients `l` (in zig-zag order) that follow `run` zeros: run lengths of up to 15 zeros combined with
categories, 0xF0 for 16 zeros, 0x00 if there are only zeros left. -/
def acSymbols : (l : List Int) → (run : Nat) → List Nat
  | [], run => if run = 0 then [] else [0x00]
  | v :: l, run =>
    if v = 0 then acSymbols l (run + 1)
    else List.replicate (run / 16) 0xF0 ++ (run % 16 * 16 + category v) :: acSymbols l 0

/-- The coefficients `ss..se` of a block, without the DC coefficient. -/
def bandOf (block : Nat → Int) (ss se : Nat) : List Int := (List.range (se + 1 - max ss 1)).map fun i => block (max ss 1 + i)

/-- Positions of the blocks of a component, in the order of a scan of that component alone (A.2.2). -/
def blockPositions (f : Frame) (c : Nat) : List (Nat × Nat) :=
  match f.comps[c]? with
  | none => []
  | some fc => raster (f.blocksHigh fc) (f.blocksWide fc)

/-- The DC coefficients of a component in the order of a scan of that component alone. -/
def dcValues (d : Dec) (f : Frame) (c : Nat) : List Int := (blockPositions f c).map fun p => d.coefs c p.1 p.2 0

/-- The symbols coded with the DC table `slot` in the scans of a file with one component per scan. The prediction is zero at the start of
every restart interval. -/
def dcSymbolsOf (d : Dec) (f : Frame) (slot : Nat) : List Nat :=
  d.scans.flatMap fun s => if s.scan.ss = 0 then s.scan.comps.flatMap fun sc =>
    if sc.td = slot then (intervals d.ri (dcValues d f sc.comp)).flatMap fun l => dcSymbols l 0 else [] else []

/-- The symbols there would be without restarts. -/
def dcSymbolsUninterrupted (d : Dec) (f : Frame) (slot : Nat) : List Nat :=
  d.scans.flatMap fun s => if s.scan.ss = 0 then s.scan.comps.flatMap fun sc =>
    if sc.td = slot then dcSymbols (dcValues d f sc.comp) 0 else [] else []

/-- There is no restart marker in any scan. -/
def NoRestarts (d : Dec) : Prop := d.ri = 0 ∨ ∀ s ∈ d.scans, s.mcus ≤ d.ri

/-- The symbols coded with the AC table `slot` in the scans of a file with one component per scan. -/
def acSymbolsOf (d : Dec) (f : Frame) (slot : Nat) : List Nat :=
  d.scans.flatMap fun s => s.scan.comps.flatMap fun sc =>
    if sc.ta = slot then (blockPositions f sc.comp).flatMap fun p => acSymbols (bandOf (d.coefs sc.comp p.1 p.2) s.scan.ss s.scan.se) 0 else []

-- 1 after two zeros, -5 after 17 zeros, end of block
example : acSymbols ([0, 0, 1] ++ List.replicate 17 0 ++ [-5, 0]) 0 = [0x21, 0xF0, 0x13, 0x00] := by decide
example : dcSymbols [100, 103, 103, -1000] 0 = [7, 2, 0, 11] := by decide

end Spec
