import Verif.Model.Tables
/-! Model of src/huffman.rs. -/
namespace Jpeg

/-- src/huffman.rs:66-70 `HuffmanTable`: `lookup` has 256 entries `(size, code)`. -/
structure HuffmanTable where
  lookup : List (Nat × Nat)
  length : List Nat
  values : List Nat
deriving DecidableEq, Repr

/-- src/huffman.rs:239-253 `create_sizes`. Simplified: the running index `k` is the length of the list
built so far, the array is that list padded with zeros; more than 256 entries is the index panic. -/
def createSizes (lengths : List Nat) : R (List Nat) :=
  let s := ((List.range 16).map fun i => List.replicate (lengths.getD i 0) (i + 1)).flatten
  if s.length ≤ 256 then .ok (s ++ List.replicate (256 - s.length) 0) else .error (.panic .index)

/-- src/huffman.rs:262-271, the loop of `create_codes`: state `(current_code : u16, current_size : u8)`. -/
def createCodesLoop (pf : Platform) : List Nat → Nat → Nat → R (List Nat)
  | [], _, _ => .ok []
  | size :: rest, code, cur =>
    if cur ≠ size then do
      let diff ← ckU pf 8 (size - cur)
      let code ← shlU pf 16 code diff
      let next ← ckU pf 16 (code + 1)
      let more ← createCodesLoop pf rest next size
      .ok (code :: more)
    else do
      let next ← ckU pf 16 (code + 1)
      let more ← createCodesLoop pf rest next cur
      .ok (code :: more)

/-- src/huffman.rs:255-274 `create_codes`. -/
def createCodes (pf : Platform) (sizes : List Nat) : R (List Nat) := do
  let cs ← createCodesLoop pf (sizes.takeWhile (· ≠ 0)) 0 (sizes.getD 0 0)
  .ok (cs ++ List.replicate (256 - cs.length) 0)

/-- src/huffman.rs:283-285, the loop of `create_lookup_table`. -/
def lookupLoop (sizes codes : List Nat) : List Nat → Nat → List (Nat × Nat) → R (List (Nat × Nat))
  | [], _, t => .ok t
  | v :: vs, i, t => do
    let s ← idx sizes i
    let c ← idx codes i
    let t ← setIdx t v (s, c)
    lookupLoop sizes codes vs (i + 1) t

/-- src/huffman.rs:276-288 `create_lookup_table`. -/
def createLookupTable (pf : Platform) (lengths values : List Nat) : R (List (Nat × Nat)) := do
  let sizes ← createSizes lengths
  let codes ← createCodes pf sizes
  lookupLoop sizes codes values 0 (List.replicate 256 (0, 0))

/-- src/huffman.rs:73-79 `HuffmanTable::new`. -/
def HuffmanTable.new (pf : Platform) (lengths values : List Nat) : R HuffmanTable := do
  let t ← createLookupTable pf lengths values
  .ok ⟨t, lengths, values⟩

/-- src/huffman.rs:81-83 -/
def HuffmanTable.defaultLumaDc (pf : Platform) := HuffmanTable.new pf lumaDcLengths lumaDcValues
/-- src/huffman.rs:85-87 -/
def HuffmanTable.defaultLumaAc (pf : Platform) := HuffmanTable.new pf lumaAcLengths lumaAcValues
/-- src/huffman.rs:89-91 -/
def HuffmanTable.defaultChromaDc (pf : Platform) := HuffmanTable.new pf chromaDcLengths chromaDcValues
/-- src/huffman.rs:93-95 -/
def HuffmanTable.defaultChromaAc (pf : Platform) := HuffmanTable.new pf chromaAcLengths chromaAcValues

/-- src/huffman.rs:106-115 and 122-131: the last index with the least non-zero frequency, skipping
`skip`. The two loops of the code differ only in `i != v1`; `skip = none` is the first one.
`i` is the running index, `best` the pair `(v_min, v)`. -/
def findMin (skip : Option Nat) : List Nat → Nat → Nat × Option Nat → Nat × Option Nat
  | [], _, best => best
  | f :: fs, i, best =>
    if 0 < f ∧ f ≤ best.1 ∧ some i ≠ skip then findMin skip fs (i + 1) (f, some i)
    else findMin skip fs (i + 1) best

/-- src/huffman.rs:141-145 and 149-153: increment the code sizes along the chain of `others` from `v`;
returns the last element of the chain and the new code sizes. -/
def bumpChain (others : List Int) : Nat → Nat → List Nat → R (Nat × List Nat)
  | 0, _, _ => .error .diverge
  | fuel + 1, v, codesize => do
    let c ← idx codesize v
    let codesize ← setIdx codesize v (c + 1)
    let o ← idx others v
    if 0 ≤ o then bumpChain others fuel o.toNat codesize else .ok (v, codesize)
termination_by structural fuel => fuel

/-- src/huffman.rs:105-154: the merge loop (Figure K.1). Result: `codesize`. -/
def mergeLoop (pf : Platform) : Nat → List Nat → List Int → List Nat → R (List Nat)
  | 0, _, _, _ => .error .diverge
  | fuel + 1, freq, others, codesize =>
    match (findMin none freq 0 (4294967295, none)).2 with
    | none => .ok codesize
    | some v1 =>
      match (findMin (some v1) freq 0 (4294967295, none)).2 with
      | none => .ok codesize
      | some v2 => do
        let f1 ← idx freq v1
        let f2 ← idx freq v2
        let sum ← ckU pf 32 (f1 + f2)
        let freq ← setIdx freq v1 sum
        let freq ← setIdx freq v2 0
        let (v1', codesize) ← bumpChain others 258 v1 codesize
        let others ← setIdx others v1' (v2 : Int)
        let (_, codesize) ← bumpChain others 258 v2 codesize
        mergeLoop pf fuel freq others codesize

/-- src/huffman.rs:159-165: `bits[size] += 1` for every non-zero code size; `bits : [u8; 33]`. -/
def countBits (pf : Platform) : List Nat → List Nat → R (List Nat)
  | [], bits => .ok bits
  | size :: rest, bits =>
    if size > 0 then do
      let b ← idx bits size
      let b ← ckU pf 8 (b + 1)
      let bits ← setIdx bits size b
      countBits pf rest bits
    else countBits pf rest bits

/-- src/huffman.rs:174-177: `let mut j = i - 2; while bits[j] == 0 { j -= 1; }` -/
def findJ (pf : Platform) (bits : List Nat) : Nat → Nat → R Nat
  | 0, _ => .error .diverge
  | fuel + 1, j => do
    let b ← idx bits j
    if b = 0 then do
      let j ← ckUsize pf (j - 1)
      findJ pf bits fuel j
    else .ok j
termination_by structural fuel => fuel

/-- src/huffman.rs:173-183: the inner loop for one `i`. All entries are `u8`. -/
def limitInner (pf : Platform) (i : Nat) : Nat → List Nat → R (List Nat)
  | 0, _ => .error .diverge
  | fuel + 1, bits => do
    let b ← idx bits i
    if b > 0 then do
      let j ← ckUsize pf (i - 2)
      let j ← findJ pf bits 33 j
      let x ← ckU pf 8 (b - 2)
      let bits ← setIdx bits i x
      let x ← idx bits (i - 1)
      let x ← ckU pf 8 (x + 1)
      let bits ← setIdx bits (i - 1) x
      let x ← idx bits (j + 1)
      let x ← ckU pf 8 (x + 2)
      let bits ← setIdx bits (j + 1) x
      let x ← idx bits j
      let x ← ckU pf 8 (x - 1)
      let bits ← setIdx bits j x
      limitInner pf i fuel bits
    else .ok bits
termination_by structural fuel => fuel

/-- src/huffman.rs:170-186: `while i > 16`, from `i = 32` downwards; `n = i - 16`. -/
def limitLoop (pf : Platform) : Nat → List Nat → R (List Nat)
  | 0, bits => .ok bits
  | n + 1, bits => do
    let bits ← limitInner pf (n + 17) 257 bits
    limitLoop pf n bits

/-- src/huffman.rs:188-192: `while bits[i] == 0 { debug_assert!(i > 0); i -= 1; } bits[i] -= 1;` -/
def dropLast (pf : Platform) (bits : List Nat) : Nat → Nat → R (List Nat)
  | 0, _ => .error .diverge
  | fuel + 1, i => do
    let b ← idx bits i
    if b = 0 then do
      let _ ← debugAssert pf (decide (i > 0))
      let i ← ckUsize pf (i - 1)
      dropLast pf bits fuel i
    else do
      let x ← ckU pf 8 (b - 1)
      setIdx bits i x
termination_by structural fuel => fuel

/-- src/huffman.rs:196-207, 214: the values sorted by code size (Figure K.4). Simplified: appending to a
list instead of writing `huffval[k]` and incrementing `k` (there are at most 256 `j`, so no index panic);
`codesize` has 257 entries, so `codesize[j]` with `j ≤ 255` is in range. -/
def sortValues (codesize : List Nat) : List Nat :=
  ((List.range' 1 32).map fun i => (List.range 256).filter fun j => codesize.getD j 0 == i).flatten

/-- src/huffman.rs:97-221 `HuffmanTable::new_optimized`; `freq` has 257 entries (`u32`). -/
def HuffmanTable.newOptimized (pf : Platform) (freq : List Nat) : R HuffmanTable := do
  let codesize ← mergeLoop pf 258 freq (List.replicate 257 (-1)) (List.replicate 257 0)
  let bits ← countBits pf codesize (List.replicate 33 0)
  let bits ← limitLoop pf 16 bits
  let bits ← dropLast pf bits 33 16
  let length := (List.range 16).map fun i => bits.getD (i + 1) 0
  let values := sortValues codesize
  let t ← createLookupTable pf length values
  .ok ⟨t, length, values⟩

/-- src/huffman.rs:223-228 `get_for_value`; `value : u8` so the index is in range. -/
def HuffmanTable.getForValue (pf : Platform) (t : HuffmanTable) (value : Nat) : R (Nat × Nat) := do
  let res ← idx t.lookup value
  let _ ← debugAssert pf (decide (res.1 > 0))
  .ok res

end Jpeg
