import Verif.Work.Model
/-!
# Boolean masks: counting, indexing, fancy index

Models `SumBooleanMask`, `BooleanCount`, `BooleanIndexInternal`, `BooleanSum` and `BooleanToFancy`
of `src/Merge.cpp`.

Memory is a total function from byte offsets (relative to the start of the mask's first element) to
bytes; theorems show that results depend only on the mask's own elements.  64-bit counters are
modelled as naturals (an array has fewer than 2^63 elements).
-/
namespace Riptide.Mask
open Riptide.Work

abbrev Byte := BitVec 8

/-- Byte memory addressed relative to an array's first element. -/
abbrev Mem := Int → Byte

/-- Pointer adjustment. -/
def Mem.shift (m : Mem) (d : Int) : Mem := fun a => m (a + d)

/-- The mask as the Python caller sees it: element `i` is the byte at `i * stride`. -/
def view (m : Mem) (stride : Int) (len : Nat) : List Bool :=
  (List.range len).map fun (i : Nat) => decide (m ((i : Int) * stride) ≠ 0#8)

/-! ## `SumBooleanMask`, `src/Merge.cpp:33-168` -/

/-- `_mm256_loadu_si256` of vector number `i`, line 98. -/
def loadVec (m : Mem) (i : Nat) : List Byte :=
  (List.range 32).map fun k => m ((32 * i + k : Nat) : Int)

/-- `_mm256_min_epu8(ones, v)`, line 98. -/
def cstyleBools (v : List Byte) : List Byte := v.map fun b => if 1#8 ≤ b then 1#8 else b

/-- `_mm256_add_epi8`, line 103 (wraps at 256). -/
def addEpi8 (x y : List Byte) : List Byte := List.zipWith (· + ·) x y

/-- `unpacklo`, `unpackhi` with zeros and `add_epi{w}`, lines 113-125: the four quarters
(low/high half of each 128-bit half) are added pairwise at the double lane width `w`. -/
def widenAdd (w : Nat) (l : List Nat) : List Nat :=
  let q := l.length / 4
  List.zipWith (fun x y => (x + y) % 2 ^ w)
    (l.take q ++ (l.drop (2 * q)).take q)
    ((l.drop q).take q ++ l.drop (3 * q))

/-- Horizontal sum of the byte counters, lines 110-138. -/
def horizontal (pc : List Byte) : Nat :=
  (widenAdd 64 (widenAdd 32 (widenAdd 16 (pc.map BitVec.toNat)))).sum

/-- The vector loop, lines 78-143: `i` is the outer counter and `n = vector_length - i`. -/
def vecLoop (m : Mem) (i n result : Nat) : Nat :=
  if _h : n = 0 then result
  else
    let iters := if n > 255 then 255 else n
    let pc := (List.range iters).foldl
      (fun acc j => addEpi8 acc (cstyleBools (loadVec m (i + j)))) (List.replicate 32 0#8)
    vecLoop m (i + iters) (n - iters) (result + horizontal pc)
termination_by n
decreasing_by split <;> omega

/-- Scalar loop `for (i = start; …) if (pData[i * stride]) result++`, lines 148-154 and 158-164. -/
def scalarLoop (m : Mem) (stride : Int) (start n result : Nat) : Nat :=
  (List.range' start n).foldl
    (fun r (i : Nat) => if m ((i : Int) * stride) ≠ 0#8 then r + 1 else r) result

/-- `SumBooleanMask`, lines 33-168. -/
def sumBooleanMask (m : Mem) (length : Nat) (stride : Int) : Nat :=
  if stride = 1 then
    let vl := length / 32
    scalarLoop m 1 (vl * 32) (length - vl * 32) (vecLoop m 0 vl 0)
  else scalarLoop m stride 0 length 0

/-! ## `BooleanCount`, `src/Merge.cpp:175-241` -/

/-- Number of slots of `pChunkCount`, lines 190-192. -/
def chunkSlots (len : Nat) : Nat := ((if len > 1 then len else 1) + (chunk - 1)) / chunk

/-- The callback `lambdaBSCallback`, lines 210-226: one write to `pChunkCount`. -/
def countCallback (m : Mem) (stride : Int) (start len : Nat) (cc : List (Option Nat)) :
    List (Option Nat) :=
  cc.set (start / chunk) (some (sumBooleanMask (m.shift (start * stride)) len stride))

/-- `BooleanCount`, lines 175-241.  `none` entries are uninitialised memory.  The result is
`pChunkCount` truncated to the number of chunks returned. -/
def booleanCount (m : Mem) (len : Nat) (stride : Int) (par : Option (List Nat)) :
    List (Option Nat) :=
  let cc := List.replicate (chunkSlots len) none
  match par with
  | none => (countCallback m stride 0 len cc).take 1
  | some calls =>
    (calls.foldl (fun cc b => countCallback m stride (chunk * b)
      (blockLen len chunk (blockLastGeneric len chunk) b) cc) cc).take (chunkSlots len)

/-- Sum over the chunk counts, lines 751-755 (`none` if uninitialised memory is read). -/
def sumChunks : List (Option Nat) → Option Nat
  | [] => some 0
  | none :: _ => none
  | some c :: rest => (sumChunks rest).map (c + ·)

/-- `BooleanSum`, lines 728-759. -/
def booleanSum (m : Mem) (len : Nat) (stride : Int) (par : Option (List Nat)) : Option Nat :=
  sumChunks (booleanCount m len stride par)

/-! ## `BooleanIndexInternal`, `src/Merge.cpp:248-704` -/

/-- Exclusive prefix sums, lines 311-321: offsets and total. -/
def prefixSums (total : Nat) : List (Option Nat) → Option (List Nat × Nat)
  | [] => some ([], total)
  | none :: _ => none
  | some c :: rest => (prefixSums (total + c) rest).map fun (os, t) => (total :: os, t)

/-- One copy of an item: destination and source byte offsets. -/
abbrev Copy := Int × Int

/-- Pointers carried through the loops: source offset, destination offset. -/
structure Ptrs where
  vin : Int
  vout : Int
  deriving DecidableEq, Repr

/-- Little-endian 64-bit load of the 8 mask bytes at `a`, lines 385 etc. -/
def loadLE : List Byte → Nat
  | [] => 0
  | b :: bs => b.toNat + 256 * loadLE bs

/-- `for (j = 0; j < 8; j++) { if (bitmask & 0xff) copy; advance; bitmask >>= 8; }`,
lines 391-399, 434-442, …, 558-568. -/
def byteLoop (itemSize sv : Int) : Nat → Nat → Ptrs → List Copy × Ptrs
  | 0, _, p => ([], p)
  | k + 1, w, p =>
    if w &&& 0xff ≠ 0 then
      let r := byteLoop itemSize sv k (w >>> 8) ⟨p.vin + sv, p.vout + itemSize⟩
      ((p.vout, p.vin) :: r.1, r.2)
    else byteLoop itemSize sv k (w >>> 8) ⟨p.vin + sv, p.vout⟩

/-- Loop over 8-byte words, lines 383-406 etc. -/
def wordLoop (m : Mem) (itemSize sv : Int) (i : Nat) : Nat → Ptrs → List Copy × Ptrs
  | 0, p => ([], p)
  | n + 1, p =>
    let w := loadLE ((List.range 8).map fun k => m ((8 * i + k : Nat) : Int))
    if w ≠ 0 then
      let r := byteLoop itemSize sv 8 w p
      let r' := wordLoop m itemSize sv (i + 1) n r.2
      (r.1 ++ r'.1, r'.2)
    else wordLoop m itemSize sv (i + 1) n ⟨p.vin + 8 * sv, p.vout⟩

/-- Element-at-a-time loop; `inc` is what the code adds to the output pointer after a copy.
Lines 412-419, 455-462, …, 581-589 (tail) and 606-675 (strided mask). -/
def elemLoop (m : Mem) (sb inc sv : Int) (i : Nat) : Nat → Ptrs → List Copy × Ptrs
  | 0, p => ([], p)
  | n + 1, p =>
    if m ((i : Int) * sb) ≠ 0#8 then
      let r := elemLoop m sb inc sv (i + 1) n ⟨p.vin + sv, p.vout + inc⟩
      ((p.vout, p.vin) :: r.1, r.2)
    else elemLoop m sb inc sv (i + 1) n ⟨p.vin + sv, p.vout⟩

/-- Increment of the output pointer in the tail loop: the typed cases 1/2/4/8 advance by the item
size, the default case advances by `strideValues` (line 586). -/
def tailInc (itemSize sv : Int) : Int :=
  if itemSize = 1 ∨ itemSize = 2 ∨ itemSize = 4 ∨ itemSize = 8 then itemSize else sv

/-- `lambdaBICallback2`, lines 352-681: the copies made for rows `[start, start+len)`, the output
starting at item `off`. -/
def indexCallback (m : Mem) (sb itemSize sv : Int) (start len off : Nat) : List Copy :=
  let m' := m.shift (start * sb)
  let p : Ptrs := ⟨start * sv, off * itemSize⟩
  if sb = 1 then
    let r := wordLoop m' itemSize sv 0 (len / 8) p
    let r' := elemLoop (m'.shift (8 * (len / 8) : Nat)) 1 (tailInc itemSize sv) sv 0 (len &&& 7) r.2
    r.1 ++ r'.1
  else (elemLoop m' sb itemSize sv 0 len p).1

/-- `BooleanIndexInternal`, lines 293-704: number of output items and the list of copies made
(`none` if uninitialised memory is read).  `par1`/`par2` are the schedules of the counting and
copying passes. -/
def booleanIndex (m : Mem) (len : Nat) (sb itemSize sv : Int) (par1 par2 : Option (List Nat)) :
    Option (Nat × List Copy) :=
  match prefixSums 0 (booleanCount m len sb par1) with
  | none => none
  | some (offs, total) =>
    if total > 0 then
      match par2 with
      | none => (offs[0]?).map fun o => (total, indexCallback m sb itemSize sv 0 len o)
      | some calls =>
        (calls.mapM fun b => (offs[chunk * b / chunk]?).map fun o =>
          indexCallback m sb itemSize sv (chunk * b)
            (blockLen len chunk (blockLastGeneric len chunk) b) o).map fun ls => (total, ls.flatten)
    else some (0, [])

/-! ## `BooleanToFancy`, `src/Merge.cpp:1492-1712` -/

/-- Writes of one block in the default mode, lines 1653-1678: `(position, value)`.
The mask is read at `pBooleanMask[i]`, ignoring its stride. -/
def fancyBlock (m : Mem) (start len off : Nat) : List (Nat × Nat) :=
  ((List.range' start len).foldl
    (fun (acc : List (Nat × Nat) × Nat) (i : Nat) =>
      if m (i : Int) ≠ 0#8 then (acc.1 ++ [(acc.2, i)], acc.2 + 1) else acc) ([], off)).1

/-- Writes of one block in `both` mode, lines 1604-1650. -/
def fancyBothBlock (m : Mem) (start len off offFalse : Nat) : List (Nat × Nat) :=
  ((List.range' start len).foldl
    (fun (acc : List (Nat × Nat) × Nat × Nat) (i : Nat) =>
      if m (i : Int) ≠ 0#8 then (acc.1 ++ [(acc.2.1, i)], acc.2.1 + 1, acc.2.2)
      else (acc.1 ++ [(acc.2.2, i)], acc.2.1, acc.2.2 + 1)) ([], off, offFalse)).1

/-- Exclusive prefix sums of the False counts, lines 1535-1544, for the blocks whose count is
initialised (later entries are computed from uninitialised memory by the code when threading is
off, but are then never used). -/
def falseOffs (counts : List (Option Nat)) (b : Nat) : Option Nat :=
  (sumChunks (counts.take b)).map fun t => chunk * b - t

/-- `BooleanToFancy`: total number of True and the writes to the output array. -/
def booleanToFancy (m : Mem) (len : Nat) (sb : Int) (both : Bool) (par1 par2 : Option (List Nat)) :
    Option (Nat × List (Nat × Nat)) :=
  let counts := booleanCount m len sb par1
  match prefixSums 0 counts with
  | none => none
  | some (offs, total) =>
    let block (b start n : Nat) : Option (List (Nat × Nat)) :=
      match offs[b]? with
      | none => none
      | some o =>
        if both then (falseOffs counts b).map fun f => fancyBothBlock m start n o (total + f)
        else some (fancyBlock m start n o)
    match par2 with
    | none => (block 0 0 len).map fun l => (total, l)
    | some calls =>
      (calls.mapM fun b => block b (chunk * b) (blockLen len chunk (blockLastGeneric len chunk) b)).map
        fun ls => (total, ls.flatten)

end Riptide.Mask
