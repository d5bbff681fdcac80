import Verif.Work.Model
/-! # Model of fancy get (`mbget`), reverse shuffle and group re-indexing, `src/Merge.cpp` -/
namespace Riptide.Take
open Riptide.Work

abbrev Byte := BitVec 8

/-! ## `MBGet`, `src/Merge.cpp:761-1447` -/

/-- The kernels are instantiated with signed `INDEX` types for unsigned index dtypes as well
(`GetItemFunction`, lines 1128-1267), so an index is always read as a signed `w`-bit number. -/
def readIdx (w : Nat) (u : Int) : Int := (BitVec.ofInt w u).toInt

/-- Is the item size handled by a typed kernel (`switch (itemSize)`, lines 1135-1148 etc.)? -/
def fixedSize (itemSize : Nat) : Bool :=
  itemSize == 1 || itemSize == 2 || itemSize == 4 || itemSize == 8 || itemSize == 16

/-- Row read for an index, `none` for the default value.
`GetItemInt`/`GetItemIntVariable` (lines 793, 814, 906, 941), `GetItemUInt` (lines 859, 872),
`GetItemUIntVariable` (lines 992, 1028: no test for negative values). -/
def resolve (signed isVar : Bool) (valLen : Nat) (index : Int) : Option Int :=
  if signed then
    if -(valLen : Int) ≤ index ∧ index < valLen then
      some (if index ≥ 0 then index else index + valLen)
    else none
  else if isVar then
    if index < valLen then some index else none
  else
    if 0 ≤ index ∧ index < valLen then some index else none

/-- Where a copied byte comes from: byte offset in the value array or in the default value.
The default value buffer is assumed to hold at least `itemSize` bytes. -/
inductive Src
  | val (off : Int)
  | dflt (off : Nat)
  deriving DecidableEq, Repr

/-- Byte offsets copied, in order, by the variable-size copy loops
(`while (pDataOut < pEnd - 8)` 8 bytes, then single bytes; lines 917-929 etc.); `k` bytes done,
`n` bytes left. -/
def varOffs (k n : Nat) : List Nat :=
  if _h : n > 8 then (List.range' k 8) ++ varOffs (k + 8) (n - 8)
  else List.range' k n
termination_by n

/-- Offsets of the bytes of one item in copying order; a typed assignment copies all bytes. -/
def itemOffs (itemSize : Nat) : List Nat :=
  if fixedSize itemSize then List.range' 0 itemSize else varOffs 0 itemSize

/-- Copy one item to byte `dst` of the output. -/
def itemCopy (sv : Int) (itemSize : Nat) (row : Option Int) (dst : Int) : List (Int × Src) :=
  (itemOffs itemSize).map fun (k : Nat) =>
    (dst + k, match row with
      | some i => .val (i * sv + k)
      | none => .dflt k)

/-- The index array: dtype signedness and width, and the values it holds. -/
structure Index where
  signed : Bool
  width : Nat
  vals : List Int

/-- `GetItemInt`, `GetItemUInt`, `GetItemIntVariable`, lines 768-965: rows `[start, start+len)` of
the index, output starting at byte `dst`. The index stride is folded into the list `Index.vals`. -/
def kernel (ix : Index) (valLen : Nat) (sv : Int) (itemSize start len : Nat) (dst : Int) :
    List (Int × Src) :=
  (List.range' start len).flatMap fun (i : Nat) =>
    itemCopy sv itemSize
      (resolve ix.signed (!fixedSize itemSize) valLen (readIdx ix.width ((ix.vals[i]?).getD 0)))
      (dst + ((i : Int) - start) * itemSize)

/-- `GetItemUIntVariable`, lines 967-1052.  The copy loop already advances `pDataOut` to the end of
the item; lines 1017 and 1049 advance it by `itemSize` again.  `none`: the loop
`while (pDataOut != pDataOutEnd)` did not finish within `fuel` iterations. -/
def uintVarKernel (ix : Index) (valLen : Nat) (sv : Int) (itemSize : Nat) (fuel i : Nat)
    (pos stop : Int) : Option (List (Int × Src)) :=
  match fuel with
  | 0 => none
  | fuel + 1 =>
    if pos = stop then some []
    else
      (uintVarKernel ix valLen sv itemSize fuel (i + 1) (pos + itemSize + itemSize) stop).map
        (itemCopy sv itemSize
          (resolve false true valLen (readIdx ix.width ((ix.vals[i]?).getD 0))) pos ++ ·)

/-- `GetItemFunction` (lines 1128-1267) and the call of the selected kernel. -/
def getItem (ix : Index) (valLen : Nat) (sv : Int) (itemSize fuel start len : Nat) (dst : Int) :
    Option (List (Int × Src)) :=
  if ix.signed || fixedSize itemSize then some (kernel ix valLen sv itemSize start len dst)
  else uintVarKernel ix valLen sv itemSize fuel start dst (dst + len * itemSize)

/-- `MBGet` (lines 1286-1447) and `GetItemCallback` (lines 1076-1123): the byte copies made.
In a pooled run block `b` starts at output byte `blockStart * strideValue` (lines 1105, 1113). -/
def mbget (ix : Index) (valLen : Nat) (sv : Int) (itemSize fuel : Nat) (par : Option (List Nat)) :
    Option (List (Int × Src)) :=
  let n := ix.vals.length
  match par with
  | none => getItem ix valLen sv itemSize fuel 0 n 0
  | some calls =>
    (calls.mapM fun b => getItem ix valLen sv itemSize fuel (chunk * b)
      (blockLen n chunk (blockLastGeneric n chunk) b) (((chunk * b : Nat) : Int) * sv)).map
      List.flatten

/-! ## `ReverseShuffle`, `src/Merge.cpp:1892-1983` -/

/-- `ReverseShuffleMT`, lines 1904-1921: writes of rows `[start, start+len)`; the stored row number
is cast to the key type of `w` bits. -/
def reverseBlock (w : Nat) (inp : List Int) (start len : Nat) : List (Nat × Int) :=
  (List.range' start len).filterMap fun (i : Nat) =>
    let index := (inp[i]?).getD 0
    if 0 ≤ index ∧ index < inp.length then some (index.toNat, (BitVec.ofInt w i).toInt) else none

/-- `ReverseShuffle`, lines 1934-1983. -/
def reverseShuffle (w : Nat) (inp : List Int) (par : Option (List Nat)) : List (Nat × Int) :=
  match par with
  | none => reverseBlock w inp 0 inp.length
  | some calls => (calls.map fun b => reverseBlock w inp (chunk * b)
      (blockLen inp.length chunk (blockLastGeneric inp.length chunk) b)).flatten

/-! ## `ReIndexGroups`, `src/Merge.cpp:1756-1890` -/

/-- One element of the loop of `ReIndexGroupsMT`, lines 1799-1812.  `none`: read outside `uikey`. -/
def reindexOne (w : Nat) (uikey : List Int) (start : Int) (index : Int) : Option Int :=
  let uKeyLength := if (uikey.length : Int) - start < 0 then 0 else (uikey.length : Int) - start
  if index ≤ 0 ∨ index > uKeyLength then some 0
  else
    let pos := start + (index - 1)
    if 0 ≤ pos then (uikey[pos.toNat]?).map fun u => (BitVec.ofInt w u).toInt else none

/-- `if (t > 0) start = cutoffs[t - 1]`, lines 1780-1786. -/
def cutStart (cut : List Int) (t : Nat) : Option Int := if t > 0 then cut[t - 1]? else some 0

/-- `ReIndexGroupsMT` for partition `t`, lines 1770-1815: in-place update of rows
`[i_cutoffs[t-1], i_cutoffs[t])`.  `none`: access outside one of the arrays. -/
def reindexPartition (w : Nat) (uikey ucut icut : List Int) (ikey : List Int) (t : Nat) :
    Option (List Int) := do
  let starti ← cutStart icut t
  let start ← cutStart ucut t
  let stopi ← icut[t]?
  (List.range (stopi - starti).toNat).foldlM (fun (key : List Int) (d : Nat) =>
    let j := starti + d
    if 0 ≤ j ∧ j < key.length then do
      let old ← key[j.toNat]?
      let v ← reindexOne w uikey start old
      pure (key.set j.toNat v)
    else none) ikey

/-- `ReIndexGroups`, lines 1824-1890: partitions in completion order. -/
def reindexGroups (w : Nat) (uikey ucut icut : List Int) (ikey : List Int) (calls : List Nat) :
    Option (List Int) :=
  calls.foldlM (reindexPartition w uikey ucut icut) ikey

end Riptide.Take
