import Verif.Hash.Member
import Verif.Hash.Bytes
/-! # Model of `MultiKeyIsMember32`: membership of rows of several arrays

Every array is a list of bytes; a row of the key is the concatenation of the items of the arrays in that row.  Failed allocations are left out. -/
namespace Riptide.Hash
open Riptide.Work

/-- What is kept of an array in `ArrayInfo` (`BuildArrayInfo`, `src/MultiKey.cpp:206-291`): number of items, size of an item, whether it is a boolean array,
and the bytes.  Arrays have one dimension and are contiguous, others are refused or copied. -/
structure KeyCol where
  rows : Nat
  width : Nat
  isBool : Bool
  data : List UInt8
  deriving DecidableEq

/-- The two ways to pass the keys, `src/MultiKey.cpp:362-410`: a tuple of arrays, or a tuple with one list of arrays in it. -/
inductive KeyArg
  | tuple (cols : List KeyCol)
  | list (cols : List KeyCol)
  deriving DecidableEq

/-- The arrays passed. -/
def KeyArg.cols : KeyArg → List KeyCol
  | .tuple cs => cs
  | .list cs => cs

/-- Item `i` of an array of items of `width` bytes; `none`: outside of it. -/
def cellAt (width : Nat) (data : List UInt8) (i : Nat) : Option (List UInt8) :=
  if i * width + width ≤ data.length then some ((data.drop (i * width)).take width) else none

/-- `RotateArrays`, `src/MultiKey.cpp:13-90`: row after row, the item of every array.  (The cases for items of 1, 2, 4 and 8 bytes and `memcpy` copy the same
bytes.) -/
def rotate (cols : List KeyCol) (rows : Nat) : Option (List UInt8) :=
  ((List.range rows).mapM fun i => (cols.mapM fun c => cellAt c.width c.data i).map List.flatten).map List.flatten

/-- The prepared key: rows, bytes in a row, all bytes. -/
structure Prep where
  rows : Nat
  width : Nat
  bytes : List UInt8

/-- Whether the third entry of the tuple is accepted: it is taken for a filter, although it is a key here, and has to be a boolean array with as many items as
there are rows, `src/MultiKey.cpp:376-400, 425-436`. -/
def thirdOk (rows : Nat) : KeyArg → Bool
  | .list _ => true
  | .tuple cs =>
    match cs[2]? with
    | none => true
    | some c => c.isBool && decide (c.rows = rows)

/-- `CMultiKeyPrepare`, `src/MultiKey.cpp:346-466`.  `none`: `aInfo[0]` is read although there is no array.  `some none`: an error is set and `totalRows` is 0.
A single array is used as it is. -/
def prepare (arg : KeyArg) : Option (Option Prep) :=
  match arg.cols with
  | [] => none
  | c :: cs =>
    if cs.all (fun d => decide (d.rows = c.rows)) && thirdOk c.rows arg then
      let width := ((c :: cs).map (·.width)).sum
      if cs = [] then some (some ⟨c.rows, width, c.data⟩)
      else (rotate (c :: cs) c.rows).map fun b => some ⟨c.rows, width, b⟩
    else some none

/-- What is returned. -/
inductive MkReply
  /-- an exception -/
  | error
  /-- `None`, without an exception -/
  | pyNone
  /-- the boolean and the index of every row -/
  | arrays (out : List (Option (Bool × Int)))
  deriving DecidableEq

/-- The slot of a row: any hash `H` of its bytes (`crchash64`, `src/HashLinear.cpp:133-168`), `src/HashLinear.cpp:692-693`, 1233-1234. -/
def mkHash (H : List UInt8 → Nat) (size : Nat) (k : List UInt8) : Nat := H k &&& (size - 1)

/-- Two rows agree: `MEMCMP_NEW`, `src/HashLinear.cpp:1246-1248`, and the copy of it in `MakeHashLocationMK`, 706-741. -/
def rowEq (a b : List UInt8) : Bool := !memcmpNew a b

/-- `IsMemberHashMK`, `src/HashLinear.cpp:5507-5547`, with `MakeHashLocationMK`, 666-778, `IsMemberMK`, 1205-1275, and `IMMKThreadCallback`, 5473-5500.  `t` is the
type of the row numbers.  The table of the code holds the number of a row, and compares with the bytes of that row; here the bytes are kept with it.
The exception of a full table is caught by the caller (`src/MultiKey.cpp:1682-1688`) if it is thrown by the calling thread, and ends the process (`none`) otherwise. -/
def isMemberMk (t : IT) (H : List UInt8 → Nat) (size : Nat) (a b : List (List UInt8)) (par : Option (List Nat)) : Option MkReply :=
  match insertAll (fun _ => true) (mkHash H size) rowEq (fun i => t.wrap i) 0 b (fresh _ Int size) with
  | .error .full => some .pyNone
  | .error .oob => none
  | .ok tbl =>
    match elemWork (fun i => (a[i]?).bind (memberOne (fun _ => true) (mkHash H size) rowEq t.inv tbl)) a.length par with
    | none => if par = none then some .pyNone else none
    | some ws => (runWrites a.length ws).map .arrays

/-- The rows of a prepared key. -/
def Prep.keys (p : Prep) : Option (List (List UInt8)) := (List.range p.rows).mapM (cellAt p.width p.bytes)

/-- `MultiKeyIsMember32`, `src/MultiKey.cpp:1596-1690`, with `IsMemberHashMKPre`, `src/HashLinear.cpp:5553-5600`: the type of the row numbers is chosen by the longer
one of the keys. -/
def multiKeyIsMember (H : List UInt8 → Nat) (A B : KeyArg) (hint : Nat) (par : Option (List Nat)) : Option MkReply :=
  match prepare A, prepare B with
  | some p?, some q? =>
    match p?, q? with
    | some p, some q =>
      if p.rows = 0 ∨ q.rows = 0 then some .error
      else if p.width ≠ q.width then some .error
      else
        match p.keys, q.keys, allocSize .mask (hintOr hint q.rows) false with
        | some a, some b, some size => isMemberMk (indexType (if q.rows > p.rows then q.rows else p.rows)) H size a b par
        | _, _, _ => none
    | _, _ => some .error
  | _, _ => none

end Riptide.Hash
