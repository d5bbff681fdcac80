import Verif.Binary.Layout
import Verif.Work.Elem
/-! # Model of `Where` and of the addition of strings, `src/BasicMath.cpp:3123-3974` -/
namespace Riptide.Binary
open Riptide.Work

/-- One of the two choices of `Where`, `src/BasicMath.cpp:3889-3894`: an array at an address with the size of its items, or a
scalar (`pDataIn1` pointing to its text, or to the 32 bytes which `ConvertScalarObject` filled with it). -/
inductive Choice where
  | arr (p item : Nat)
  | scal (bytes : List (BitVec 8))

/-- "If we have scalar strings, we must make sure the length is the same", `src/BasicMath.cpp:3899-3920`: the text is copied to
`numpyItemSize` zeros; `none` if it is longer (it is written past the end).  For other types the scalar is the register. -/
def padScalar (str : Bool) (size : Nat) (l : List (BitVec 8)) : Option (List (BitVec 8)) :=
  if str then
    if l.length ≤ size then some (l ++ List.replicate (size - l.length) 0) else none
  else if size ≤ l.length then some (l.take size) else none

/-- Reading the row `i` of an array of `n` items with the size of the output's items; `none` outside of the array. -/
def readRow (m : Mem) (n size p item i : Nat) : Option (List (BitVec 8)) :=
  if (i + 1) * size ≤ n * item then some (readMem m (p + i * size) size) else none

/-- `pInput1[i + delta * test]`, `src/BasicMath.cpp:3620-3631`: `delta = pInput2 - pInput1` is a number of items, undefined if the
distance is not a multiple of their size. -/
def deltaRow (m : Mem) (n size p1 item1 p2 item2 : Nat) (c : Bool) (i : Nat) : Option (List (BitVec 8)) :=
  if ((p2 : Int) - p1) % size = 0 then
    let delta : Int := ((p2 : Int) - p1) / size
    let test : Int := if c then 0 else 1
    if (i + 1) * size ≤ n * (if c then item1 else item2) then
      some (readMem m ((p1 : Int) + (i + delta * test) * size).toNat size)
    else none
  else none

/-- A row of `WhereCallback<T>`, `src/BasicMath.cpp:3573-3666` (strides of 1; the other branch is never taken as strided inputs are
rejected by `CheckInputs`).  The condition is read as `bool`: any byte but 0 counts as true here. -/
def whereTyped (m : Mem) (n size : Nat) (c : Bool) (i : Nat) : Choice → Choice → Option (List (BitVec 8))
  | .arr p1 item1, .arr p2 item2 => deltaRow m n size p1 item1 p2 item2 c i
  | .scal s, .arr p item => if c then some s else readRow m n size p item i
  | .arr p item, .scal s => if c then readRow m n size p item i else some s
  | .scal s, .scal t => some (if c then s else t)

/-- A row of `WhereCallbackString`, `src/BasicMath.cpp:3741-3822`. -/
def whereString (m : Mem) (n size : Nat) (c : Bool) (i : Nat) : Choice → Choice → Option (List (BitVec 8))
  | .arr p1 item1, .arr p2 item2 => if c then readRow m n size p1 item1 i else readRow m n size p2 item2 i
  | .scal s, .arr p item => if c then some s else readRow m n size p item i
  | .arr p item, .scal s => if c then readRow m n size p item i else some s
  | .scal s, .scal t => some (if c then s else t)

/-- The dispatch on the item size, `src/BasicMath.cpp:3946-3963`; the condition is read from `pc` on, byte after byte. -/
def whereRow (m : Mem) (n size pc : Nat) (c1 c2 : Choice) (i : Nat) : Option (List (BitVec 8)) :=
  let c := decide (m (pc + i) ≠ 0)
  match size with
  | 1 => whereTyped m n size c i c1 c2
  | 2 => whereTyped m n size c i c1 c2
  | 4 => whereTyped m n size c i c1 c2
  | 8 => whereTyped m n size c i c1 c2
  | _ => whereString m n size c i c1 c2

/-- The scalar in the form in which the rows use it. -/
def padChoice (str : Bool) (size : Nat) : Choice → Option Choice
  | .arr p item => some (.arr p item)
  | .scal s => (padScalar str size s).map .scal

/-- `Where`, `src/BasicMath.cpp:3825-3974`, after the checks: `str` if the output type is a string or a unicode type. -/
def whereCall (m : Mem) (n size pc : Nat) (str : Bool) (c1 c2 : Choice) (par : Option (List Nat)) :
    Option (List (Nat × List (BitVec 8))) := do
  let a ← padChoice str size c1
  let b ← padChoice str size c2
  elemWork (whereRow m n size pc a b) n par

/-! ## Addition of strings -/

/-- `while (pIn1 < pEnd1 && *pIn1) *pOut1++ = *pIn1++;`, `src/BasicMath.cpp:3150-3153`: the characters copied. -/
def copyText {w : Nat} : List (BitVec w) → List (BitVec w)
  | [] => []
  | c :: r => if c = 0 then [] else c :: copyText r

/-- One row, `src/BasicMath.cpp:3143-3162` (`3243-3270` for unicode): both texts, then zeros to the end. -/
def concatRow {w : Nat} (x y : List (BitVec w)) : List (BitVec w) :=
  let t := copyText x ++ copyText y
  t ++ List.replicate (x.length + y.length - t.length) 0

/-- The row `i` of `k` characters; `none` outside of the array. -/
def strRow {w : Nat} (a : List (BitVec w)) (k i : Nat) : Option (List (BitVec w)) :=
  if k * (i + 1) ≤ a.length then some ((a.drop (k * i)).take k) else none

/-- Which of the two is a scalar, `SCALAR_MODE`, `src/CommonInc.h:384-390`; both scalars are not added here. -/
inductive CMode where
  | none
  | first
  | second
  deriving DecidableEq

/-- The row of the first input, `src/BasicMath.cpp:3146`, `3171` and `3196`. -/
def firstRow : CMode → Nat → Nat
  | .first, _ => 0
  | _, i => i

/-- The row of the second input, `src/BasicMath.cpp:3148`, `3173` and `3198`. -/
def secondRow : CMode → Nat → Nat
  | .second, _ => 0
  | _, i => i

/-- One turn of the loop of `ConcatTwoStrings`, `src/BasicMath.cpp:3143-3162`. -/
def concatAt {w : Nat} (mode : CMode) (a b : List (BitVec w)) (k1 k2 i : Nat) : Option (List (BitVec w)) :=
  match strRow a k1 (firstRow mode i), strRow b k2 (secondRow mode i) with
  | some x, some y => some (concatRow x y)
  | _, _ => none

/-- `ConcatTwoStrings`, `src/BasicMath.cpp:3123-3216`, and `ConcatTwoUnicodes`, `3221-3340`: `k1` and `k2` are the sizes in
characters. -/
def concat {w : Nat} (mode : CMode) (a b : List (BitVec w)) (k1 k2 n : Nat) : Option (List (List (BitVec w))) :=
  (List.range n).mapM (concatAt mode a b k1 k2)

/-- The bytes of a Python `str` as `PyUnicode_AsUCS4Copy` gives them, `src/RipTide.cpp:1298`: four for a character. -/
def ucs4 (l : List (BitVec 32)) : List (BitVec 8) :=
  l.flatMap fun c => [c.extractLsb' 0 8, c.extractLsb' 8 8, c.extractLsb' 16 8, c.extractLsb' 24 8]

end Riptide.Binary
