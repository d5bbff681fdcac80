import Verif.Common.Num
/-! # Model of `AsAnyArray` for lists, `src/Array.cpp`

Only lists without a `dtype` are modelled; everything else is passed on to numpy (`src/Array.cpp:383-384`). -/
namespace Riptide.AsArray

/-- A Python object, as far as `src/Array.cpp:304-370` looks at it.  `cls` distinguishes types with the same base (`ob_type`); a bool has
no subtypes.  Floats are their bits, texts are their characters. -/
inductive Obj
  | bool (b : Bool)
  | int (cls : Nat) (n : Int)
  | float (cls : Nat) (bits : Nat)
  | bytes (cls : Nat) (l : List Nat)
  | str (cls : Nat) (l : List Nat)
  | other (cls : Nat)
  deriving DecidableEq, Repr

/-- `ob_type`, `src/Array.cpp:316`. -/
def Obj.type : Obj → Nat × Nat
  | .bool _ => (0, 0)
  | .int c _ => (1, c)
  | .float c _ => (2, c)
  | .bytes c _ => (3, c)
  | .str c _ => (4, c)
  | .other c => (5, c)

/-- The loop which looks for another type from the end, `src/Array.cpp:318-327`: true if it arrives at 0. -/
def sameLoop (ty : Nat × Nat) (l : List Obj) : Nat → Bool
  | 0 => true
  | n + 1 => match l[n + 1]? with
    | some o => if ty = o.type then sameLoop ty l n else false
    | none => false

/-- `Py_SIZE` of a text, `src/Array.cpp:18`. -/
def Obj.size : Obj → Nat
  | .bytes _ l => l.length
  | .str _ l => l.length
  | _ => 0

/-- `FindMaxSize`, `src/Array.cpp:12-23`. -/
def findMax (l : List Obj) : Nat := l.foldl (fun m (o : Obj) => if m < o.size then o.size else m) 0

/-- A new array, or the list is left to numpy.  `texts size mem` are items of `size` characters each. -/
inductive Arr
  | numpy
  | bools (l : List Bool)
  | ints (bits : Nat) (l : List Int)
  | floats (l : List Nat)
  | bytes (size : Nat) (mem : List Nat)
  | strs (size : Nat) (mem : List Nat)
  deriving DecidableEq, Repr

/-- `ConvertBool`, `src/Array.cpp:103-115`. -/
def toBool : Obj → Bool
  | .bool b => b
  | _ => false

/-- `PyLong_AsLongLongAndOverflow`, `src/Array.cpp:96`: `-1` if the number is too large. -/
def toI64 : Obj → Int
  | .int _ n => if IT.i64.InRange n then n else -1
  | .bool b => if b then 1 else 0
  | _ => -1

/-- An item passes the test of `ConvertInt32`, `src/Array.cpp:71-78`. -/
def fits32 : Obj → Bool
  | .int _ n => decide (IT.i64.InRange n ∧ IT.i32.InRange n)
  | _ => true

/-- `PyFloat_AsDouble`, `src/Array.cpp:37`. -/
def toF64 : Obj → Nat
  | .float _ b => b
  | _ => 0

/-- The characters of a text. -/
def Obj.chars : Obj → List Nat
  | .bytes _ l => l
  | .str _ l => l
  | _ => []

/-- Characters written one after the other from a place on (`*pDest++ = …`), `src/Array.cpp:136-144`. -/
def writeAt (mem : List Nat) (p : Nat) : List Nat → List Nat
  | [] => mem
  | c :: cs => writeAt (mem.set p c) (p + 1) cs

/-- The loop of `ConvertBytes`, `src/Array.cpp:126-145`, from item `i` on. -/
def bytesLoop (max : Nat) : Nat → List Obj → List Nat → List Nat
  | _, [], mem => mem
  | i, o :: os, mem =>
    bytesLoop max (i + 1) os (writeAt mem (i * max) (o.chars ++ List.replicate (max - o.chars.length) 0))

/-- `ConvertBytes`, `src/Array.cpp:119-147`, in memory which holds anything before.  Without characters the items get one byte, and only
the very first of them is set (`AllocateNumpyArray`, `src/RipTide.cpp:667-695`). -/
def convertBytes (junk : Nat → Nat) (l : List Obj) : Arr :=
  let max := findMax l
  if max = 0 then .bytes 1 (((List.range l.length).map junk).set 0 0)
  else .bytes max (bytesLoop max 0 l ((List.range (l.length * max)).map junk))

/-- What is written for one text, `src/Array.cpp:165-169`: only one zero behind it. -/
def strPut (max : Nat) (o : Obj) : List Nat := if o.chars.length < max then o.chars ++ [0] else o.chars

/-- The loop of `ConvertUnicode`, `src/Array.cpp:158-170`, from item `i` on. -/
def strLoop (max : Nat) : Nat → List Obj → List Nat → List Nat
  | _, [], mem => mem
  | i, o :: os, mem =>
    strLoop max (i + 1) os (writeAt mem (i * max) (strPut max o))

/-- `ConvertUnicode`, `src/Array.cpp:151-172`.  Without characters the items have one byte, which is no character. -/
def convertStr (junk : Nat → Nat) (l : List Obj) : Arr :=
  let max := findMax l
  .strs max (strLoop max 0 l ((List.range (l.length * max)).map junk))

/-- `AsAnyArray` of a list without `dtype`, `src/Array.cpp:304-370`; `long4` says whether a `long` has four bytes. -/
def asArray (long4 : Bool) (junk : Nat → Nat) (l : List Obj) : Arr :=
  match l with
  | [] => .floats []
  | o :: _ =>
    if sameLoop o.type l (l.length - 1) then
      match o with
      | .bool _ => .bools (l.map toBool)
      | .int _ _ => if long4 && l.all fits32 then .ints 32 (l.map toI64) else .ints 64 (l.map toI64)
      | .float _ _ => .floats (l.map toF64)
      | .bytes _ _ => convertBytes junk l
      | .str _ _ => convertStr junk l
      | .other _ => .numpy
    else .numpy

/-! ### Scalars -/

/-- The end of `AsAnyArray`, `src/Array.cpp:384-403`, for what numpy made of the object: an array without dimensions becomes one with
one item, copied byte by byte; others are returned as they are. -/
def finishArray (dims : List Nat) (bytes : List Nat) (item : Nat) : List Nat × List Nat :=
  if dims = [] then ([1], bytes.take item) else (dims, bytes)

end Riptide.AsArray
