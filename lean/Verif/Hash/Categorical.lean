import Verif.Hash.StrMember
import Verif.Hash.Size
import Verif.Hash.Bytes
/-! # Model of the entry `IsMemberCategorical`, `src/HashFunctions.cpp:48-205`

The positions of the elements of one array among the categories in another one: 1 for the first
category, 0 for an element that is no category, and a flag for such elements. -/
namespace Riptide.Hash
open Riptide.Work

/-- An array as the code sees it: numpy type number, item size, the item-wide cells of memory from the
data pointer on, the number of elements, and the distance of two elements in cells.  Arrays of one
dimension and strides that are multiples of the item size only. -/
structure CatArr where
  /-- numpy type number -/
  ty : Nat
  /-- bytes per item -/
  width : Nat
  /-- memory from the data pointer on -/
  cells : List (List UInt8)
  /-- number of elements -/
  rows : Nat
  /-- distance of elements -/
  step : Nat

/-- How the memory is read: as `rows` adjoining items from `PyArray_BYTES`, whatever the strides are,
`src/HashFunctions.cpp:134-138`; `none`: some of them are not in the array's memory. -/
def CatArr.read (a : CatArr) : Option (List (List UInt8)) :=
  if a.rows ≤ a.cells.length then some (a.cells.take a.rows) else none

/-- The type numbers after the two switches on Linux, `src/HashFunctions.cpp:76-111`: `long long` (9, 10)
counts as `long` (7, 8).  (`int` is the only type of 32 bits.) -/
def catTy (ty : Nat) : Nat := if ty = 9 then 7 else if ty = 10 then 8 else ty

/-- The slot of a number whose hash is `H`, `src/HashLinear.cpp:1281-1335`: the remainder in prime mode,
the low bits in mask mode.  `H` is the number itself (integers in prime mode), a shift and xor, a
cyclic redundancy check or `fasthash64_8`. -/
def slotOf (mode : Mode) (H : Nat → Nat) (size x : Nat) : Nat :=
  match mode with
  | .prime => H x % size
  | .mask => H x &&& (size - 1)

/-- One element: NaN is not looked up, `src/HashLinear.cpp:2492-2505`; all others as `catOne`,
593-624. -/
def catOneIf {K : Type} (ins : K → Bool) (hash : K → Nat) (eq : K → K → Bool) (tbl : Slots K Int) (x : K) :
    Option Int :=
  if ins x then catOne hash eq tbl x else some 0

/-- Build the table from the categories and look up all elements, in blocks when there are threads:
`IsMemberHashCategorical` (`src/HashLinear.cpp:4533-4608`, never in blocks) and
`IsMemberHashStringCategorical` (4764-4818).  `t` is the type `U` of the output.  `none`: a full table
(an exception, which ends the process in a worker) or an access outside the table. -/
def catRun {K : Type} (t : IT) (ins : K → Bool) (hash : K → Nat) (eq : K → K → Bool) (size : Nat)
    (a b : List K) (par : Option (List Nat)) : Option (List (Option Int) × Bool) :=
  match insertAll ins hash eq (fun i : Nat => t.wrap i) 0 b (fresh _ Int size) with
  | .error _ => none
  | .ok tbl =>
    ((elemWork (fun i => (a[i]?).bind (catOneIf ins hash eq tbl)) a.length par).bind
      (runWrites a.length)).map fun out =>
        (out, a.any fun x => decide (catOneIf ins hash eq tbl x = some 0))

/-- The output type of numbers, by the length of the *first* array, `src/HashFunctions.cpp:157-171`,
176-190. -/
def numOut (rows1 : Nat) : IT := if rows1 < 2100000000 then .i32 else .i64

/-- The output type of strings, by the number of categories, `src/HashLinear.cpp:5413-5447`. -/
def strOut (rows2 : Nat) : IT :=
  if rows2 < 100 then .i8 else if rows2 < 30000 then .i16 else if rows2 < 2000000000 then .i32 else .i64

/-- The code units of a unicode item: words of four bytes (a rest of the item is not looked at),
`src/HashLinear.cpp:271-283`. -/
def codeUnits : List UInt8 → List Nat
  | a :: b :: c :: d :: r => leWord [a, b, c, d] :: codeUnits r
  | _ => []

/-- The characters of an item: code units of a unicode array (19), otherwise bytes,
`src/HashFunctions.cpp:148-150`. -/
def catChars (ty : Nat) (s : List UInt8) : List Nat :=
  if ty = 19 then codeUnits s else s.map UInt8.toNat

/-- What the call returns. -/
inductive CatReply
  /-- ValueError -/
  | error
  /-- the flag and the positions; `none`: never written -/
  | cats (missed : Bool) (out : List (Option Int))
  deriving DecidableEq

/-- The reply made of what `catRun` returned. -/
def catReply (r : Option (List (Option Int) × Bool)) : Option CatReply :=
  r.map fun p => .cats p.2 p.1

/-- Integers: one case per item size; items of one or two bytes are their own slot,
`src/HashLinear.cpp:1371-1409`, 1616-1624.  Any other size has no case and leaves the output as it was
allocated, 4540-4608. -/
def catInts (H : Nat → Nat → Nat) (mode : Mode) (hint width : Nat) (a b : List Nat) : Option CatReply :=
  if width = 1 ∨ width = 2 then
    (allocSize mode (hintOr hint b.length) false).bind fun size =>
      catReply (catRun (numOut a.length) (fun _ => true) id (fun x y => decide (x = y)) size a b none)
  else if width = 4 ∨ width = 8 then
    (allocSize mode (hintOr hint b.length) false).bind fun size =>
      catReply (catRun (numOut a.length) (fun _ => true) (slotOf mode (H width) size)
        (fun x y => decide (x = y)) size a b none)
  else some (.cats false (List.replicate a.length none))

/-- Floats of four and eight bytes; `long double` does nothing, `src/HashLinear.cpp:2478-2572`, 4576-4605. -/
def catFloats (H : Nat → Nat → Nat) (mode : Mode) (hint width : Nat) (a b : List Nat) : Option CatReply :=
  if width = 4 ∨ width = 8 then
    (allocSize mode (hintOr hint b.length) true).bind fun size =>
      catReply (catRun (numOut a.length) (fun x => (if width = 4 then FT.f32 else FT.f64).eq x x)
        (slotOf mode (H (100 + width)) size) (if width = 4 then FT.f32 else FT.f64).eq size a b none)
  else some (.cats false (List.replicate a.length none))

/-- Strings, `src/HashLinear.cpp:5407-5450`, 4764-4818. -/
def catStrs (HS : List Nat → Nat) (mode : Mode) (hint : Nat) (a b : List (List Nat)) (par : Option (List Nat)) :
    Option CatReply :=
  (allocSize mode (hintOr hint b.length) false).bind fun size =>
    catReply (catRun (strOut b.length) (fun _ => true) (strHash HS size) strMatch size a b par)

/-- `IsMemberCategorical`, `src/HashFunctions.cpp:48-205`.  Every type from 18 on (strings, unicode,
void, and also dates 21, 22 and half floats 23) is compared as text; 11, 12 and 13 are floats; all others
are integers. -/
def isMemberCategorical (H : Nat → Nat → Nat) (HS : List Nat → Nat) (mode : Mode) (hint : Nat)
    (a b : CatArr) (par : Option (List Nat)) : Option CatReply :=
  if catTy a.ty ≠ catTy b.ty then some .error
  else if a.width = 0 then some .error
  else if catTy a.ty = 17 then some .error
  else
    a.read.bind fun x => b.read.bind fun y =>
      if 18 ≤ catTy a.ty then catStrs HS mode hint (x.map (catChars a.ty)) (y.map (catChars a.ty)) par
      else if catTy a.ty = 11 ∨ catTy a.ty = 12 ∨ catTy a.ty = 13 then
        catFloats H mode hint a.width (x.map leWord) (y.map leWord)
      else catInts H mode hint a.width (x.map leWord) (y.map leWord)

end Riptide.Hash
