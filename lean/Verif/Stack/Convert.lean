import Verif.Common.Num
import Verif.Sds.Codec
/-! # Conversion of the rows of a file in the memory of a stacked column, `src/SDSFile.cpp` -/
namespace Riptide.Stack
open Riptide.Sds

/-- How the items of a type are stored. -/
inductive Item where
  | bool
  | int (t : IT)
  | float (f : FT)
  deriving Repr, DecidableEq

/-- The types of numbers, `src/SDSFile.h:30-60`; `long double` (13) is left out. -/
def itemOf : Nat → Option Item
  | 0 => some .bool
  | 1 => some (.int .i8)
  | 2 => some (.int .u8)
  | 3 => some (.int .i16)
  | 4 => some (.int .u16)
  | 5 => some (.int .i32)
  | 6 => some (.int .u32)
  | 9 => some (.int .i64)
  | 10 => some (.int .u64)
  | 11 => some (.float .f32)
  | 12 => some (.float .f64)
  | _ => none

/-- `sizeof(T)`, which `ConvertInplace` uses, `src/SDSFile.cpp:4546`. -/
def Item.size : Item → Nat
  | .bool => 1
  | .int t => t.bits / 8
  | .float f => (1 + f.eb + f.mb) / 8

/-- The integer with these bits, two's complement; as the compiler reads a `T`, `src/SDSFile.cpp:4563`. -/
def ofBits (t : IT) (n : Nat) : Int := if t.signed ∧ 2 ^ (t.bits - 1) ≤ n then (n : Int) - 2 ^ t.bits else n

/-- The bits of an integer; as the compiler writes a `U`, `src/SDSFile.cpp:4566`. -/
def toBits (t : IT) (x : Int) : Nat := (x % 2 ^ t.bits).toNat

/-- `(double)x` for a `float` which is not NaN, `src/SDSFile.cpp:4614`: exact when the new format is large enough. -/
def widen (f g : FT) (b : Nat) : Nat :=
  let sign := if f.neg b then 2 ^ (g.eb + g.mb) else 0
  let n := f.scaledMag (f.mag b)
  if f.mag b = f.infMag then sign + g.infMag
  else if n = 0 then sign
  else sign + ((n.log2 + g.bias - f.unit) * 2 ^ g.mb + (n * 2 ^ g.mb / 2 ^ n.log2 - 2 ^ g.mb))

/-- One step of the loops of `ConvertInplace` and `ConvertInplaceFloat`, `src/SDSFile.cpp:4560-4578,4608-4622`: the invalid of the old type becomes
the invalid of the new one, where `False` is taken as the invalid `bool`, `src/SDSFile.cpp:108,135`.  A `bool` other than 0 and 1 and a
floating point number which does not fit an integer type are undefined behaviour. -/
def convItem (s d : Item) (n : Nat) : Option Nat :=
  match s, d with
  | .bool, .int t => if n > 1 then none else if n ≠ 0 then some (toBits t 1) else some (toBits t t.inv)
  | .bool, .float f => if n > 1 then none else if n ≠ 0 then some (f.ofInt 1) else some f.qnan
  | .int s, .int d => if ofBits s n ≠ s.inv then some (toBits d (d.wrap (ofBits s n))) else some (toBits d d.inv)
  | .int s, .float f => if ofBits s n ≠ s.inv then some (f.ofInt (ofBits s n)) else some f.qnan
  | .float f, .float g => if f.isNan n then some g.qnan else some (widen f g n)
  | .float f, .int t => if f.isNan n then some (toBits t t.inv) else (f.toInt t n).map (toBits t)
  | _, .bool => none

/-- A write to memory; outside of it is undefined behaviour. -/
def put {α : Type} (m : List α) (o : Nat) (l : List α) : Option (List α) :=
  if o + l.length ≤ m.length then some (m.take o ++ l ++ m.drop (o + l.length)) else none

/-- The loops of `ConvertInplace`, `ConvertInplaceFloat` and `ConvertInplaceString`, `src/SDSFile.cpp:4552-4578`: both pointers start at the last item
and go down.  `a` and `b` are the sizes of the items; the counter of the model is the number of items which are left. -/
def convertLoop {α : Type} (a b : Nat) (f : List α → Option (List α)) : Nat → List α → Option (List α)
  | 0, m => some m
  | i + 1, m =>
    if i * a + a ≤ m.length then
      match f ((m.drop (i * a)).take a) with
      | none => none
      | some l =>
        match put m (i * b) l with
        | none => none
        | some m => convertLoop a b f i m
    else none

/-- `ConvertInplace` and `ConvertInplaceFloat`, `src/SDSFile.cpp:4536-4625`: items may not shrink. -/
def convertInplace (s d : Item) (m : List Nat) (bytes : Nat) : Option (List Nat) :=
  let len := bytes / s.size
  if bytes > len * d.size then some m
  else convertLoop s.size d.size (fun l => (convItem s d (unle l)).map (le d.size)) len m

/-- `ConvertInplaceString`, `src/SDSFile.cpp:4629-4662`: a byte becomes a character of 32 bits. -/
def convertString (m : List Nat) (bytes : Nat) : Option (List Nat) :=
  convertLoop 1 4 (fun l => some (le 4 (unle l))) bytes m

/-- `ConvertDType`, `src/SDSFile.cpp:4907-4936`, for the (fixed up) types of the rows and of the column: without a function nothing is done.
`long double` is taken as a type without function here. -/
def convertDType (s d : Nat) (m : List Nat) (bytes : Nat) : Option (List Nat) :=
  if s = 18 ∧ d = 19 then convertString m bytes
  else
    match itemOf s, itemOf d with
    | some a, some b => if b = .bool then some m else convertInplace a b m bytes
    | _, _ => some m

/-- The loops of `StringFixup`, `src/SDSFile.cpp:5437-5470`: `n` characters are copied, both pointers (one past the next character) go down. -/
def copyBack {α : Type} : Nat → Nat → Nat → List α → Option (List α)
  | 0, _, _, m => some m
  | n + 1, src, dst, m =>
    match m[src - 1]? with
    | none => none
    | some c => if dst - 1 < m.length then copyBack n (src - 1) (dst - 1) (m.set (dst - 1) c) else none

/-- Zeros, back to front, `src/SDSFile.cpp:5443-5448,5479-5484`. -/
def zeroBack {α : Type} (z : α) : Nat → Nat → List α → Option (List α)
  | 0, _, m => some m
  | n + 1, dst, m => if dst - 1 < m.length then zeroBack z n (dst - 1) (m.set (dst - 1) z) else none

/-- The loop over the rows in `StringFixup`, last row first, for rows of `w` characters which become rows of `w + gap` characters. -/
def stretchLoop {α : Type} (z : α) (w gap : Nat) : Nat → List α → Option (List α)
  | 0, m => some m
  | i + 1, m =>
    match zeroBack z gap ((i + 1) * (w + gap)) m with
    | none => none
    | some m =>
      match copyBack w ((i + 1) * w) ((i + 1) * (w + gap) - gap) m with
      | none => none
      | some m => stretchLoop z w gap i m

/-- `StringFixup`, `src/SDSFile.cpp:5420-5495`.  `cols` is the product of the dimensions but the first, `small` and `wide` the numbers of characters
in the items of the rows and of the column (bytes for byte strings, 32-bit characters for the others: `m` is memory in these units). -/
def stringFixup {α : Type} (z : α) (m : List α) (rows cols small wide : Nat) : Option (List α) :=
  if wide * cols > small * cols ∧ rows > 0 then stretchLoop z (small * cols) (wide * cols - small * cols) rows m else some m

end Riptide.Stack
