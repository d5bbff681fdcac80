import Verif.Date.Strptime
import Verif.Binary.Layout
/-!
# The calls `TimeStringToNanos`, `DateStringToNanos`, `DateTimeStringToNanos` and `StrptimeToNanos` on arrays, `src/DateTime.cpp:457-791`

The parsers of one item are those of `Date/Model.lean` and `Date/Strptime.lean`. The calls look at the type of the array, at its number of items and
at the size of an item, and read its memory item after item from the first one on. Bytes are given relative to the first item of the array; `none`
is memory which does not belong to the array. Left out: running out of memory, arguments which are no arrays and formats which are no bytes
(`PyArg_ParseTuple` refuses them), and the alignment of the items. An item is taken to be read as a whole. The machine is little endian.
-/
namespace Riptide.Date.Call
open Riptide.Binary

/-- The types told apart in `src/DateTime.cpp:495`, `512`: `NPY_STRING`, `NPY_UNICODE` and all others. -/
inductive Kind where
  | bytes
  | unicode
  | other
  deriving DecidableEq, Repr

/-- An array as the calls see it (`src/DateTime.cpp:490-509`). `swapped`: its characters are not in the order of bytes of the machine, which no call looks at. -/
structure Arr where
  kind : Kind
  lay : Lay
  swapped : Bool
  deriving DecidableEq, Repr

/-- The memory around the first item, `PyArray_BYTES(inArr)` of `src/DateTime.cpp:510`. -/
abbrev Mem := Int → Option (BitVec 8)

/-- The size of a character: `char` or `uint32_t`, `src/DateTime.cpp:514` and `523`. -/
def width : Kind → Nat
  | .unicode => 4
  | _ => 1

/-- `*pStart` as a `char`, which is signed, or as a `uint32_t`: `src/DateTime.cpp:514-515` and `523-524`. -/
def charAt (k : Kind) (m : Mem) (o : Int) : Option Int :=
  match k with
  | .unicode => do
    let a ← m o
    let b ← m (o + 1)
    let c ← m (o + 2)
    let d ← m (o + 3)
    pure ((a.toNat + 256 * b.toNat + 65536 * c.toNat + 16777216 * d.toNat : Nat) : Int)
  | _ => (m o).map BitVec.toInt

/-- `itemSize` or `itemSize / 4` characters, `src/DateTime.cpp:508`, `515` and `524`. -/
def itemChars (a : Arr) : Nat := a.lay.item / width a.kind

/-- The items as the parsers see them: `&pString[i * itemSize]`, `src/DateTime.cpp:195-196`, `320-321`, `366-367` and `677`. Strides and the order
of bytes are not looked at. -/
def items (a : Arr) (m : Mem) : Option (List (List Int)) :=
  (List.range a.lay.len).mapM fun (i : Nat) => (List.range (itemChars a)).mapM fun (j : Nat) =>
    charAt a.kind m (((i * itemChars a + j) * width a.kind : Nat) : Int)

/-- The first error with the text of its item, `src/DateTime.cpp:18-34` and `74-78`. -/
abbrev Warning := Option (List Int × String × Nat)

/-- The loop over the items, `src/DateTime.cpp:193-251`, with the text in which the first error was found. -/
def walk (parse : List Int → Err → Option (Int × Err)) : List (List Int) → Warning → Option (List Int × Warning)
  | [], e => some ([], e)
  | x :: xs, e => (parse x (e.map Prod.snd)).bind fun r =>
    (walk parse xs (if e.isSome then e else r.2.map fun y => (x, y))).map fun q => (r.1 :: q.1, q.2)

/-- The three calls with a parser of their own, `src/DateTime.cpp:480-534`, `543-597` and `606-660`. -/
inductive Which where
  | time
  | date
  | dateTime
  deriving DecidableEq, Repr

/-- The parser of a call: `src/DateTime.cpp:515`, `578` and `641`. -/
def Which.parse : Which → List Int → Err → Option (Int × Err)
  | .time => parseTime
  | .date => parseDate
  | .dateTime => parseDateTime

/-- What comes of a call, `src/DateTime.cpp:480-534`. -/
inductive Result where
  /-- "first argument must be a bytes or unicode string array", lines 495-501. -/
  | typeError
  /-- An array of `int64_t` of the given shape, and a warning. -/
  | ok (dims : List Nat) (values : List Int) (warning : Warning)
  /-- The warning was made an error by a filter of Python: its return value is ignored in `parsing_error_to_py_warning`, lines 459-473, so
  that an array is returned with an exception set, for which Python raises `SystemError`. -/
  | systemError
  /-- Memory is read which does not belong to the array, or `isspace` has a value it is not defined for. -/
  | undefined
  deriving DecidableEq, Repr

/-- The end of a call, `src/DateTime.cpp:517-529`: the first error becomes a warning. `strict`: a filter makes warnings errors. -/
def finish (strict : Bool) (a : Arr) (r : Option (List Int × Warning)) : Result :=
  match r with
  | none => .undefined
  | some (v, w) => if w.isSome && strict then .systemError else .ok [a.lay.len] v w

/-- `TimeStringToNanos`, `DateStringToNanos` and `DateTimeStringToNanos`, `src/DateTime.cpp:480-534`, `543-597` and `606-660`. -/
def call (w : Which) (strict : Bool) (a : Arr) (m : Mem) : Result :=
  if a.kind = .other then .typeError
  else finish strict a ((items a m).bind fun l => walk w.parse l none)

/-- `StrptimeToNanos`, `src/DateTime.cpp:742-791`: the format is taken up to its first zero byte, its length (`strTimeFormatSize`) is not used. -/
def strptimeCall (fmt : List Int) (a : Arr) (m : Mem) : Result :=
  if a.kind = .other then .typeError
  else finish false a ((items a m).bind fun l =>
    (l.mapM (parseStrptime (fmt.takeWhile fun c => decide (c ≠ 0)))).map fun v => (v, none))

end Riptide.Date.Call
