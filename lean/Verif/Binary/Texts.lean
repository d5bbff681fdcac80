/-! # Model of the addition of texts, `src/BasicMath.cpp:3124-3386`, as it is reached from `BasicMathTwoInputs` with `ADD`, 3395-3403

Arrays lie without gaps, as `CheckInputsInternal` demands of the first dimension; gaps in others are those of `Verif/Binary/Layout.lean`.  Memory is a list of bytes. -/
namespace Riptide.Binary.Texts

/-- `SCALAR_MODE`, `src/CommonInc.h:384-390`, without `BOTH_SCALAR`, for which `PossiblyAddUnicode` adds nothing, 3346-3363. -/
inductive Mode where
  | none | first | second
  deriving DecidableEq, Repr

/-- The loop `while (pIn1 < pEnd1 && *pIn1) *pOut1++ = *pIn1++`, `src/BasicMath.cpp:3150-3157` and `3255-3262`, over the units of a memory: how many are left and where the next is; `none` is
a read outside of the memory. -/
def copyText (mem : List Nat) : Nat → Nat → Option (List Nat)
  | 0, _ => some []
  | n + 1, p => match mem[p]? with
    | none => none
    | some c => if c = 0 then some [] else (copyText mem n (p + 1)).map fun l => c :: l

/-- One item of the result, `src/BasicMath.cpp:3141-3163` and `3244-3271`: both texts, then zeros up to the size of the item. -/
def item (m1 m2 : List Nat) (w1 w2 p1 p2 : Nat) : Option (List Nat) :=
  match copyText m1 w1 p1, copyText m2 w2 p2 with
  | some a, some b => some (a ++ b ++ List.replicate (w1 + w2 - (a.length + b.length)) 0)
  | _, _ => none

/-- Where an item begins: a scalar has one for all, `src/BasicMath.cpp:3145-3148`, `3171-3174`, `3197-3200`. -/
def start (scalar : Bool) (w i : Nat) : Nat := if scalar then 0 else w * i

/-- The loop over the items, `ConcatTwoStrings`, `src/BasicMath.cpp:3124-3220`, and `ConcatTwoUnicodes`, 3225-3336: the items `i`, `i + 1`, …, of which there are `n`. -/
def concat (mode : Mode) (m1 m2 : List Nat) (w1 w2 : Nat) : Nat → Nat → Option (List (List Nat))
  | 0, _ => some []
  | n + 1, i =>
    match item m1 m2 w1 w2 (start (mode == .first) w1 i) (start (mode == .second) w2 i), concat mode m1 m2 w1 w2 n (i + 1) with
    | some r, some rs => some (r :: rs)
    | _, _ => none

/-- Four bytes as a character, little endian; what is less than four is not a character, `src/BasicMath.cpp:3228-3229`. -/
def chars : List Nat → List Nat
  | a :: b :: c :: d :: l => (a + 256 * b + 65536 * c + 16777216 * d) :: chars l
  | _ => []

/-- A character as four bytes, `PyUnicode_AsUCS4Copy`, `src/RipTide.cpp:1298`. -/
def bytesOf (c : Nat) : List Nat := [c % 256, c / 256 % 256, c / 65536 % 256, c / 16777216 % 256]

/-- An input: an array with its type (18 are bytes, 19 is text), the size of its items in bytes, its dimensions and its memory; bytes; a text; or a number. `src/BasicMath.cpp:2445-2545`. -/
inductive In where
  | arr (ty itemSize : Nat) (dims : List Nat) (mem : List Nat)
  | bytes (b : List Nat)
  | text (t : List Nat)
  | number

/-- What comes of it: a new array with its type, the size of its items in bytes, its dimensions and its items in units; left to the other calculations or to numpy; or undefined. -/
inductive Out where
  | new (ty itemSize : Nat) (dims : List Nat) (items : List (List Nat))
  | left
  | undefined
  deriving DecidableEq, Repr

/-- `CALC_ARRAY_LENGTH`, `src/RipTide.h:106-125`. -/
def length : List Nat → Nat
  | [] => 1
  | d :: ds => d * length ds

/-- A scalar as `ConvertScalarObject` gives it, `src/RipTide.cpp:1281-1300`: its bytes, whose number is the size of the item; none for a number, as there is no conversion of it to the types of
texts. -/
def scalar : In → Option (List Nat)
  | .bytes b => some b
  | .text t => some (t.flatMap bytesOf)
  | _ => none

/-- The type `PossiblyUpcast` gives for a scalar, `src/BasicMath.cpp:2212-2219`. -/
def upType : In → Option Nat
  | .bytes _ => some 18
  | .text _ => some 19
  | _ => none

/-- The call of one of the two functions, `src/BasicMath.cpp:3364-3382`: items of bytes, or of characters of four bytes. -/
def add (ty : Nat) (mode : Mode) (m1 m2 : List Nat) (s1 s2 len : Nat) : Out :=
  if ty = 18 then
    match concat mode m1 m2 s1 s2 len 0 with
    | some l => .new 18 (s1 + s2) [len] l
    | none => .undefined
  else if ty = 19 then
    match concat mode (chars m1) (chars m2) (s1 / 4) (s2 / 4) len 0 with
    | some l => .new 19 ((s1 / 4 + s2 / 4) * 4) [len] l
    | none => .undefined
  else .left

/-- An array and a scalar: without an output the type of the scalar must be that of the array, `src/BasicMath.cpp:2464-2497` and `2514-2544`. -/
def withScalar (hasOut : Bool) (ty : Nat) (s : In) (k : List Nat → Out) : Out :=
  if hasOut = false ∧ upType s ≠ some ty then .left
  else match scalar s with
    | some b => k b
    | none => .left

/-- The addition of two inputs of which one is an array of texts: `CheckInputsInternal`, `src/BasicMath.cpp:2442-2790`, and `PossiblyAddUnicode`, 3342-3386. Arrays of two types, or of two
lengths, are left (2700-2782: there is no conversion of a single text). -/
def addTexts (hasOut : Bool) : In → In → Out
  | .arr t1 s1 d1 m1, .arr t2 s2 d2 m2 => if length d1 = length d2 ∧ t1 = t2 then add t1 .none m1 m2 s1 s2 (length d1) else .left
  | .arr t1 s1 d1 m1, s => withScalar hasOut t1 s fun b => add t1 .second m1 b s1 b.length (length d1)
  | s, .arr t2 s2 d2 m2 => withScalar hasOut t2 s fun b => add t2 .first b m2 b.length s2 (length d2)
  | _, _ => .left

end Riptide.Binary.Texts
