/-! # Model of the choice of a common type and of the conversion of scalars, `src/RipTide.cpp` and `src/BasicMath.cpp`

Type numbers are numpy's: 0 bool, 1/2 int8/uint8, 3/4 int16/uint16, 5/6 int32/uint32, 7/8 long (int64/uint64 on Linux), 9/10 long
long (int64/uint64), 11 float32, 12 float64, 13 long double. -/
namespace Riptide.Binary

/-- Whether a type number is one of a signed type as the code tests it, `(t & 1) == 1`. -/
def odd (t : Nat) : Bool := t % 2 == 1

/-- The table's entry when the type `hi` is higher than `lo` and `lo` is not bool, `src/RipTide.cpp:1931-1975` and `1985-2040`
(`sizeof(long) == 8`). -/
def upHigh (hi lo : Nat) : Nat :=
  if hi = 10 then (if odd lo then 12 else 10)
  else if hi < 10 ∧ odd hi = false ∧ odd lo = true then
    if hi = 7 ∨ hi = 8 then hi + 3 else hi + 1
  else hi

/-- An entry of `gUpcastTable`, `src/RipTide.cpp:1909-2041`; both types of an entry are the same. -/
def upcast (i j : Nat) : Nat :=
  if i = 0 then j
  else if j = 0 then i
  else if j < i then upHigh i j
  else if i = j then j
  else upHigh j i

/-- An entry of `gUpcastTableComparison`, `src/RipTide.cpp:2043-2062`. -/
def upcastCmp (i j : Nat) : Nat × Nat :=
  if (i = 7 ∧ j = 8) ∨ (i = 8 ∧ j = 7) ∨ (i = 9 ∧ j = 10) ∨ (i = 10 ∧ j = 9) then (i, j) else (upcast i j, upcast i j)

/-- `GetUpcastType`, `src/RipTide.cpp:2236-2284`, for numeric types; `cmp` for the six comparisons. -/
def getUpcast (cmp : Bool) (i j : Nat) : Option (Nat × Nat) :=
  if i = j then some (i, i)
  else if i ≤ 13 ∧ j ≤ 13 then some (if cmp then upcastCmp i j else (upcast i j, upcast i j))
  else none

/-- "Remove the ambiguous type", `src/BasicMath.cpp:2365-2388`. -/
def unamb (t : Nat) : Nat := if t = 7 ∨ t = 8 then t + 2 else t

/-- `CheckUpcast`, `src/BasicMath.cpp:2359-2435`: the types of two arrays of the same length after the conversion. -/
def checkUpcast (cmp : Bool) (i j : Nat) : Option (Nat × Nat) :=
  if i = j then some (i, j)
  else if unamb i = unamb j then some (unamb i, unamb j)
  else getUpcast cmp (unamb i) (unamb j)

/-- `(val != 0) ? 64 - lzcnt_64(val) : 0`, `src/BasicMath.cpp:2152`. -/
def bitLen (v : Nat) : Nat := if v = 0 then 0 else Nat.log2 v + 1

/-- `g_signed_table`, `src/BasicMath.cpp:2061-2068`. -/
def signedTable (k : Nat) : Nat := if k ≤ 7 then 1 else if k ≤ 15 then 3 else if k ≤ 31 then 5 else 7

/-- `g_mixedsign_table`, `src/BasicMath.cpp:2071-2078`. -/
def mixedTable (k : Nat) : Nat :=
  if k ≤ 7 then 1 else if k = 8 then 2 else if k ≤ 15 then 3 else if k = 16 then 4 else if k ≤ 31 then 5 else if k = 32 then 6
  else if k ≤ 63 then 7 else 8

/-- `g_bothunsigned_table`, `src/BasicMath.cpp:2079-2087`. -/
def unsignedTable (k : Nat) : Nat := if k ≤ 8 then 2 else if k ≤ 16 then 4 else if k ≤ 32 then 6 else 8

/-- "Find the smallest dtype that can be used to represent the number", `src/BasicMath.cpp:2154-2181`. -/
def scalarDtype (dtype : Nat) (neg : Bool) (k : Nat) : Nat :=
  let uns : Bool := decide (0 < dtype) && !odd dtype
  if neg then (if uns then mixedTable k else signedTable k)
  else if uns then unsignedTable k else signedTable k

/-- Whether `PyLong_AsLongLongAndOverflow` succeeds, `src/BasicMath.cpp:2140`. -/
def fitsI64 (v : Int) : Bool := decide (-2 ^ 63 ≤ v) && decide (v < 2 ^ 63)

/-- `PossiblyUpcast`, `src/BasicMath.cpp:2125-2205`, for a Python `int` (not a `bool` with an array of bools): the type to which
the array is converted. -/
def possiblyUpcast (cmp : Bool) (dtype : Nat) (v : Int) : Nat :=
  if dtype ≤ 10 then
    if fitsI64 v then
      let k := if v < 0 then bitLen (-(v + 1)).toNat else bitLen v.toNat
      match getUpcast cmp dtype (scalarDtype dtype (decide (v < 0)) k) with
      | some (t, _) => t
      | none => dtype
    else if dtype = 8 ∨ dtype = 10 then dtype else 12
  else dtype

/-- Bits and sign of an integer type, `src/CommonInc.h:90-118`. -/
def tyBits : Nat → Nat × Bool
  | 0 => (8, true) | 1 => (8, true) | 2 => (8, false) | 3 => (16, true) | 4 => (16, false) | 5 => (32, true) | 6 => (32, false)
  | 7 => (64, true) | 8 => (64, false) | 9 => (64, true) | 10 => (64, false)
  | _ => (0, false)

/-- The number which the low bits of `v` stand for in an integer type: the casts of `src/RipTide.cpp:1186-1216`. -/
def wrapTo (t : Nat) (v : Int) : Int :=
  if (tyBits t).2 then Int.bmod v (2 ^ (tyBits t).1) else v % 2 ^ (tyBits t).1

/-- What the kernels take for the scalar: an integer, or a number which is rounded to float32 or float64. -/
inductive Scal where
  | int (v : Int)
  | flt (v : Int)
  deriving DecidableEq, Repr

/-- `ConvertScalarObject`, `src/RipTide.cpp:1144-1227`, for a Python `int`: `value` is -1 if it does not fit 64 bits, `value2` the
low 64 bits if it is not negative or too large (`none`: the type is not handled). -/
def convertScalar (v : Int) (t : Nat) : Option Scal :=
  let value : Int := if fitsI64 v then v else -1
  let value2 : Int := if 0 ≤ value ∨ 2 ^ 63 ≤ v then v % 2 ^ 64 else value % 2 ^ 64
  match t with
  | 0 | 1 | 3 | 5 | 7 | 9 => some (.int (wrapTo t value))
  | 2 | 4 | 6 | 8 | 10 => some (.int (wrapTo t value2))
  | 11 | 12 => some (.flt value)
  | _ => none

/-- The type and the scalar with which an array of the type `dtype` and a Python `int` are combined, `src/BasicMath.cpp:2446-2580`;
`out` if an output is given: the array is not converted then. -/
def withScalar (cmp out : Bool) (dtype : Nat) (v : Int) : Nat × Option Scal :=
  let t := if out then dtype else possiblyUpcast cmp dtype v
  (t, convertScalar v t)

/-- The second part of `ConvertSingleItemArray`, `src/RipTide.cpp:1031-1066`: the 64-bit value as a scalar of the type `t`. -/
def singleAs (value : Int) (t : Nat) : Option Scal :=
  match t with
  | 0 | 1 | 2 | 3 | 4 | 5 | 6 | 7 | 8 | 9 | 10 => some (.int (wrapTo t value))
  | 11 | 12 => some (.flt value)
  | _ => none

/-- `ConvertSingleItemArray`, `src/RipTide.cpp:974-1067`, for an integer type `i`: the only item `v` of an array becomes a scalar of
the type `t`. -/
def convertSingle (i : Nat) (v : Int) (t : Nat) : Option Scal :=
  singleAs (if i = 8 ∨ i = 10 then Int.bmod v (2 ^ 64) else v) t

end Riptide.Binary
