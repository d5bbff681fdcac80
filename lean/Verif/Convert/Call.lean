import Verif.Convert.Model
import Verif.GroupBy.Entry
import Verif.Unary.Strided
/-! # Model of the calls `ConvertSafe` and `ConvertUnsafe`, `src/Convert.cpp:508-836` and `996-1347` -/
namespace Riptide.Convert.Call
open Riptide.Work Riptide.Binary Riptide.Unary Riptide.GroupBy.Entry

/-- The functions which convert a run of items, with the types of their template, `src/Convert.cpp:200-505`. -/
inductive Conv where
  | copy (size : Nat)
  | toBool (T : CT)
  | safe (T U : CT)
  | safeFloat (T U : CT)
  | cast (T U : CT)
  | f2d
  | d2f
  deriving DecidableEq, Repr

/-- `GetConversionFunctionSafeCopy`, `src/Convert.cpp:722-750`. -/
def copyKern (ty : Nat) : Option Conv := (ctOf ty).map fun T => .copy T.size

/-- `GetConversionStep2Safe` with its variants for floats, `src/Convert.cpp:543-578` and `616-720`. -/
def step2Safe (T U : CT) : Conv :=
  if U = .bool then .toBool T
  else match T with
    | .f32 => if U = .f64 then .f2d else .safeFloat .f32 U
    | .f64 => if U = .f32 then .d2f else .safeFloat .f64 U
    | .f80 => .safeFloat .f80 U
    | _ => .safe T U

/-- `GetConversionFunctionSafe`, `src/Convert.cpp:752-796`: booleans are read as `int8_t`. -/
def safeKern (ti to : Nat) : Option Conv :=
  if ti = to then copyKern ti
  else match inOf ti, ctOf to with
    | some T, some U => some (step2Safe T U)
    | _, _ => none

/-- `GetConversionFunctionUnsafe`, `src/Convert.cpp:798-836`, with `GetConversionStep2Unsafe`, lines 580-614. -/
def unsafeKern (ti to : Nat) : Option Conv :=
  if ti = to then copyKern ti
  else match inOf ti, ctOf to with
    | some T, some U => some (if U = .bool then .toBool T else .cast T U)
    | _, _ => none

/-- Arithmetic which is not modelled further: casts between two float types and from and to `long double` (`none`: undefined),
`std::isfinite` and `!= 0` of a `long double` and its NaN, `src/RipTide.cpp:2113`. Items are bit patterns for floats. -/
structure Wide where
  conv : CT → CT → Int → Option Int
  finite : Int → Bool
  zero : Int → Bool
  nan : Int

/-- The integer types among the template arguments of `src/Convert.cpp:543-720`; `bool` is not one of them, it is only a result. -/
def intOf : CT → Option IT
  | .i8 => some .i8 | .i16 => some .i16 | .i32 => some .i32 | .i64 => some .i64
  | .u8 => some .u8 | .u16 => some .u16 | .u32 => some .u32 | .u64 => some .u64
  | _ => none

/-- `float` and `double` among the template arguments of `src/Convert.cpp:543-720`. -/
def fltOf : CT → Option FT
  | .f32 => some .f32 | .f64 => some .f64
  | _ => none

/-- The cast `(U)x` for `x` of type `T`, `src/Convert.cpp:272`, `311` and `420`. `none`: undefined. -/
def castItem (w : Wide) (T U : CT) (x : Int) : Option Int :=
  match intOf T, intOf U with
  | some _, some u => some (u.wrap x)
  | some _, none => match fltOf U with
    | some f => some (f.ofInt x)
    | none => w.conv T U x
  | none, some u => match fltOf T with
    | some f => f.toInt u x.toNat
    | none => w.conv T U x
  | none, none => w.conv T U x

/-- What `pBadOutput1` and `pBadInput1` point to, `GetDefaultForType`, `src/RipTide.cpp:2098-2176`: for an input of type `bool`,
`GetInvalid`, `src/Convert.cpp:1029-1038`, takes that of `int8_t`, which is the type of the template. -/
def badOf (w : Wide) (T : CT) : Int :=
  match intOf T with
  | some t => t.inv
  | none => match fltOf T with
    | some f => f.qnan
    | none => if T = .f80 then w.nan else 0

/-- `std::isfinite`, `src/Convert.cpp:418`. -/
def finiteOf (w : Wide) (T : CT) (x : Int) : Bool :=
  match fltOf T with
  | some f => f.isFinite x.toNat
  | none => w.finite x

/-- `x == 0` for the test `x != 0`, `src/Convert.cpp:450`. -/
def zeroOf (w : Wide) (T : CT) (x : Int) : Bool :=
  match fltOf T with
  | some f => f.eq x.toNat 0
  | none => if T = .f80 then w.zero x else decide (x = 0)

/-- One item, `src/Convert.cpp:200-465`. In `OneStubConvertSafeFloat` the second half of the test compares with NaN and is always true;
`OneStubConvertSafe` is only used for integers. -/
def convItem (w : Wide) : Conv → Int → Option Int
  | .copy _, x => some x
  | .toBool T, x => some (if zeroOf w T x then 0 else 1)
  | .safe T U, x => if x ≠ badOf w T then castItem w T U x else some (badOf w U)
  | .safeFloat T U, x => if finiteOf w T x then castItem w T U x else some (badOf w U)
  | .cast T U, x => castItem w T U x
  | .f2d, x => w.conv .f32 .f64 x
  | .d2f, x => w.conv .f64 .f32 x

/-- An input array, `src/Convert.cpp:1050-1053`: the shape, the number of the type, and the item at a distance in bytes from `PyArray_BYTES` (`none`
outside of the array's memory). -/
structure Arr where
  lay : Lay
  ty : Nat
  mem : Int → Option Int

/-- What comes back. `undef`: undefined behaviour; `numpy`: `PyArray_FROM_OT`, `src/Convert.cpp:1161`; `done`: the type, the shape and the items
in the order of memory, `none` where nothing was written. -/
inductive Reply where
  | err
  | undef
  | numpy (ty : Nat)
  | done (ty : Nat) (lay : Lay) (items : List (Option Int))
  deriving DecidableEq, Repr

/-- `AllocateNumpyArray(ndim, dims, numpyOutType, 0, PyArray_IS_F_CONTIGUOUS(inArr1))`, `src/Convert.cpp:1082` and `1289`, `src/RipTide.cpp:597-705`:
without dimensions one dimension of one item. For empty arrays numpy's distances are other ones than these. -/
def outLay (a : Lay) (item : Nat) : Lay :=
  if a.dims = [] then ⟨[1], [(item : Int)], item⟩ else allocate a.dims item a.fContig

/-- One call of the function over everything, or one for each block of the threads (`ConvertThreadCallback`, `src/Convert.cpp:996-1024`), in the
order in which they happen: distances of the items read and written. -/
def threaded (len : Nat) (si so : Int) (par : Option (List Nat)) : List (Int × Int) :=
  ((elemWork (fun (k : Nat) => some ((k : Int) * si, (k : Int) * so)) len par).getD []).map Prod.snd

/-- The walk of `ConvertSafeInternal`, `src/Convert.cpp:1105-1198`. `none`: left to numpy. -/
def safeWalk (a out : Lay) (par : Option (List Nat)) : Option (List (Int × Int)) :=
  if (contig a).1 = 0 ∧ (contig out).1 = 0 then some (threaded a.len (contig a).2 (contig out).2 par)
  else if (contig a).1 = 1 ∧ (contig out).1 = 0 then some (nested (dim a 0) (prod (a.dims.drop 1)) (str a 0) (contig a).2 (contig out).2)
  else if (contig a).1 = -1 ∧ (contig out).1 = 0 then
    some (nested (dim a (a.dims.length - 1)) (prod (a.dims.take 1)) (str a (a.dims.length - 1)) (contig a).2 (contig out).2)
  else none

/-- One item of the walk, `src/Convert.cpp:262-337`: what is read, and the slot of the output of `item` bytes each which is written. -/
def stepItem (conv : Int → Option Int) (mem : Int → Option Int) (item : Nat) (p : Int × Int) : Option (Nat × Int) :=
  match mem p.1 with
  | none => none
  | some x => match conv x with
    | none => none
    | some y => if 0 ≤ p.2 ∧ p.2 % item = 0 then some ((p.2 / item).toNat, y) else none

/-- The items of the walk, one after the other, written to an output of `n` items. `none`: undefined. -/
def runWalk (conv : Int → Option Int) (mem : Int → Option Int) (n item : Nat) (l : List (Int × Int)) : Option (List (Option Int)) :=
  (l.mapM (stepItem conv mem item)).bind (runWrites n)

/-- The end of a call: the array with what was written to it. -/
def finish (ty : Nat) (lay : Lay) : Option (List (Option Int)) → Reply
  | none => .undef
  | some items => .done ty lay items

/-- The number of the type is cut to 32 bits, `src/Convert.cpp:1052` and `1254`. -/
def cut (n : Int) : Int := IT.i32.wrap n

/-- The size of an item of the output, `PyArray_ITEMSIZE`. -/
def sizeOf (ty : Nat) : Nat := ((ctOf ty).map CT.size).getD 0

/-- `ConvertSafeInternal`, `src/Convert.cpp:1050-1200`. -/
def safeCall (w : Wide) (par : Option (List Nat)) (a : Arr) (out : Int) : Reply :=
  if cut out < 0 ∨ 13 < a.ty ∨ 13 < cut out then .err
  else match safeKern a.ty (cut out).toNat with
    | none => .err
    | some c =>
      let o := outLay a.lay (sizeOf (cut out).toNat)
      match safeWalk a.lay o par with
      | none => .numpy (cut out).toNat
      | some l => finish (cut out).toNat o (runWalk (convItem w c) a.mem o.len o.item l)

/-- `ConvertUnsafeInternal`, `src/Convert.cpp:1252-1328`. Without dimensions `PyArray_STRIDE(inArr1, 0)` reads through a null pointer. -/
def unsafeCall (w : Wide) (par : Option (List Nat)) (a : Arr) (out : Int) : Reply :=
  if cut out < 0 ∨ 13 < a.ty ∨ 13 < cut out then .err
  else match unsafeKern a.ty (cut out).toNat with
    | none => .err
    | some c =>
      let o := outLay a.lay (sizeOf (cut out).toNat)
      if a.lay.dims = [] then .undef
      else finish (cut out).toNat o
        (runWalk (convItem w c) a.mem o.len o.item (threaded a.lay.len (str a.lay 0) (str o 0) par))

/-- An argument of Python, `src/Convert.cpp:1203-1240`: an array, an `int`, something else which can be taken for an integer (a `bool`, a numpy
integer), or anything else. -/
inductive Arg where
  | arr (a : Arr)
  | int (n : Int)
  | index (n : Int)
  | other

/-- `PyLong_AsLongLong`, `src/Convert.cpp:1214`: -1 (with an error set) if it does not fit. -/
def longLong (n : Int) : Int := if -2 ^ 63 ≤ n ∧ n < 2 ^ 63 then n else -1

/-- `ConvertSafe`, `src/Convert.cpp:1203-1240`: what follows the second argument is not looked at. -/
def convertSafe (w : Wide) (par : Option (List Nat)) : List Arg → Reply
  | .arr a :: .int n :: _ => safeCall w par a (longLong n)
  | _ => .err

/-- The second argument of `ConvertUnsafe`, "L" of `PyArg_ParseTuple`, `src/Convert.cpp:1342`. -/
def parseL : Arg → Option Int
  | .int n | .index n => if -2 ^ 63 ≤ n ∧ n < 2 ^ 63 then some n else none
  | _ => none

/-- `ConvertUnsafe`, `src/Convert.cpp:1337-1347`. -/
def convertUnsafe (w : Wide) (par : Option (List Nat)) : List Arg → Reply
  | [.arr a, n] => match parseL n with
    | some n => unsafeCall w par a n
    | none => .err
  | _ => .err

end Riptide.Convert.Call
