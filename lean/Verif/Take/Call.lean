import Verif.Take.Props
import Verif.Mask.Call
import Verif.Bins.Call
import Verif.Binary.Upcast
/-!
# The call `MBGet` (`mbget`) on arrays of any shape and with any default value, `src/Merge.cpp:1286-1460`

The kernels are those of `Take/Model.lean`. The call finds the lengths and the strides of both arrays, chooses the kernel, allocates the result, and
makes the item which stands for an index out of range: `GetDefaultForType`, `src/RipTide.cpp:2120-2177`, and `ConvertScalarObject`,
`src/RipTide.cpp:1084-1330`. Left out: running out of memory, arguments which are no arrays (`PyArg_ParseTuple` refuses them), what is printed, and the
byte order of the index (its numbers are those which the machine reads).
-/
namespace Riptide.Take.Call
open Riptide.Binary Riptide.Work Riptide.Take Riptide.Mask.Call

/-- The low `n` bytes of a number, as they lie in memory: what an assignment through `_mm256_set1_epi8` and the others leaves in the first `n` bytes
of the scalar, `src/RipTide.cpp:1108-1134`. -/
def le (n : Nat) (v : Int) : List Byte := (List.range n).map fun (k : Nat) => BitVec.ofInt 8 (v / 256 ^ k)

/-- The size of the types of numbers, `src/CommonInc.h:90-118`. -/
def size : Nat → Nat
  | 0 | 1 | 2 => 1
  | 3 | 4 => 2
  | 5 | 6 | 11 => 4
  | 7 | 8 | 9 | 10 | 12 => 8
  | 13 => 16
  | _ => 0

/-- The integer types, by their number in numpy; the booleans are bytes with a sign (`src/RipTide.cpp:1192-1195`). -/
def intOf : Nat → Option IT
  | 0 | 1 => some .i8
  | 2 => some .u8
  | 3 => some .i16
  | 4 => some .u16
  | 5 => some .i32
  | 6 => some .u32
  | 7 | 9 => some .i64
  | 8 | 10 => some .u64
  | _ => none

/-- `GetDefaultForType`, `src/RipTide.cpp:2099-2177`: the bytes to which it points. `none`: it throws, and nothing catches the exception. -/
def typeDefault : Nat → Option (List Byte)
  | 0 => some [0#8]
  | 1 => some (le 1 0x80)
  | 2 => some (le 1 0xFF)
  | 3 => some (le 2 0x8000)
  | 4 => some (le 2 0xFFFF)
  | 5 => some (le 4 0x80000000)
  | 6 => some (le 4 0xFFFFFFFF)
  | 7 | 9 => some (le 8 0x8000000000000000)
  | 8 | 10 => some (le 8 0xFFFFFFFFFFFFFFFF)
  | 11 => some (le 4 FT.f32.qnan)
  | 12 => some (le 8 FT.f64.qnan)
  | 13 => some (le 16 0x7FFFC000000000000000)
  | 18 | 19 => some (List.replicate 1024 0#8)
  | _ => none

/-- The third argument of the call, as `ConvertScalarObject` tells them apart (`src/RipTide.cpp:1089-1327`). -/
inductive Obj where
  /-- `None`, or no third argument. -/
  | none
  /-- A bool of Python or numpy. -/
  | bool (b : Bool)
  /-- An `int` of Python. -/
  | int (v : Int)
  /-- An integer of numpy. -/
  | npInt (v : Int)
  /-- A `float` of Python or a floating point number of numpy, as a float64. -/
  | float (b : Nat)
  /-- `bytes` or `str`. -/
  | text
  /-- Anything else: numpy's timedelta64 (lines 1182-1187), datetime64, complex numbers, lists, ... -/
  | other
  deriving DecidableEq, Repr

/-- What `ConvertScalarObject` does with `tempDefault`, `src/RipTide.cpp:1084-1330`. -/
inductive Conv where
  /-- It returns false. -/
  | no
  /-- It returns true and has stored these bytes, over and over. -/
  | bytes (l : List Byte)
  /-- It returns true and has stored nothing: the text is passed on through `ppDataIn`. -/
  | unset
  /-- A float is cast to an integer type which does not hold it. -/
  | undefined
  deriving DecidableEq, Repr

/-- The switch over the type for an integer, `src/RipTide.cpp:1190-1230`, and for a bool, `1108-1139`. -/
def putInt (t : Nat) (value value2 : Int) : Conv :=
  match t with
  | 0 | 1 | 3 | 5 | 7 | 9 => .bytes (le (size t) value)
  | 2 | 4 | 6 | 8 | 10 => .bytes (le (size t) value2)
  | 11 => .bytes (le 4 (FT.f32.ofInt value))
  | 12 => .bytes (le 8 (FT.f64.ofInt value))
  | _ => .no

/-- The switch over the type for a float, `src/RipTide.cpp:1236-1280`. For a long double two float64 are stored (line 1274). -/
def putFloat (t : Nat) (b : Nat) : Conv :=
  match intOf t with
  | some i =>
    match FT.f64.toInt i b with
    | some v => .bytes (le (size t) v)
    | none => .undefined
  | none =>
    if t = 11 then .bytes (le 4 (Bins.Call.convF .f64 .f32 b))
    else if t = 12 then .bytes (le 8 b)
    else if t = 13 then .bytes (le 8 b ++ le 8 b)
    else .no

/-- `ConvertScalarObject`, `src/RipTide.cpp:1084-1330`. For a Python `int`, `value` is -1 if it does not fit 64 bits (lines 1150-1166). -/
def convert (t : Nat) : Obj → Conv
  | .none => .no
  | .bool b => putInt t (if b then 1 else 0) (if b then 1 else 0)
  | .int v =>
    let value : Int := if fitsI64 v then v else -1
    putInt t value (if 0 ≤ value ∨ 2 ^ 63 ≤ v then v % 2 ^ 64 else value)
  | .npInt v => putInt t (Int.bmod v (2 ^ 64)) v
  | .float b => putFloat t b
  | .text => .unset
  | .other => .no

/-- The default value with which the kernel is called, `src/Merge.cpp:1385-1405`: byte by byte, `none` for bytes which must not be read (beyond the
object, or never stored). -/
inductive Fill where
  /-- `GetDefaultForType` throws. -/
  | crash
  | undefined
  | bytes (f : Nat → Option Byte)

/-- `src/Merge.cpp:1385-1405`: the default of the type is looked up even if another one is given. -/
def fill (t : Nat) (d : Obj) : Fill :=
  match typeDefault t with
  | none => .crash
  | some l =>
    match convert t d with
    | .no => .bytes fun k => l[k]?
    | .bytes s => .bytes fun k => s[k]?
    | .unset => .bytes fun _ => none
    | .undefined => .undefined

/-- Why the call fails. -/
inductive Err where
  /-- "Dont know how to convert these types ... using index dtype", `src/Merge.cpp:1317-1322`. -/
  | indexType
  /-- "Dont know how to handle multidimensional array", `src/Merge.cpp:1340-1349`. -/
  | valueLayout
  /-- The same for the index, `src/Merge.cpp:1350-1359`. -/
  | indexLayout
  /-- "Dont know how to convert these types ... itemsize", `src/Merge.cpp:1458-1460`: there is no kernel. -/
  | noKernel
  /-- "GetItem ran out of memory", `src/Merge.cpp:1454`. -/
  | memory
  /-- The errors of `BooleanIndexInternal`, `src/Merge.cpp:1324-1328`. -/
  | mask (e : Mask.Call.Err)
  deriving DecidableEq, Repr

/-- What comes of the call, `src/Merge.cpp:1286-1460`: the bytes of the result, `none` where nothing was stored. -/
inductive Answer where
  | error (e : Err)
  | ok (bytes : List (Option Byte))
  /-- An exception which nothing catches: the process ends. -/
  | crash
  /-- Memory is read or written which is not the call's, the program loops, or a cast is undefined. -/
  | undefined
  deriving DecidableEq, Repr

/-- The index: its type (numpy's number), shape and strides, and what is read at a byte, as a number or (for booleans) as a byte. -/
structure Ix where
  type : Nat
  lay : Lay
  num : Int → Int
  flag : Mask.Mem

/-- The cases of `GetItemFunction`, `src/Merge.cpp:1129-1275`: sign and width of the index. -/
def indexOf : Nat → Option (Bool × Nat)
  | 1 => some (true, 8)
  | 2 => some (false, 8)
  | 3 => some (true, 16)
  | 4 => some (false, 16)
  | 5 => some (true, 32)
  | 6 => some (false, 32)
  | 7 | 9 => some (true, 64)
  | 8 | 10 => some (false, 64)
  | _ => none

/-- The types told apart by `AllocateLikeResize`, `src/RipTide.cpp:855-868`. -/
def kindOf (t : Nat) : Kind := if t = 17 then .object else if t = 18 ∨ t = 19 then .text else if t = 20 then .record else .plain

/-- The numbers of the index which the kernel reads, `src/Merge.cpp:768-1052`. -/
def numbers (x : Ix) : List Int := (List.range x.lay.len).map fun (i : Nat) => x.num ((i : Int) * step x.lay)

/-- A copy from a byte of the default which must not be read. -/
def badDefault (f : Nat → Option Byte) (c : Int × Src) : Bool :=
  match c.2 with
  | .dflt k => (f k).isNone
  | .val _ => false

/-- The copies are made, `src/Merge.cpp:1407-1450`. -/
def run (vals : Int → Byte) (f : Nat → Option Byte) (len item n : Nat) (sv : Int) (copies : List (Int × Src)) : Answer :=
  if copies.any (badDefault f) then .undefined
  else match execBytes vals (fun k => (f k).getD 0#8) len sv item n copies with
    | some l => .ok l
    | none => .undefined

/-- The kernels, `src/Merge.cpp:1407-1450`. The loop of `GetItemUIntVariable` ends within `n + 1` rounds or never. -/
def gather (a : Lay) (vals : Int → Byte) (x : Ix) (sw : Bool × Nat) (f : Nat → Option Byte) (par : Option (List Nat)) : Answer :=
  match mbget ⟨sw.1, sw.2, numbers x⟩ a.len (step a) a.item (x.lay.len + 1) par with
  | none => .undefined
  | some copies => run vals f a.len a.item x.lay.len (step a) copies

/-- An index which is a mask, `src/Merge.cpp:1324-1328`: the default value is not looked at. -/
def byMask (t : Nat) (a : Lay) (vals : Int → Byte) (x : Ix) (par1 par2 : Option (List Nat)) : Answer :=
  match indexCall (kindOf t) a (fun o => (List.range a.item).map fun (k : Nat) => vals (o + k)) ⟨true, x.lay⟩ x.flag par1 par2 with
  | .error e => .error (.mask e)
  | .undefined => .undefined
  | .ok l => .ok (l.flatMap fun r => match r with
    | some b => b.map some
    | none => List.replicate a.item none)

/-- `MBGet`, `src/Merge.cpp:1286-1460`: values of the type `t` are taken by the index `x`; `d` stands for those out of range. `par1` and `par2` are
the runs of the workers; the second is that of the second pass over a mask. -/
def getCall (t : Nat) (a : Lay) (vals : Int → Byte) (x : Ix) (d : Obj) (par1 par2 : Option (List Nat)) : Answer :=
  if 13 < x.type then .error .indexType
  else if x.type = 0 then byMask t a vals x par1 par2
  else if refuses a then .error .valueLayout
  else if refuses x.lay then .error .indexLayout
  else if x.lay.len = 0 then
    (if (outItem (kindOf t) a.item).isNone then .error .memory else .ok [])
  else match indexOf x.type with
    | none => .error .noKernel
    | some sw =>
      if (outItem (kindOf t) a.item).isNone then .error .memory
      else match fill t d with
        | .crash => .crash
        | .undefined => .undefined
        | .bytes f => gather a vals x sw f par1

end Riptide.Take.Call
