import Verif.Arrays.StackCall
import Verif.Unary.Math
import Verif.Unary.Strided
/-!
# `BasicMathUnaryOp` and `BasicMathOneInput` as calls, `src/UnaryOps.cpp:1592-2427` and `src/UnaryOps.cpp:2484-2853`

Left out: arrays of 2^63 bytes, outputs which overlap the input (these are C102), and the class of the new array. An output may be read-only: that is never looked at.
-/
namespace Riptide.Unary.Call
open Riptide.Nums Riptide.Binary Riptide.Work
open Riptide.Nums.Stack (loadItem)
open Riptide.GroupBy.Entry (CT ctOf)

/-- The functions of the C library, `src/CommonInc.h:198-210`. -/
inductive Fn where
  | sqrt | cbrt | log | log10 | exp | exp2
  deriving DecidableEq, Repr

/-- The operations which have a kernel, `src/CommonInc.h:183-251`. `neg` is `NEG` and `negative` is `NEGATIVE`. -/
inductive Op where
  | abs | neg | negative | sign | invert
  | round (o : RoundOp)
  | fn (g : Fn)
  | test (t : Test)
  deriving DecidableEq, Repr

/-- What is not modelled: the functions of the C library for floats and doubles (of which the instruction for roots is one, as both round correctly), and all operations
for `long double`; they take and give patterns. `src/UnaryOps.cpp:647-656` and `src/UnaryOps.cpp:1140-1200`. -/
structure Lib where
  fn : Fn → FT → Nat → Nat
  long : Op → Nat → Nat

/-- The cases of `GetUnaryOpFast` and `GetUnaryOpSlow`, `src/UnaryOps.cpp:1592-2380`, with the numbers of `src/CommonInc.h:184-251`; there is none for `FABS`, `POSITIVE`,
`RINT`, `LOG2`, `EXPM1`, `LOG1P`, `SQUARE`, `RECIPROCAL`, `NAN_TO_NUM` and `NAN_TO_ZERO`. -/
def opOf (k : Int) : Option Op :=
  if k = 201 then some .abs else if k = 202 then some .neg else if k = 204 then some .invert else if k = 205 then some (.round .floor)
  else if k = 206 then some (.round .ceil) else if k = 207 then some (.round .trunc) else if k = 208 then some (.round .round)
  else if k = 212 then some .negative else if k = 214 then some .sign else if k = 216 then some (.fn .exp) else if k = 217 then some (.fn .exp2)
  else if k = 301 then some (.fn .sqrt) else if k = 302 then some (.fn .log) else if k = 304 then some (.fn .log10) else if k = 308 then some (.fn .cbrt)
  else if k = 601 then some (.test .lnot) else if k = 603 then some (.test .isinf) else if k = 604 then some (.test .isnan)
  else if k = 605 then some (.test .isfinite) else if k = 606 then some (.test .isnormal) else if k = 607 then some (.test .isnotinf)
  else if k = 608 then some (.test .isnotnan) else if k = 609 then some (.test .isnotfinite) else if k = 610 then some (.test .isnotnormal)
  else if k = 611 then some (.test .isnanorzero) else if k = 612 then some (.test .signbit) else if k = 701 then some .invert
  else none

/-- `wantedOutType`: booleans for tests, `src/UnaryOps.cpp:1674` and so on; a float type for functions, `src/UnaryOps.cpp:2045-2053` and so on; else that of the input. -/
def outOf (op : Op) (ty : Nat) : Nat :=
  match op with
  | .test _ => 0
  | .fn _ => if ty = 11 then 11 else if ty = 13 then 13 else 12
  | _ => ty

/-- A kernel: whether registers may be used (`src/UnaryOps.cpp:672-673`), and the values it reads. Values are integers, or patterns of floats; booleans are bytes, which
for `ISNAN` and its like are `bool`; of texts only the first byte is read. -/
abbrev Kern := Bool → List Int → Option (List Int)

/-- A kernel for patterns, `src/UnaryOps.cpp:663-715`. -/
def viaNat (call : List Nat → Option (List Nat)) (xs : List Int) : Option (List Int) :=
  (call (xs.map Int.toNat)).map fun l => l.map fun (n : Nat) => (n : Int)

/-- A kernel for patterns with booleans as result, `src/UnaryOps.cpp:775-1138` and `src/UnaryOps.cpp:1185-1200`. -/
def viaBits (f : FT) (t : Test) (wide : Bool) (xs : List Int) : Option (List Int) :=
  (testCall (n := 1 + f.eb + f.mb) f (256 / (1 + f.eb + f.mb)) t wide (xs.map (BitVec.ofInt (1 + f.eb + f.mb)))).map
    fun l => l.map fun b => ((b.toNat : Nat) : Int)

/-- A boolean as it is stored, `src/UnaryOps.cpp:1196`. -/
def bit (b : Bool) : Int := if b then 1 else 0

/-- Tests of texts, `src/UnaryOps.cpp:1291-1315`, `src/UnaryOps.cpp:1342-1366` and `src/UnaryOps.cpp:1924-1998` for `ISINF` and its like, which are filled with one value. -/
def testText (t : Test) (x : Int) : Option Int :=
  match t with
  | .isnan | .isnotfinite | .isnanorzero => some (bit (decide (x = 0)))
  | .isnotnan | .isfinite => some (bit (!decide (x = 0)))
  | .isinf | .isnotnormal => some 0
  | .isnotinf | .isnormal => some 1
  | .lnot | .signbit => none

/-- One of several kernels by the type, as in the switches of `src/UnaryOps.cpp:1592-2380`; types above `long double` are looked for only if they are texts
(`src/UnaryOps.cpp:2417`). -/
def byType (ty : Nat) (i : IT → Option Kern) (f : FT → Option Kern) (long bool text : Option Kern) : Option Kern :=
  match ctOf ty with
  | some .bool => bool
  | some .i8 => i .i8 | some .i16 => i .i16 | some .i32 => i .i32 | some .i64 => i .i64
  | some .u8 => i .u8 | some .u16 => i .u16 | some .u32 => i .u32 | some .u64 => i .u64
  | some .f32 => f .f32 | some .f64 => f .f64
  | some .f80 => long
  | some .raw => none
  | none => if ty = 18 ∨ ty = 19 then text else none

/-- The kernel for `long double`, `src/UnaryOps.cpp:1144-1158`. -/
def longK (lib : Lib) (op : Op) : Kern := fun _ => viaNat (slowCall fun b => some (lib.long op b))

/-- `CheckMathOpOneInput`, `src/UnaryOps.cpp:2412-2427`, with `GetUnaryOpFast` (`src/UnaryOps.cpp:2228-2380`) and `GetUnaryOpSlow` (`src/UnaryOps.cpp:1592-2226`).
`none`: no kernel. -/
def kernel (lib : Lib) (op : Op) (ty : Nat) : Option Kern :=
  match op with
  | .abs => byType ty (fun t => if t.signed then some (absCallI t) else none) (fun f => some fun wide => viaNat (absCallF f wide)) (some (longK lib .abs)) none none
  | .neg => byType ty (fun t => if t.signed then some (negCallI t) else none) (fun f => some fun wide => viaNat (negCallF f wide)) (some (longK lib .neg)) none none
  | .negative => byType ty (fun t => if t.signed then some fun _ => slowCall (negI t) else none) (fun f => some fun _ => viaNat (slowCall fun b => some (flip f b)))
      (some (longK lib .negative)) none none
  | .sign => byType ty (fun t => if t.signed then some fun _ => slowCall (fun x => some (signI x)) else none)
      (fun f => some fun _ => viaNat (slowCall fun b => some (signF f b))) (some (longK lib .sign)) none none
  | .invert => byType ty (fun t => some fun _ => slowCall (fun x => some (invertI t x))) (fun _ => none) none
      (some fun _ => slowCall (fun x => some (invertBool (BitVec.ofInt 8 x)).toInt)) none
  | .round o => byType ty (fun _ => none) (fun f => some fun wide => viaNat (roundCall f o wide)) (some (longK lib (.round o))) none none
  | .fn g => byType ty (fun t => if (mathType t).isSome then some fun _ xs => (mathCall (lib.fn g .f64) t xs).map fun l => l.map fun (n : Nat) => (n : Int) else none)
      (fun f => if g = .cbrt then none else some fun _ => viaNat (slowCall fun b => some (lib.fn g f b)))
      (if g = .cbrt then none else some (longK lib (.fn g))) none none
  | .test t => byType ty (fun i => if t = .signbit then none else some fun _ => slowCall (fun x => (testI i t x).map bit)) (fun f => some (viaBits f t))
      (some (longK lib (.test t))) (if t = .signbit then none else some fun _ => slowCall (fun x => (testB (BitVec.ofInt 8 x) t).map bit))
      (if t = .signbit ∨ t = .lnot then none else some fun _ => slowCall (testText t))

/-- An item as the kernels read it, `src/UnaryOps.cpp:1154`, `src/UnaryOps.cpp:1175` and `src/UnaryOps.cpp:1311`. -/
def readItem (ty : Nat) (m : Nums.Mem) (o : Int) : Option Int := if ty ≤ 13 then loadItem ty m o else (m o).map fun b => ((b.toNat : Nat) : Int)

/-- The number of calls of the kernel in a walk which is not straight and the items of each, `src/UnaryOps.cpp:2650-2657` and `src/UnaryOps.cpp:2671-2679`. -/
def pieces (a : Lay) : Nat × Nat :=
  if (contig a).1 = 1 then (dim a 0, prod (a.dims.drop 1)) else (dim a (a.dims.length - 1), prod (a.dims.take 1))

/-- The kernel over the items in the order of the walk, `src/UnaryOps.cpp:2509-2541` and `src/UnaryOps.cpp:2614-2689`: in one call or one for each block of the threads,
or in several. `wide` is whether registers may be used by the call of that number. -/
def runKernel (call : Kern) (wide : Nat → Bool) (a : Lay) (par : Option (List Nat)) (xs : List Int) : Option (List (Option Int)) :=
  if (contig a).1 = 0 then (unaryWork (call (wide 0)) xs par).bind (runWrites xs.length)
  else ((List.range (pieces a).1).mapM fun (j : Nat) => call (wide j) ((xs.drop (j * (pieces a).2)).take (pieces a).2)).map fun l => l.flatten.map some

/-- What comes of a call: an exception, None (it is left to numpy), None although an exception is set, undefined behaviour, a new array with what is
written at which byte of it, or what is written to the output. -/
inductive Res where
  | error
  | leave
  | pending
  | undefined
  | fresh (type : Nat) (lay : Lay) (writes : List (Int × Option Int))
  | into (writes : List (Int × Option Int))
  deriving DecidableEq

/-- The items of the array in the order of the walk, `src/UnaryOps.cpp:2614-2689`. -/
def readAll (a : Arr) (m : Nums.Mem) (l : List (Int × Int)) : Option (List Int) := l.mapM fun p => readItem a.type m p.1

/-- The size of an item of a new array of that type (`AllocateNumpyArray`, `src/UnaryOps.cpp:2506-2507`). -/
def itemOf (ty : Nat) : Nat :=
  match ctOf ty with
  | some T => T.size
  | none => 0

/-- `ProcessOneInput` without an output, `src/UnaryOps.cpp:2484-2703`. `room` tells whether there is memory. -/
def fresh (lib : Lib) (room : Bool) (wide : Nat → Bool) (par : Option (List Nat)) (a : Arr) (m : Nums.Mem) (k : Int) : Res :=
  match opOf k with
  | none => .leave
  | some op =>
    match kernel lib op a.type with
    | none => .leave
    | some call =>
      if room = false then .pending
      else match planNew a.lay (itemOf (outOf op a.type)) with
        | none => .leave
        | some l =>
          match (readAll a m l).bind (runKernel call wide a.lay par) with
          | none => .undefined
          | some ys => .fresh (outOf op a.type) (newOut a.lay (itemOf (outOf op a.type))) ((l.map Prod.snd).zip ys)

/-- `ProcessOneInput` with an output, `src/UnaryOps.cpp:2548-2703`: the types have to be the same number, and the lengths the same. With a distance of zero every kernel is at
its end at once (`src/UnaryOps.cpp:1149-1152`). -/
def into (lib : Lib) (wide : Nat → Bool) (par : Option (List Nat)) (a : Arr) (m : Nums.Mem) (out : Arr) (k : Int) : Res :=
  match opOf k with
  | none => .leave
  | some op =>
    match kernel lib op a.type with
    | none => .leave
    | some call =>
      if out.type ≠ outOf op a.type then .leave
      else match planGiven a.lay out.lay with
        | none => .leave
        | some l =>
          if (contig out.lay).2 = 0 then .into []
          else match (readAll a m l).bind (runKernel call wide a.lay par) with
            | none => .undefined
            | some ys => .into ((l.map Prod.snd).zip ys)

/-- A Python object: an array or not. -/
inductive Obj where
  | array (a : Arr) (m : Nums.Mem)
  | other

/-- The first argument of `BasicMathOneInput`. -/
inductive Given where
  | bare (x : Obj)
  | tuple (l : List Obj)

/-- The numbers which a `long long` holds, `src/UnaryOps.cpp:2714`. -/
def fits (x : Int) : Bool := decide (-9223372036854775808 ≤ x ∧ x ≤ 9223372036854775807)

/-- With the objects, `src/UnaryOps.cpp:2719-2763`; the number of the operation is cut to 32 bits. -/
def oneOf (lib : Lib) (room : Bool) (wide : Nat → Bool) (par : Option (List Nat)) (l : List Obj) (k : Int) : Res :=
  match l with
  | [.array a m] => fresh lib room wide par a m (IT.i32.wrap k)
  | [.array a m, .array out _] => into lib wide par a m out (IT.i32.wrap k)
  | _ => .error

/-- `BasicMathOneInput`, `src/UnaryOps.cpp:2708-2764`. `ty` is the third argument, which is not used. -/
def oneInput (lib : Lib) (room : Bool) (wide : Nat → Bool) (par : Option (List Nat)) (g : Given) (k ty : Int) : Res :=
  if fits k && fits ty then
    match g with
    | .bare x => oneOf lib room wide par [x] k
    | .tuple l => oneOf lib room wide par l k
  else .error

/-- `BasicMathUnaryOp`, `src/UnaryOps.cpp:2792-2853`, with the positional arguments: the array and the number, if it is one; of `dtype` is passed whether it is a type,
and of `out` the object. Neither is used. A number which is no `long long` sets an exception and counts as -1. -/
def unaryOp (lib : Lib) (room : Bool) (wide : Nat → Bool) (par : Option (List Nat)) (dtype : Option Bool) (out : Option Obj) (args : Option (Obj × Option Int)) : Res :=
  if dtype = some false then .error
  else match out, args with
    | some .other, _ => .error
    | _, some (.array a m, some k) => if fits k then fresh lib room wide par a m (IT.i32.wrap k) else .pending
    | _, _ => .error

end Riptide.Unary.Call
