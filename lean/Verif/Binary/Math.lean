import Verif.Binary.Compare
/-! # Model of the arithmetic and bitwise loops and their choice, `src/BasicMath.cpp` -/
namespace Riptide.Binary
open Riptide.Work

/-- IEEE arithmetic on bit patterns of `n` bits; left open. -/
structure Fl where
  add : (n : Nat) → BitVec n → BitVec n → BitVec n
  sub : (n : Nat) → BitVec n → BitVec n → BitVec n
  mul : (n : Nat) → BitVec n → BitVec n → BitVec n
  div : (n : Nat) → BitVec n → BitVec n → BitVec n

/-- The number a value of type `t` stands for. -/
def num (t : IT) (x : BitVec t.bits) : Int := if t.signed then x.toInt else (x.toNat : Int)

/-- An arithmetic expression of two `T`, converted to `T`: operands smaller than `int` are promoted to it; the result
of a signed type must fit (`none`: undefined behaviour), and unsigned types and the conversion wrap. -/
def cArith (t : IT) (r : Int) : Option (BitVec t.bits) :=
  let p := if t.bits < 32 then IT.i32 else t
  if p.signed ∧ ¬ p.InRange r then none else some (BitVec.ofInt t.bits r)

/-- The functions applied to a single row, `src/BasicMath.cpp:163-459`. -/
inductive SOp where
  | add | sub | mul | min | max | and | or | xor | andnot
  | subBool | floordiv | mod | modBool | subdates
  | fadd | fsub | fmul | fdiv | fmin | fmax
  deriving DecidableEq, Repr

/-- `FloorDivOp`, `src/BasicMath.cpp:289-304`. -/
def floorDivOp (t : IT) (x y : BitVec t.bits) : Option (BitVec t.bits) :=
  let a := num t x
  let b := num t y
  if b ≠ 0 then
    if decide (a < 0) = decide (b < 0) then cArith t (a.tdiv b)
    else
      (cArith t (a.tdiv b)).bind fun q =>
      (cArith t (a.tmod b)).bind fun r =>
        if num t r ≠ 0 then some (BitVec.ofInt t.bits (num t q - 1)) else some q
  else some 0

/-- `ModOp` for integers, `src/BasicMath.cpp:337-341`: division by zero is undefined, and so is the remainder if the
quotient does not fit. -/
def modOp (t : IT) (x y : BitVec t.bits) : Option (BitVec t.bits) :=
  if num t y = 0 then none
  else (cArith t ((num t x).tdiv (num t y))).bind fun _ => cArith t ((num t x).tmod (num t y))

/-- `SubDatesOp`, `src/BasicMath.cpp:267-287`. -/
def subDatesOp (t : IT) (x y : BitVec t.bits) : Option (BitVec t.bits) :=
  if num t x = 0 ∨ num t y = 0 ∨ num t x = t.lo ∨ num t y = t.lo then some 0 else cArith t (num t x - num t y)

/-- The float format with `n` bits. -/
def floatOf (n : Nat) : FT := if n = 32 then .f32 else .f64

/-- One row. -/
def SOp.run (fl : Fl) (o : SOp) (t : IT) (x y : BitVec t.bits) : Option (BitVec t.bits) :=
  match o with
  | .add => cArith t (num t x + num t y)
  | .sub => cArith t (num t x - num t y)
  | .mul => cArith t (num t x * num t y)
  | .min => some (if num t y < num t x then y else x)
  | .max => some (if num t x < num t y then y else x)
  | .and => some (x &&& y)
  | .or => some (x ||| y)
  | .xor => some (x ^^^ y)
  | .andnot => some (~~~x &&& y)
  | .subBool => some (if x ≠ 0 ∧ y = 0 then 1 else 0)
  | .modBool => some (if decide (x ≠ 0) ≠ decide (y ≠ 0) then 1 else 0)
  | .floordiv => floorDivOp t x y
  | .mod => modOp t x y
  | .subdates => subDatesOp t x y
  | .fadd => some (fl.add t.bits x y)
  | .fsub => some (fl.sub t.bits x y)
  | .fmul => some (fl.mul t.bits x y)
  | .fdiv => some (fl.div t.bits x y)
  | .fmin => let f := floatOf t.bits
             some (if f.lt y.toNat x.toNat || f.isNan y.toNat then y else x)
  | .fmax => let f := floatOf t.bits
             some (if f.lt x.toNat y.toNat || f.isNan y.toNat then y else x)

/-- The instructions applied to a register, `src/BasicMath.cpp:95-149` and `463-600`. -/
inductive VOp where
  | add | sub | mullo | mulu64 | minS | minU | maxS | maxU | and | or | xor | andnot
  | fadd | fsub | fmul | fdiv
  deriving DecidableEq, Repr

/-- `_mm256_mul_epu32` in one lane: the product of the low 32 bits. -/
def mulEpu32 {n : Nat} (a b : BitVec n) : BitVec n := BitVec.ofNat n ((a.toNat % 2 ^ 32) * (b.toNat % 2 ^ 32))

/-- `MUL_OP_256u64` in one lane, `src/BasicMath.cpp:538-556`. -/
def mulU64 {n : Nat} (x y : BitVec n) : BitVec n :=
  let lo1 := x &&& BitVec.ofNat n 0xFFFFFFFF
  let lo2 := y &&& BitVec.ofNat n 0xFFFFFFFF
  let hi1 := x >>> 32
  let hi2 := y >>> 32
  let add1 := mulEpu32 lo1 lo2
  let add2 := mulEpu32 lo1 hi2 <<< 32
  let add3 := mulEpu32 lo2 hi1 <<< 32
  add1 + (add2 + add3)

/-- One lane. -/
def VOp.lane (fl : Fl) (v : VOp) {n : Nat} (x y : BitVec n) : BitVec n :=
  match v with
  | .add => x + y
  | .sub => x - y
  | .mullo => x * y
  | .mulu64 => mulU64 x y
  | .minS => if x.toInt < y.toInt then x else y
  | .minU => if x.toNat < y.toNat then x else y
  | .maxS => if y.toInt < x.toInt then x else y
  | .maxU => if y.toNat < x.toNat then x else y
  | .and => x &&& y
  | .or => x ||| y
  | .xor => x ^^^ y
  | .andnot => ~~~x &&& y
  | .fadd => fl.add n x y
  | .fsub => fl.sub n x y
  | .fmul => fl.mul n x y
  | .fdiv => fl.div n x y

/-- `SimpleMathOpSlow`, `src/BasicMath.cpp:619-667`: row by row. -/
def slowLoop {α β : Type} (op : α → α → Option β) (mode : Mode) (a b : List α) (len : Nat) : Option (List β) :=
  match mode with
  | .none => (List.range len).mapM fun (i : Nat) => do op (← a[i]?) (← b[i]?)
  | .first => do
    let arg1 ← a[0]?
    (List.range len).mapM fun (i : Nat) => do op arg1 (← b[i]?)
  | .second => do
    let arg2 ← b[0]?
    (List.range len).mapM fun (i : Nat) => do op (← a[i]?) arg2

/-- The rows before the first 32-byte boundary which are treated singly when the output is the first input,
`src/BasicMath.cpp:816-831`: `addr` is the address of the first row and `size` the size of an item. -/
def babyLen (addr size len : Nat) : Nat :=
  let babylen := addr % 32
  if babylen ≠ 0 then
    let babylen := (32 - babylen) / size
    if babylen ≤ len then babylen else 0
  else 0

/-- The rows from the 32-byte boundary on, `src/BasicMath.cpp:833-859`: registers are read and written with
aligned instructions, so that the address must be a multiple of 32 (`none` otherwise). -/
def inPlaceRest {n : Nat} (w : Nat) (opS : BitVec n → BitVec n → Option (BitVec n)) (vec : BitVec n → BitVec n → BitVec n)
    (addr : Nat) (a b : List (BitVec n)) (arg2 : BitVec n) (len : Nat) : Option (List (BitVec n)) :=
  if len < w then (List.range len).mapM fun (i : Nat) => do opS (← a[i]?) arg2
  else if addr % 32 ≠ 0 then none
  else
    blockLoop w len (fun (i : Nat) => do pure (List.zipWith vec (← loadu w i a) (← loadu w 0 b)))
      fun (i : Nat) => do opS (← a[i]?) arg2

/-- The second argument is a scalar and the output is the first input, `src/BasicMath.cpp:813-859`.  Each row is
read just before it is written and by no other step, so the result is given as a list. -/
def inPlace {n : Nat} (w size : Nat) (opS : BitVec n → BitVec n → Option (BitVec n)) (vec : BitVec n → BitVec n → BitVec n)
    (addr : Nat) (a b : List (BitVec n)) (len : Nat) : Option (List (BitVec n)) := do
  let arg2 ← b[0]?
  let baby := babyLen addr size len
  let pre ← (List.range baby).mapM fun (i : Nat) => do opS (← a[i]?) arg2
  let rest ← inPlaceRest w opS vec (addr + baby * size) (a.drop baby) b arg2 (len - baby)
  pure (pre ++ rest)

/-- `SimpleMathOpFast`, `src/BasicMath.cpp:722-904`: `w` rows fit in a register, `addr` is the address of the first
row if the output is the first input.  The scalar is loaded into a register before the loop if there is a block. -/
def fastLoop {n : Nat} (w size : Nat) (opS : BitVec n → BitVec n → Option (BitVec n)) (vec : BitVec n → BitVec n → BitVec n)
    (addr : Option Nat) (mode : Mode) (a b : List (BitVec n)) (len : Nat) : Option (List (BitVec n)) :=
  match mode with
  | .none => blockLoop w len (fun (i : Nat) => do pure (List.zipWith vec (← loadu w i a) (← loadu w i b)))
      fun (i : Nat) => do opS (← a[i]?) (← b[i]?)
  | .first => do
    let arg1 ← a[0]?
    blockLoop w len (fun (i : Nat) => do pure (List.zipWith vec (← loadu w 0 a) (← loadu w i b)))
      fun (i : Nat) => do opS arg1 (← b[i]?)
  | .second =>
    match addr with
    | some p => inPlace w size opS vec p a b len
    | .none => do
      let arg2 ← b[0]?
      blockLoop w len (fun (i : Nat) => do pure (List.zipWith vec (← loadu w i a) (← loadu w 0 b)))
        fun (i : Nat) => do opS (← a[i]?) arg2

/-- `SimpleMathOpFastSymmetric`, `src/BasicMath.cpp:915-1097`: as `SimpleMathOpFast`, but with the scalar as second
argument the registers are combined in the other order. -/
def symLoop {n : Nat} (w size : Nat) (opS : BitVec n → BitVec n → Option (BitVec n)) (vec : BitVec n → BitVec n → BitVec n)
    (addr : Option Nat) (mode : Mode) (a b : List (BitVec n)) (len : Nat) : Option (List (BitVec n)) :=
  match mode with
  | .second => fastLoop w size opS (fun x y => vec y x) addr .second a b len
  | _ => fastLoop w size opS vec addr mode a b len

/-- The loops, `src/BasicMath.cpp:619-1097`. -/
inductive Route where
  | slow | fast | sym | rev
  deriving DecidableEq, Repr

/-- A loop with its type and operations: the template arguments. -/
structure MKernel where
  route : Route
  ty : IT
  op : SOp
  vec : VOp := .add
  deriving DecidableEq, Repr

/-- The caller's calculation, e.g. `MATH_OPERATION::ADD`, `src/CommonInc.h:159-234`. -/
inductive MOp where
  | add | sub | mul | min | max | div | logAnd | logOr | bitAnd | bitOr | bitXor | bitXorSpecial | bitAndNot | bitNotAnd
  | floordiv | mod | subdates
  deriving DecidableEq, Repr

/-- The loop for the bitwise operations, e.g. `src/BasicMath.cpp:1432-1451`: all types of one width share a loop. -/
def bitKernel (r : Route) (o : SOp) (v : VOp) (t : Nat) : Option MKernel :=
  match t with
  | 0 | 1 | 2 => some ⟨r, .i8, o, v⟩
  | 3 | 4 => some ⟨r, .i16, o, v⟩
  | 5 | 6 => some ⟨r, .i32, o, v⟩
  | 7 | 8 | 9 | 10 => some ⟨r, .i64, o, v⟩
  | _ => none

/-- `GetSimpleMathOpFast`, `src/BasicMath.cpp:1274-1602`: `t1` and `t2` are numpy type numbers where `long` has 64 bits.
For division only the floating point types are modelled. -/
def getFast (op : MOp) (mode : Mode) (t1 t2 : Nat) : Option MKernel :=
  let t := if mode = .first then t2 else t1
  match op with
  | .add => match t with
    | 0 => some ⟨.sym, .i8, .or, .or⟩
    | 11 => some ⟨.sym, .i32, .fadd, .fadd⟩
    | 12 => some ⟨.sym, .i64, .fadd, .fadd⟩
    | 5 => some ⟨.sym, .i32, .add, .add⟩
    | 7 | 9 => some ⟨.sym, .i64, .add, .add⟩
    | 3 => some ⟨.sym, .i16, .add, .add⟩
    | 1 => some ⟨.sym, .i8, .add, .add⟩
    | _ => none
  | .mul => match t with
    | 0 => some ⟨.sym, .i8, .and, .and⟩
    | 11 => some ⟨.sym, .i32, .fmul, .fmul⟩
    | 12 => some ⟨.sym, .i64, .fmul, .fmul⟩
    | 5 => some ⟨.sym, .i32, .mul, .mullo⟩
    | 3 => some ⟨.sym, .i16, .mul, .mullo⟩
    | 8 | 10 => some ⟨.sym, .u64, .mul, .mulu64⟩
    | _ => none
  | .sub => match t with
    | 11 => some ⟨.fast, .i32, .fsub, .fsub⟩
    | 12 => some ⟨.fast, .i64, .fsub, .fsub⟩
    | 5 => some ⟨.fast, .i32, .sub, .sub⟩
    | 7 | 9 => some ⟨.fast, .i64, .sub, .sub⟩
    | 3 => some ⟨.fast, .i16, .sub, .sub⟩
    | 1 => some ⟨.fast, .i8, .sub, .sub⟩
    | _ => none
  | .min => match t with
    | 11 => some ⟨.slow, .i32, .fmin, .add⟩
    | 12 => some ⟨.slow, .i64, .fmin, .add⟩
    | 5 => some ⟨.sym, .i32, .min, .minS⟩
    | 3 => some ⟨.sym, .i16, .min, .minS⟩
    | 1 => some ⟨.sym, .i8, .min, .minS⟩
    | 6 => some ⟨.sym, .u32, .min, .minU⟩
    | 4 => some ⟨.sym, .u16, .min, .minU⟩
    | 2 => some ⟨.sym, .u8, .min, .minU⟩
    | _ => none
  | .max => match t with
    | 11 => some ⟨.slow, .i32, .fmax, .add⟩
    | 12 => some ⟨.slow, .i64, .fmax, .add⟩
    | 5 => some ⟨.sym, .i32, .max, .maxS⟩
    | 3 => some ⟨.sym, .i16, .max, .maxS⟩
    | 1 => some ⟨.sym, .i8, .max, .maxS⟩
    | 6 => some ⟨.sym, .u32, .max, .maxU⟩
    | 4 => some ⟨.sym, .u16, .max, .maxU⟩
    | 2 => some ⟨.sym, .u8, .max, .maxU⟩
    | _ => none
  | .div => match t with
    | 11 => some ⟨.fast, .i32, .fdiv, .fdiv⟩
    | 12 => some ⟨.fast, .i64, .fdiv, .fdiv⟩
    | _ => none
  | .logAnd => if t = 0 then some ⟨.sym, .i8, .and, .and⟩ else none
  | .logOr => if t = 0 then some ⟨.sym, .i8, .or, .or⟩ else none
  | .bitAnd => bitKernel .sym .and .and t
  | .bitOr => bitKernel .sym .or .or t
  | .bitXor => bitKernel .sym .xor .xor t
  | .bitXorSpecial => bitKernel .sym .xor .xor t1
  | .bitAndNot => bitKernel .rev .andnot .andnot t
  | .bitNotAnd => bitKernel .fast .andnot .andnot t
  | _ => none

/-- The integer type with a numpy number, e.g. `src/BasicMath.cpp:1706-1724`. -/
def intTy (t : Nat) : Option IT :=
  match t with
  | 1 => some .i8 | 2 => some .u8 | 3 => some .i16 | 4 => some .u16 | 5 => some .i32 | 6 => some .u32
  | 7 | 9 => some .i64 | 8 | 10 => some .u64
  | _ => none

/-- `GetSimpleMathOpSlow`, `src/BasicMath.cpp:1607-1938`, for the operations of `MOp` and not for `long double`; the
loops for floating point numbers of addition, subtraction and multiplication are never reached, those of
division, remainder and floor division are left out.  The integer types of floor division are those of gcc (no `RT_COMPILER_CLANG`). -/
def getSlow (op : MOp) (mode : Mode) (t1 t2 : Nat) : Option MKernel :=
  let t := if mode = .first then t2 else t1
  let ints (o : SOp) : Option MKernel := (intTy t).map fun it => ⟨.slow, it, o, .add⟩
  match op with
  | .add => ints .add
  | .sub => if t = 0 then some ⟨.slow, .i8, .subBool, .add⟩ else ints .sub
  | .mul => ints .mul
  | .floordiv => ints .floordiv
  | .mod => if t = 0 then some ⟨.slow, .i8, .modBool, .add⟩ else ints .mod
  | .subdates => match t with
    | 5 => some ⟨.slow, .i32, .subdates, .add⟩
    | 7 | 9 => some ⟨.slow, .i64, .subdates, .add⟩
    | _ => none
  | _ => none

/-- `GetNonAmbiguousDtype`, `src/BasicMath.cpp:1944-1966`. -/
def nonAmbiguous (t : Nat) : Nat := if t = 7 then 9 else if t = 8 then 10 else t

/-- `CheckMathOpTwoInputs`, `src/BasicMath.cpp:1969-2055`, for the operations of `MOp`. -/
def getMath (op : MOp) (mode : Mode) (t1 t2 : Nat) : Option MKernel :=
  if t1 ≤ 13 ∧ t2 ≤ 13 then
    if mode = .none ∧ t1 ≠ t2 ∧ nonAmbiguous t1 ≠ nonAmbiguous t2 then none
    else
      match getFast op mode t1 t2 with
      | some k => some k
      | none => getSlow op mode t1 t2
  else none

/-- Running a loop: a register has 32 bytes.  `SimpleMathOpFastReverse`, `src/BasicMath.cpp:907-911`, swaps the
inputs but not the mode; its first input, when a scalar is involved, is never the output. -/
def MKernel.run (fl : Fl) (k : MKernel) (addr : Option Nat) (mode : Mode) (a b : List (BitVec k.ty.bits)) (len : Nat) :
    Option (List (BitVec k.ty.bits)) :=
  let w := 256 / k.ty.bits
  let size := k.ty.bits / 8
  match k.route with
  | .slow => slowLoop (k.op.run fl k.ty) mode a b len
  | .fast => fastLoop w size (k.op.run fl k.ty) (k.vec.lane fl) addr mode a b len
  | .sym => symLoop w size (k.op.run fl k.ty) (k.vec.lane fl) addr mode a b len
  | .rev => fastLoop w size (k.op.run fl k.ty) (k.vec.lane fl) none mode b a len

end Riptide.Binary
