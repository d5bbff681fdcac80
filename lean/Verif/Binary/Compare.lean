import Verif.Binary.VecLemmas
import Verif.Work.Elem
/-! # Model of the comparison loops and their choice, `src/Compare.cpp` -/
namespace Riptide.Binary
open Riptide.Work

/-- `SCALAR_MODE`, `src/CommonInc.h:385-391`.  `BOTH_SCALAR` is left out: with two scalars no array
has a row and the loops are not called (`src/BasicMath.cpp:3435`). -/
inductive Mode where
  | none | first | second
  deriving DecidableEq, Repr

/-- `LOADU(p + k)`: lanes `[k * w, k * w + w)` of a buffer; `none` if they are not all inside. -/
def loadu {α : Type} (w k : Nat) (m : List α) : Option (List α) :=
  if k * w + w ≤ m.length then some ((m.drop (k * w)).take w) else none

/-- The shape of all loops: `len / w` blocks of `w` rows, then the rest row by row. -/
def blockLoop {β : Type} (w len : Nat) (fast : Nat → Option (List β)) (tail : Nat → Option β) : Option (List β) := do
  let fastCount := len / w
  let f ← (List.range fastCount).mapM fast
  let t ← (List.range (len - fastCount * w)).mapM fun (i : Nat) => tail (fastCount * w + i)
  pure (f.flatten ++ t)

/-- `CompareFloat` (`w = 8`, `src/Compare.cpp:455-516`), `CompareDouble` (`w = 4`, lines 519-580), `CompareInt64`
(`w = 4`, lines 589-645), `CompareInt32` (`w = 8`, lines 727-785), `CompareInt8` (`w = 32`, lines 788-848)
and `CompareInt16` (`w = 16`, lines 853-913): `vec` is the vector comparison, `cmp` that of the rest. -/
def vecCompare {n : Nat} (w : Nat) (vec : List (BitVec n) → List (BitVec n) → List (BitVec 8))
    (cmp : BitVec n → BitVec n → Bool) (mode : Mode) (a b : List (BitVec n)) (len : Nat) : Option (List (BitVec 8)) :=
  match mode with
  | .none => blockLoop w len (fun (i : Nat) => do pure (vec (← loadu w i a) (← loadu w i b)))
      fun (i : Nat) => do pure (byteOf (cmp (← a[i]?) (← b[i]?)))
  | .first => do
    let m0 ← loadu w 0 a
    blockLoop w len (fun (i : Nat) => do pure (vec m0 (← loadu w i b)))
      fun (i : Nat) => do pure (byteOf (cmp (← a[0]?) (← b[i]?)))
  | .second => do
    let m0 ← loadu w 0 b
    blockLoop w len (fun (i : Nat) => do pure (vec (← loadu w i a) m0))
      fun (i : Nat) => do pure (byteOf (cmp (← a[i]?) (← b[0]?)))

/-- `CompareInt32S`, `src/Compare.cpp:648-722`: four registers of eight lanes at a time; a scalar is
loaded once and used four times. -/
def compareInt32S (mode : Mode) (a b : List (BitVec 32)) (len : Nat) : Option (List (BitVec 8)) :=
  match mode with
  | .none => blockLoop 32 len
      (fun (i : Nat) => do
        pure (comp32iEqs (← loadu 8 (4 * i) a) (← loadu 8 (4 * i) b) (← loadu 8 (4 * i + 1) a) (← loadu 8 (4 * i + 1) b)
          (← loadu 8 (4 * i + 2) a) (← loadu 8 (4 * i + 2) b) (← loadu 8 (4 * i + 3) a) (← loadu 8 (4 * i + 3) b)))
      fun (i : Nat) => do pure (byteOf (sCmp .eq (← a[i]?) (← b[i]?)))
  | .first => do
    let m0 ← loadu 8 0 a
    blockLoop 32 len
      (fun (i : Nat) => do
        pure (comp32iEqs m0 (← loadu 8 (4 * i) b) m0 (← loadu 8 (4 * i + 1) b)
          m0 (← loadu 8 (4 * i + 2) b) m0 (← loadu 8 (4 * i + 3) b)))
      fun (i : Nat) => do pure (byteOf (sCmp .eq (← a[0]?) (← b[i]?)))
  | .second => do
    let m0 ← loadu 8 0 b
    blockLoop 32 len
      (fun (i : Nat) => do
        pure (comp32iEqs (← loadu 8 (4 * i) a) m0 (← loadu 8 (4 * i + 1) a) m0
          (← loadu 8 (4 * i + 2) a) m0 (← loadu 8 (4 * i + 3) a) m0))
      fun (i : Nat) => do pure (byteOf (sCmp .eq (← a[i]?) (← b[0]?)))

/-- `CompareAny`, `src/Compare.cpp:408-452`: row by row. -/
def compareAny {n : Nat} (cmp : BitVec n → BitVec n → Bool) (mode : Mode) (a b : List (BitVec n)) (len : Nat) :
    Option (List (BitVec 8)) :=
  match mode with
  | .none => (List.range len).mapM fun (i : Nat) => do pure (byteOf (cmp (← a[i]?) (← b[i]?)))
  | .first => do
    let arg1 ← a[0]?
    (List.range len).mapM fun (i : Nat) => do pure (byteOf (cmp arg1 (← b[i]?)))
  | .second => do
    let arg2 ← b[0]?
    (List.range len).mapM fun (i : Nat) => do pure (byteOf (cmp (← a[i]?) arg2))

/-- `COMP_EQ`, … for a floating point type, `src/Compare.cpp:302-327`. -/
def cmpF {n : Nat} (f : FT) (op : Cmp) (a b : BitVec n) : Bool :=
  match op with
  | .eq => f.eq a.toNat b.toNat
  | .ne => !f.eq a.toNat b.toNat
  | .lt => f.lt a.toNat b.toNat
  | .gt => f.lt b.toNat a.toNat
  | .le => f.lt a.toNat b.toNat || f.eq a.toNat b.toNat
  | .ge => f.lt b.toNat a.toNat || f.eq a.toNat b.toNat

/-- `COMP_EQ`, … for an unsigned type, `src/Compare.cpp:302-327`. -/
def uCmp {n : Nat} (op : Cmp) (a b : BitVec n) : Bool :=
  match op with
  | .eq => decide (a.toNat = b.toNat)
  | .ne => decide (a.toNat ≠ b.toNat)
  | .lt => decide (a.toNat < b.toNat)
  | .gt => decide (b.toNat < a.toNat)
  | .le => decide (a.toNat ≤ b.toNat)
  | .ge => decide (b.toNat ≤ a.toNat)

/-- `COMP_EQ_uint64_t`, `COMP_NE_uint64_t` and `COMP_GT_int64_t`, … at type `int64_t`,
`src/Compare.cpp:329-375`: a signed number against an unsigned one. -/
def cmpSU (op : Cmp) (x y : BitVec 64) : Bool :=
  if (x ||| y).msb then
    match op with
    | .eq => false | .ne => true | .gt => false | .ge => false | .lt => true | .le => true
  else sCmp op x y

/-- `COMP_GT_uint64_t`, …, at type `uint64_t`, `src/Compare.cpp:377-404`: an unsigned number against a signed one.
`COMP_EQ` and `COMP_NE` at type `int64_t` are used here, lines 1093-1096. -/
def cmpUS (op : Cmp) (x y : BitVec 64) : Bool :=
  match op with
  | .eq => sCmp .eq x y
  | .ne => sCmp .ne x y
  | .gt => if (x ||| y).msb then true else uCmp .gt x y
  | .ge => if (x ||| y).msb then true else uCmp .ge x y
  | .lt => if (x ||| y).msb then false else uCmp .lt x y
  | .le => if (x ||| y).msb then false else uCmp .le x y

/-- The loops a comparison can be given, `GetComparisonOpFast`, `src/Compare.cpp:924-1197`. -/
inductive Kernel where
  | float | double | int32S | int32 | int64 | int8 | int16
  | any8 | any16 | any32 | any64
  | signedUnsigned | unsignedSigned
  deriving DecidableEq, Repr

/-- The width of the rows a loop reads. -/
def Kernel.bits : Kernel → Nat
  | .float => 32 | .double => 64 | .int32S => 32 | .int32 => 32 | .int64 => 64 | .int8 => 8 | .int16 => 16
  | .any8 => 8 | .any16 => 16 | .any32 => 32 | .any64 => 64
  | .signedUnsigned => 64 | .unsignedSigned => 64

/-- Running a loop.  `CompareAny` on `uint8_t`, …, `uint64_t` compares unsigned numbers. -/
def Kernel.run (k : Kernel) (op : Cmp) (mode : Mode) (a b : List (BitVec k.bits)) (len : Nat) : Option (List (BitVec 8)) :=
  match k with
  | .float => vecCompare (n := 32) 8 (compF .f32 8 op) (cmpF .f32 op) mode a b len
  | .double => vecCompare (n := 64) 4 (compF .f64 4 op) (cmpF .f64 op) mode a b len
  | .int32S => compareInt32S mode a b len
  | .int32 => vecCompare (n := 32) 8 (comp32i 8 op) (sCmp op) mode a b len
  | .int64 => vecCompare (n := 64) 4 (comp32i 4 op) (sCmp op) mode a b len
  | .int8 => vecCompare (n := 8) 32 (comp8i op) (sCmp op) mode a b len
  | .int16 => vecCompare (n := 16) 16 (comp16i op) (sCmp op) mode a b len
  | .any8 => compareAny (n := 8) (uCmp op) mode a b len
  | .any16 => compareAny (n := 16) (uCmp op) mode a b len
  | .any32 => compareAny (n := 32) (uCmp op) mode a b len
  | .any64 => compareAny (n := 64) (uCmp op) mode a b len
  | .signedUnsigned => compareAny (n := 64) (cmpSU op) mode a b len
  | .unsignedSigned => compareAny (n := 64) (cmpUS op) mode a b len

/-- The sign does not matter for equality, so the unsigned types share the loops of the signed ones,
e.g. `src/Compare.cpp:1035-1038`. -/
def eqLike (op : Cmp) : Bool := decide (op = .eq ∨ op = .ne)

/-- `GetComparisonOpFast`, `src/Compare.cpp:924-1197`, for numpy type numbers where `long` has 64 bits
(`CASE_NPY_INT64`: 7 and 9, `CASE_NPY_UINT64`: 8 and 10).  `GetComparisonOpSlow` (lines 1201-1224) never
offers a loop. -/
def getComparison (op : Cmp) (mode : Mode) (t1 t2 : Nat) : Option Kernel :=
  if mode = .none ∧ t1 ≠ t2 ∧ ¬ (7 ≤ t1 ∧ t1 ≤ 10 ∧ 7 ≤ t2 ∧ t2 ≤ 10) then none
  else
    match (if mode = .first then t2 else t1) with
    | 11 => some .float
    | 12 => some .double
    | 5 => if op = .eq then some .int32S else some .int32
    | 6 => if eqLike op then some .int32 else some .any32
    | 7 | 9 => if t1 ≠ t2 ∧ t2 % 2 = 0 then some .signedUnsigned else some .int64
    | 8 | 10 => if t1 ≠ t2 ∧ t2 % 2 = 1 then some .unsignedSigned else if eqLike op then some .int64 else some .any64
    | 0 | 1 => some .int8
    | 2 => if eqLike op then some .int8 else some .any8
    | 3 => some .int16
    | 4 => if eqLike op then some .int16 else some .any16
    | _ => none

/-- `BasicMathThreadCallback`, `src/BasicMath.cpp:3025-3088`, for one block: an array is read from the
first row of the block on, a scalar from the beginning of its buffer.  The same for the call without
worker threads, `WorkTwoStubCall`, lines 3093-3118, with `start = 0`.  The step of both inputs is the item size of the longer one (lines 3448-3449),
which is that of both when both are arrays. -/
def callBlock {α β : Type} (run : List α → List α → Nat → Option (List β)) (mode : Mode) (a b : List α) (start len : Nat) :
    Option (List (Nat × β)) := do
  let r ← run (if mode = .first then a else a.drop start) (if mode = .second then b else b.drop start) len
  pure (((List.range' start len).zip r))

/-- `WorkTwoStubCall`, `src/BasicMath.cpp:3093-3118`: all rows at once, or block by block in the order
`calls` in which the workers take them. -/
def twoStub {α β : Type} (run : List α → List α → Nat → Option (List β)) (mode : Mode) (a b : List α) (n : Nat)
    (par : Option (List Nat)) : Option (List (Option β)) :=
  (match par with
   | .none => callBlock run mode a b 0 n
   | some calls =>
     (calls.mapM fun (c : Nat) => callBlock run mode a b (chunk * c) (blockLen n chunk (blockLastGeneric n chunk) c)).map
       List.flatten).bind (runWrites n)

end Riptide.Binary
