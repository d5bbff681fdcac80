import Verif.Hash.Categorical
/-! # Model of the entry `IsMember32`, `src/HashLinear.cpp:5684-5904`

For every element of one array: whether another array has it, and where it comes first.  This is the path that is taken unless the environment asks for the
parallel hash table (`RT_NEW_HASH`; that one is in `Verif/Member`). -/
namespace Riptide.Hash
open Riptide.Work

/-- What the call returns. -/
inductive MemberReply
  /-- `NULL` without an exception -/
  | nothing
  /-- an exception, and how many arrays made by the call are never released -/
  | error (lost : Nat)
  /-- the truth values and the positions, as one list of pairs (`none`: not written), with the type of the positions and the number of arrays that are lost -/
  | arrays (lost : Nat) (t : IT) (out : List (Option (Bool × Int)))
  deriving DecidableEq

/-- `riptide::normalize_dtype` on Linux, `src/TypeSystem.h:13-31`: `long` is `long long` when it has eight bytes, as it has here. -/
def normTy (ty : Nat) : Nat := if ty = 7 then 9 else if ty = 8 then 10 else ty

/-- The type that is looked up, `equivalent_type` and `src/HashLinear.cpp:5606-5621`, 5777-5783: items of text, dates and half floats that have 1, 2, 4 or 8
bytes in both arrays are integers. -/
def aliasTy (ty w1 w2 : Nat) : Nat :=
  if 18 ≤ ty ∧ w1 = w2 then
    if w1 = 1 then 1 else if w1 = 2 then 3 else if w1 = 4 then 5 else if w1 = 8 then 9 else ty
  else ty

/-- The hash function of a mode that was passed: 1 is `HASH_MODE_PRIME`; any other number hashes as `HASH_MODE_MASK` does, `src/HashLinear.cpp:1371-1605`. -/
def memberMode (mode : Int) : Mode := if mode = 1 then .prime else .mask

/-- `AllocMemory` and `GetHashSize` for a mode as it was passed, `src/HashLinear.cpp:379-411`, 468-503: any number other than 1 and 2 gets a power of two that may be
as small as the number of entries.  `none`: no slots, or a size that overflows. -/
def memberSize (mode n : Int) (isFloat : Bool) : Option Nat :=
  if mode = 2 then allocSize .mask n.toNat isFloat
  else if mode = 1 then (allocSize .prime n.toNat isFloat).bind fun s => if s = 0 then none else some s
  else hashSize .mask n.toNat

/-- The number of entries expected: the hint, or the length of the second array, `src/HashLinear.cpp:1344-1347`, 1997-2000. -/
def memberHint (hint : Int) (n : Nat) : Int := if hint = 0 then n else hint

/-- One element, as `memberOne`, but with the way in which the lookup fails. -/
def lookOne {K : Type} (ins : K → Bool) (hash : K → Nat) (eq : K → K → Bool) (bad : Int) (tbl : Slots K Int) (x : K) : Except Fault (Bool × Int) :=
  if ins x then
    match find tbl (fun y => eq y x) (hash x) with
    | .ok (some j) => .ok (true, j)
    | .ok none => .ok (false, bad)
    | .error e => .error e
  else .ok (false, bad)

/-- All elements in turn, until one of them fails. -/
def lookAll {K : Type} (f : K → Except Fault (Bool × Int)) : List K → Except Fault (List (Bool × Int))
  | [] => .ok []
  | x :: xs =>
    match f x with
    | .error e => .error e
    | .ok r =>
      match lookAll f xs with
      | .error e => .error e
      | .ok rs => .ok (r :: rs)

/-- What is left when the calling thread ran into a fault: the exception is caught (`src/HashLinear.cpp:5898-5903`) and turned into a Python one, but the arrays made
so far are not released; an access outside the table is undefined. -/
def faultReply (lost : Nat) : Fault → Option MemberReply
  | .full => some (.error lost)
  | .oob => none

/-- Building the table and looking up, `IsMemberHash32_impl` (`src/HashLinear.cpp:4426-4530`), `IsMemberMultiThread` (4383-4413) and `IsMemberHashString32`
(4821-4841): `t` is the type of the positions, `lost` the number of arrays that an exception leaves behind and `extra` the number that is lost anyway.  An exception in a worker thread ends the
process (`none`). -/
def memberRun {K : Type} (extra lost : Nat) (t : IT) (ins : K → Bool) (hash : K → Nat) (eq : K → K → Bool) (size : Nat) (a b : List K) (par : Option (List Nat)) :
    Option MemberReply :=
  match insertAll ins hash eq (fun i : Nat => t.wrap (i : Int)) 0 b (fresh _ Int size) with
  | .error e => faultReply lost e
  | .ok tbl =>
    match par with
    | none =>
      match lookAll (lookOne ins hash eq t.inv tbl) a with
      | .error e => faultReply lost e
      | .ok out => some (.arrays extra t (out.map some))
    | some _ =>
      ((elemWork (fun i => (a[i]?).bind fun x => (lookOne ins hash eq t.inv tbl x).toOption) a.length par).bind (runWrites a.length)).map
        fun out => .arrays extra t out

/-- Whole numbers, by item size, `src/HashLinear.cpp:4431-4471`: one and two bytes always use mask mode and their own number of entries.  Sizes without a case leave both
arrays as they were allocated, 4495-4500. -/
def memberInts (H : Nat → Nat → Nat) (mode hint : Int) (width : Nat) (a b : List Nat) (par : Option (List Nat)) : Option MemberReply :=
  if width = 1 ∨ width = 2 then
    (allocSize .mask (if width = 1 then 128 else 32768) false).bind fun size =>
      (isMemberSmall size a b par).map fun out => .arrays 0 (indexType b.length) out
  else if width = 4 ∨ width = 8 then
    (memberSize mode (memberHint hint b.length) false).bind fun size =>
      memberRun 0 2 (indexType b.length) (fun _ => true) (slotOf (memberMode mode) (H width) size) (fun x y => decide (x = y)) size a b par
  else some (.arrays 0 (indexType b.length) (List.replicate a.length none))

/-- Floats of four and eight bytes, `src/HashLinear.cpp:4472-4493`, 5867-5871. -/
def memberFloats (H : Nat → Nat → Nat) (mode hint : Int) (width : Nat) (a b : List Nat) (par : Option (List Nat)) : Option MemberReply :=
  (memberSize mode (memberHint hint b.length) true).bind fun size =>
    memberRun 0 2 (indexType b.length) (fun x => (if width = 4 then FT.f32 else FT.f64).eq x x) (slotOf (memberMode mode) (H (100 + width)) size)
      (if width = 4 then FT.f32 else FT.f64).eq size a b par

/-- Text, `IsMemberHashString32Pre`, `src/HashLinear.cpp:5364-5403`: a new index array replaces the one that was made before, which is lost; its type is that for the
*longer* of the arrays.  One thread. -/
def memberText (HS : List Nat → Nat) (mode hint : Int) (a b : List (List Nat)) : Option MemberReply :=
  (memberSize mode (memberHint hint b.length) false).bind fun size =>
    memberRun 1 3 (indexType (max a.length b.length)) (fun _ => true) (strHash HS size) strMatch size a b none

/-- The lookup for a type, `src/HashLinear.cpp:5775-5896`.  (The units of dates play no part.) -/
def memberTyped (H : Nat → Nat → Nat) (HS : List Nat → Nat) (mode hint : Int) (a b : CatArr) (x y : List (List UInt8)) (par : Option (List Nat)) : Option MemberReply :=
  if 18 ≤ aliasTy (normTy a.ty) a.width b.width then memberText HS mode hint (x.map (catChars a.ty)) (y.map (catChars a.ty))
  else if aliasTy (normTy a.ty) a.width b.width = 11 ∨ aliasTy (normTy a.ty) a.width b.width = 12 then
    memberFloats H mode hint a.width (x.map leWord) (y.map leWord) par
  else memberInts H mode hint a.width (x.map leWord) (y.map leWord) par

/-- The checks, `src/HashLinear.cpp:5724-5757`; nothing has been allocated yet when they refuse. -/
def memberChecked (H : Nat → Nat → Nat) (HS : List Nat → Nat) (mode hint : Int) (a b : CatArr) (par : Option (List Nat)) : Option MemberReply :=
  if normTy a.ty ≠ normTy b.ty then some (.error 0)
  else if a.width = 0 then some (.error 0)
  else if normTy a.ty = 17 then some (.error 0)
  else a.read.bind fun x => b.read.bind fun y => memberTyped H HS mode hint a b x y par

/-- Does a number fit the type `t`? (`"i"` and `"L"` of `PyArg_ParseTuple` refuse others.) -/
def fitsArg (t : IT) (v : Int) : Bool := decide (-(2 ^ (t.bits - 1) : Int) ≤ v ∧ v < 2 ^ (t.bits - 1))

/-- `IsMember32`, `src/HashLinear.cpp:5684-5722`: the arrays and then up to two numbers, hash mode (2) and hint (0).  (Arguments of other kinds raise and are left out;
`arrs` are the leading arguments that are arrays, `nums` the integers after them.) -/
def isMemberCall (H : Nat → Nat → Nat) (HS : List Nat → Nat) (arrs : List CatArr) (nums : List Int) (par : Option (List Nat)) : Option MemberReply :=
  if arrs.length + nums.length ≤ 1 then some .nothing
  else
    match arrs, nums with
    | [a, b], [] => memberChecked H HS 2 0 a b par
    | [a, b], [mode] => if fitsArg .i32 mode then memberChecked H HS mode 0 a b par else some (.error 0)
    | [a, b], [mode, hint] =>
      if fitsArg .i32 mode ∧ fitsArg .i64 hint then memberChecked H HS mode hint a b par else some (.error 0)
    | _, _ => some (.error 0)

end Riptide.Hash
