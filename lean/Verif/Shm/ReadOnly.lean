/-! # Model of `ClearWriteableFlag`, `src/SDSFilePython.cpp:847-867`

Arrays whose data is in shared memory are made read-only, and so is the array they are views of. The arrays of the process
are a list; a pointer to an array is its place in the list. -/
namespace Riptide.Shm.ReadOnly

/-- What `PyArray_BASE` gives, `src/SDSFilePython.cpp:855-865`: a null pointer, an object which is no array (so that
`PyArray_Check` fails, line 859), or an array. -/
inductive Base
  | null
  | object
  | array (place : Nat)
  deriving DecidableEq, Repr

/-- An array as far as `ClearWriteableFlag` sees it, `src/SDSFilePython.cpp:849-867`: `NPY_ARRAY_WRITEABLE` and the base. The
data and the other flags are left out. -/
structure Arr where
  writeable : Bool
  base : Base
  deriving DecidableEq, Repr

/-- `PyArray_CLEARFLAGS(pArray, NPY_ARRAY_WRITEABLE)`, `src/SDSFilePython.cpp:852`, 866; `none`: no array is there. -/
def clearFlag (mem : List Arr) (p : Nat) : Option (List Arr) :=
  match mem[p]? with
  | none => none
  | some a => some (mem.set p { a with writeable := false })

/-- The loop over the bases, `src/SDSFilePython.cpp:855-865`: `pArray` at the end. `none`: a pointer to what is no array of
the process, or a loop which does not end (`fuel` is the number of arrays, so that more steps than that come back to an
array seen before). -/
def lastArray (mem : List Arr) : Nat → Nat → Option Nat
  | 0, p =>
    match mem[p]? with
    | none => none
    | some a =>
      match a.base with
      | .array _ => none
      | .null => some p
      | .object => some p
  | fuel + 1, p =>
    match mem[p]? with
    | none => none
    | some a =>
      match a.base with
      | .array q => lastArray mem fuel q
      | .null => some p
      | .object => some p

/-- `ClearWriteableFlag`, `src/SDSFilePython.cpp:849-867`: the arrays afterwards. -/
def clearWriteable (mem : List Arr) (p : Nat) : Option (List Arr) :=
  match clearFlag mem p with
  | none => none
  | some mem1 =>
    match lastArray mem1 mem1.length p with
    | none => none
    | some q => clearFlag mem1 q

end Riptide.Shm.ReadOnly
