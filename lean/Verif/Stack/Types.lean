/-! # Which type a column gets when files are stacked, `src/SDSFile.cpp` -/
namespace Riptide.Stack

/-- What matters of a `SDS_ARRAY_BLOCK`, `src/SDSFile.h:275-310`: the number of the type, the size of an item, the dimensions and whether the
items are in C order, in Fortran order, or both.  Strides are left out. -/
structure Block where
  dtype : Nat
  item : Nat
  dims : List Nat
  c : Bool
  f : Bool
  deriving Repr, DecidableEq

/-- `FixupDType`, `src/SDSFile.cpp:3126-3155`: 7 and 8 are `long`. -/
def fixDType (t item : Nat) : Nat :=
  if t = 7 then (if item = 4 then 5 else 9)
  else if t = 8 then (if item = 4 then 6 else 10)
  else t

/-- The type of a block. -/
def Block.type (b : Block) : Nat := fixDType b.dtype b.item

/-- The flags of `SDS_WHICH_DTYPE`, `src/SDSFile.cpp:4835-4858`. -/
inductive Kind where
  | float | int | uint | str | other
  deriving Repr, DecidableEq

/-- `WhichDType`, `src/SDSFile.cpp:4863-4897`. -/
def which (t : Nat) : Kind :=
  if t ≤ 13 then
    if t ≥ 11 then .float
    else if t % 2 = 1 ∨ t = 0 then .int
    else .uint
  else if t = 18 ∨ t = 19 then .str
  else .other

/-- `SDS_ITEMSIZE_TABLE`, `src/SDSFile.cpp:4479-4491`. -/
def itemTable : List Nat := [1, 1, 1, 2, 2, 4, 4, 4, 4, 8, 8, 4, 8, 16, 8, 16, 32, 0, 0, 0, 0, 0]

/-- `UpgradeType`, `src/SDSFile.cpp:4493-4525`, without the strides. -/
def upgrade (m : Block) (t item : Nat) : Block :=
  { m with
    dtype := t
    item := if t < 22 then (if itemTable.getD t 0 = 0 then item else itemTable.getD t 0) else 4 }

/-- `SDS_COMPATIBLE`, `src/SDSFile.cpp:3192-3198`. -/
structure Compat where
  ok : Bool
  strings : Bool
  convert : Bool
  rotate : Bool
  deriving Repr, DecidableEq

/-- The type that signed and unsigned integers get, `src/SDSFile.cpp:5647-5657`. -/
def mixed (high : Nat) : Nat :=
  let t := high ||| 1
  let t := if t = 7 then 9 else t
  if t > 9 then 9 else t

/-- The types in `IsArrayCompatible`, `src/SDSFile.cpp:5503-5703`: the new master block, whether the types can be stacked, whether strings have to
be stretched, whether items have to be converted.  `fix` is `doFixup`.  Not for Matlab. -/
def compatType (fix : Bool) (m o : Block) : Block × Bool × Bool × Bool :=
  let mt := m.type
  let ot := o.type
  if mt ≠ ot then
    if which mt = which ot then
      if ot > mt then (if fix then upgrade m ot o.item else m, true, false, true)
      else if mt = 19 ∧ ot = 18 ∧ o.item * 4 > m.item then (upgrade m mt (o.item * 4), true, false, true)
      else (m, true, false, true)
    else if (which mt = .float ∧ (which ot = .int ∨ which ot = .uint)) ∨ (which ot = .float ∧ (which mt = .int ∨ which mt = .uint)) then
      (if fix then
        if mt > ot then
          if ot ≥ 5 ∧ mt < 12 then upgrade m 12 0 else m
        else
          if mt ≥ 5 ∧ ot < 12 then upgrade m 12 0 else upgrade m ot o.item
       else m, true, false, true)
    else if (which mt = .int ∧ which ot = .uint) ∨ (which mt = .uint ∧ which ot = .int) then
      if fix then
        let high := max mt ot
        let low := min mt ot
        if high = 10 ∧ low = 9 then (m, true, false, false)
        else (if mt ≠ mixed high then upgrade m (mixed high) 0 else m, true, false, true)
      else (m, true, false, true)
    else (m, false, false, false)
  else if m.dtype = 18 ∨ m.dtype = 19 then
    if m.item ≠ o.item then
      (if fix ∧ m.item < o.item then upgrade m m.dtype o.item else m, true, true, false)
    else (m, true, false, false)
  else (m, m.item = o.item, false, false)

/-- The shapes in `IsArrayCompatible`, `src/SDSFile.cpp:5705-5752`: the new master block, whether the dimensions agree but for the first,
whether rows and columns had to be exchanged. -/
def compatShape (fix : Bool) (m o : Block) : Block × Bool × Bool :=
  if m.dims.length ≠ o.dims.length then (m, false, false)
  else if m.dims.length > 1 then
    let same := decide (m.dims.drop 1 = o.dims.drop 1)
    if ¬(o.c ∧ o.f) ∧ m.f ≠ o.f then
      if fix ∧ m.c ∧ m.f then ({ m with c := o.c, f := o.f }, same, false)
      else (m, same, true)
    else (m, same, false)
  else (m, true, false)

/-- `IsArrayCompatible`, `src/SDSFile.cpp:5503-5755`. -/
def compat (fix : Bool) (m o : Block) : Block × Compat :=
  let t := compatType fix m o
  let s := compatShape fix t.1 o
  (s.1, ⟨t.2.1 && s.2.1, t.2.2.1, t.2.2.2, s.2.2⟩)

/-- `AddColumnList` for one more file which has the column, `src/SDSFile.cpp:6208-6300`: the first block is the master; `none` stands for
`TotalDimensionProblems ≠ 0`, which makes the call fail, 7262-7266. -/
def addColumn (m : Option Block) (o : Block) : Option Block :=
  match m with
  | none => none
  | some m =>
    if ¬(o.c ∨ o.f) then none
    else
      let r := compat true m o
      if r.2.ok && !r.2.rotate then some r.1 else none

/-- All files of a column, in order. -/
def tally : List Block → Option Block
  | [] => none
  | b :: l => if b.c ∨ b.f then l.foldl addColumn (some b) else none

/-- The first pass over the files of a column, `src/SDSFile.cpp:7360-7385`, calls `IsArrayCompatible` again, which can still change the master. -/
def settle (m : Block) (l : List Block) : Block := l.foldl (fun m o => (compat false m o).1) m

/-- The master block when the memory of the column is allocated. -/
def king (l : List Block) : Option Block := (tally l).map (settle · l)

/-- `GetInplaceConversionFunction`, `src/SDSFile.cpp:4660-4760`: whether there is a conversion. -/
def canConvert (a b : Nat) : Bool :=
  ([0, 1, 2, 3, 4, 5, 6, 9, 10, 11, 12, 13].contains a && [1, 2, 3, 4, 5, 6, 9, 10, 11, 12, 13].contains b) || (a == 18 && b == 19)

end Riptide.Stack
