import Verif.Common.Num
/-! # Model of `IsMemberCategoricalFixup`, `src/HashFunctions.cpp` -/
namespace Riptide.Cat

/-- `*(int32_t *)GetDefaultForType(NPY_INT32)`, `src/HashFunctions.cpp:226`. -/
def inv32 : Int := IT.i32.inv

/-- `p[w]` for a pointer to the items of `l`, as in `src/HashFunctions.cpp:278`, `284` and `338`; `none` when it is outside of them. -/
def idx (l : List Int) (w : Int) : Option Int := if 0 ≤ w then l[w.toNat]? else none

/-- What a call comes to, `src/HashFunctions.cpp:444-448`: an exception, or a value. -/
inductive Res (α : Type)
  | error
  | ok (a : α)
  deriving DecidableEq, Repr

/-- "Make reverse map", `src/HashFunctions.cpp:237-255`, from category `i` on; also counts the matched categories. -/
def revLoop : Nat → List Int → List Int → Nat → Res (List Int × Nat)
  | _, [], rev, m => .ok (rev, m)
  | i, v :: vs, rev, m =>
    if v = inv32 then revLoop (i + 1) vs rev m
    else if 0 ≤ v ∧ v < (rev.length : Int) then revLoop (i + 1) vs (rev.set v.toNat i) (m + 1)
    else .error

/-- "Find first occurence of values in pUnique", `src/HashFunctions.cpp:262-302`, from row `i` on.  `t` is the type of the rows; the
subtraction wraps around.  `none`: `pReverseMap` or `pReIndex` is read outside of its bounds. -/
def occLoop (t : IT) (base : Int) (rev : List Int) : Nat → List Int → List Int → Nat → Option (Res (List Int))
  | _, [], re, _ => some (.ok re)
  | i, v :: vs, re, left =>
    if base ≤ v then
      match idx rev (t.wrap (v - base)) with
      | none => none
      | some look =>
        if 0 ≤ look then
          match idx re look with
          | none => none
          | some r =>
            if r = inv32 then
              if 2147483647 ≤ i then some .error
              else if left - 1 = 0 then some (.ok (re.set look.toNat i))
              else occLoop t base rev (i + 1) vs (re.set look.toNat i) (left - 1)
            else occLoop t base rev (i + 1) vs re left
        else occLoop t base rev (i + 1) vs re left
    else occLoop t base rev (i + 1) vs re left

/-- `FindFirstOccurence`, `src/HashFunctions.cpp:218-310`. -/
def findFirst (t : IT) (rows2 uniq : List Int) (n2 : Nat) (base2 : Int) : Option (Res (List Int)) :=
  match revLoop 0 uniq (List.replicate n2 (-1)) 0 with
  | .error => some .error
  | .ok (rev, m) =>
    if 0 < m then occLoop t (t.wrap base2) rev 0 rows2 (List.replicate uniq.length inv32) m
    else some (.ok (List.replicate uniq.length inv32))

/-- One row of `FinalMatch`, `src/HashFunctions.cpp:328-347`: found or not, and where. -/
def matchRow (t : IT) (re : List Int) (base : Int) (v : Int) : Option (Bool × Int) :=
  if base ≤ v then (idx re (t.wrap (v - base))).map fun r => (r != inv32, r)
  else some (false, inv32)

/-- `IsMemberCategoricalFixup`, `src/HashFunctions.cpp:366-483`, for contiguous rows of the signed types `t1` and `t2`; the
memory which is not freed after an error is left out. -/
def fixup (t1 t2 : IT) (rows1 rows2 uniq : List Int) (n2 : Nat) (base1 base2 : Int) : Option (Res (List (Bool × Int))) :=
  (findFirst t2 rows2 uniq n2 base2).bind fun r =>
    match r with
    | .error => some .error
    | .ok re => (rows1.mapM (matchRow t1 re base1)).map .ok

end Riptide.Cat
