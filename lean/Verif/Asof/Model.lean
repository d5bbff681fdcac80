import Verif.Hash.Loop
import Verif.Hash.Size
import Verif.Common.Writes
/-! # Model of the as-of merges, `src/HashLinear.cpp:786-1195`

The merge walk decides by the times alone which row is handled next; what it does with the hash table
does not influence it.  So the walk is modelled as the list of things it does (`Event`), and the table
loop as running them. -/
namespace Riptide.Asof
open Riptide.Hash

/-- What the merge walk does next. -/
inductive Event
  /-- write the invalid index for left row `i` -/
  | bad (i : Nat)
  /-- look up the key of left row `i` -/
  | look (i : Nat)
  /-- store right row `j`; `i` is the current left row -/
  | put (i j : Nat)
  deriving DecidableEq, Repr

/-- The merge walk, `src/HashLinear.cpp:865-1018` (backward: rows in increasing order) and 1042-1194
(forward: rows in decreasing order): `as` and `bs` are the rows left to handle with their times.
`before x y` is the test `val1 < val2 || (!allowExact && val1 == val2)` (`>` for the forward merge).
The walk ends with the left rows; the right rows left over are not looked at. -/
def walk {V : Type} (valid : V → Bool) (before : V → V → Bool) :
    List (Nat × V) → List (Nat × V) → List Event
  | [], _ => []
  | a :: as, [] => (if valid a.2 then .look a.1 else .bad a.1) :: walk valid before as []
  | a :: as, b :: bs =>
    if !valid a.2 then .bad a.1 :: walk valid before as (b :: bs)
    else if !valid b.2 then walk valid before (a :: as) bs
    else if before a.2 b.2 then .look a.1 :: walk valid before as (b :: bs)
    else .put a.1 b.1 :: walk valid before (a :: as) bs
termination_by as bs => as.length + bs.length

/-- Table use of one event, `FindLastMatchMK` / `FindNextMatchMK`: the table holds the last stored row of
each key.  The key of a row that does not exist is never asked for (`default` is not reached). -/
def asofPlan {K : Type} [Inhabited K] (key1 key2 : List K) (_ : List (Nat × Option Nat)) : Event → Op K Nat
  | .bad _ => .skip
  | .look i => .look (key1.getD i default)
  | .put _ j => .put (key2.getD j default) j (fun _ => j)

/-- Output of one event: the location, `none` for `BAD_INDEX` (the minimum of the index type, no row). -/
def asofNext (out : List (Nat × Option Nat)) : Event → Option Nat → List (Nat × Option Nat)
  | .bad i, _ => out ++ [(i, none)]
  | .look i, old => out ++ [(i, old)]
  | .put _ _, _ => out

/-- Number the rows. -/
def numbered {V : Type} (l : List V) : List (Nat × V) := l.zipIdx.map fun p => (p.2, p.1)

/-- `FindLastMatchMK`, `src/HashLinear.cpp:849-1019`. -/
def findLastMatch {K V : Type} [DecidableEq K] [Inhabited K] (hash : K → Nat) (size : Nat) (valid : V → Bool)
    (lt same : V → V → Bool) (allowExact : Bool) (key1 key2 : List K) (val1 val2 : List V) :
    Option (List (Option (Option Nat))) :=
  match tableLoop (probing hash) (asofPlan key1 key2) asofNext (fresh K Nat size) []
      (walk valid (fun x y => lt x y || (!allowExact && same x y)) (numbered val1) (numbered val2)) with
  | .error _ => none
  | .ok r => runWrites val1.length r.2

/-- `FindNextMatchMK`, `src/HashLinear.cpp:1025-1195`: from the last rows down. -/
def findNextMatch {K V : Type} [DecidableEq K] [Inhabited K] (hash : K → Nat) (size : Nat) (valid : V → Bool)
    (lt same : V → V → Bool) (allowExact : Bool) (key1 key2 : List K) (val1 val2 : List V) :
    Option (List (Option (Option Nat))) :=
  match tableLoop (probing hash) (asofPlan key1 key2) asofNext (fresh K Nat size) []
      (walk valid (fun x y => lt y x || (!allowExact && same x y)) (numbered val1).reverse
        (numbered val2).reverse) with
  | .error _ => none
  | .ok r => runWrites val1.length r.2

/-- A plain array as table: `pLocation` of `FindLastMatchCategorical`, `src/HashLinear.cpp:789-795`; `-1` is a
free slot.  A key outside it is an access outside the array. -/
def direct {V : Type} : Ops Nat V where
  find t k :=
    match t[k]? with
    | none => .error .oob
    | some o => .ok (o.map Prod.snd)
  put t k v0 f :=
    match t[k]? with
    | none => .error .oob
    | some o => .ok (t.set k (some (k, ((o.map Prod.snd).map f).getD v0)), o.map Prod.snd)

/-- Table use of `FindLastMatchCategorical`, `src/HashLinear.cpp:797-842`.  Storing right row `j` uses the key at
the *left* position `i` (line 822, `pKey2[i]`).  A key read outside the array is given the number
`size`, which is outside the table. -/
def catPlan (size : Nat) (key1 key2 : List Nat) (_ : List (Nat × Option Nat)) : Event → Op Nat Nat
  | .bad _ => .skip
  | .look i => .look (key1.getD i size)
  | .put i j => .put (key2.getD i size) j (fun _ => j)

/-- `FindLastMatchCategorical`, `src/HashLinear.cpp:786-844`: no row is invalid, exact matches count. -/
def findLastCategorical {V : Type} (size : Nat) (lt : V → V → Bool) (key1 key2 : List Nat) (val1 val2 : List V) :
    Option (List (Option (Option Nat))) :=
  match tableLoop direct (catPlan size key1 key2) asofNext (fresh Nat Nat size) []
      (walk (fun _ => true) lt (numbered val1) (numbered val2)) with
  | .error _ => none
  | .ok r => runWrites val1.length r.2

end Riptide.Asof
