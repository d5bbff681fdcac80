import Verif.Hash.Table
/-! # Loops that use a hash table

The grouping, unique and as-of merge loops of `src/HashLinear.cpp` all have one shape: for each row
they do nothing with the table, look one key up, or look one key up and store.  The loop is written
once; each algorithm is given by what it asks for (`plan`) and what it does with the answer
(`next`). -/
namespace Riptide.Hash

/-- What a loop does with the table for one row. -/
inductive Op (K V : Type)
  /-- nothing -/
  | skip
  /-- look the key up -/
  | look (k : K)
  /-- look the key up; replace the stored value by `f` of it, or store `v0` for a new key -/
  | put (k : K) (v0 : V) (f : V → V)

/-- The table functions a loop uses (they differ between the ordinary and the "perfect" hash). -/
structure Ops (K V : Type) where
  find : Slots K V → K → Except Fault (Option V)
  put : Slots K V → K → V → (V → V) → Except Fault (Slots K V × Option V)

/-- Linear probing with comparison of the keys (`GROUPBY_INNER_LOOP`, `src/HashLinear.cpp:2592-2632`, and
the loops of `GroupBy`, `GroupBySuper`, `Unique`, `MultiKeyRolling`, `MakeHashLocationMultiKey`,
`FindLastMatchMK`, `FindNextMatchMK`).  Keys are compared for identity (of bytes). -/
def probing {K V : Type} [DecidableEq K] (hash : K → Nat) : Ops K V where
  find t k := Hash.find t (fun x => decide (x = k)) (hash k)
  put t k v0 f := upsert t (fun x => decide (x = k)) (hash k) k v0 f

/-- `GROUPBY_INNER_LOOP_PERFECT`, `src/HashLinear.cpp:2575-2590`: the slot is the key masked with
`HashSize - 1`, and a taken slot is taken to be the key's. -/
def perfect {V : Type} (size : Nat) : Ops Nat V where
  find t k := Hash.find t (fun _ => true) (k &&& (size - 1))
  put t k v0 f := upsert t (fun _ => true) (k &&& (size - 1)) k v0 f

/-- The loop over the rows. -/
def tableLoop {K V R S : Type} (ops : Ops K V) (plan : S → R → Op K V) (next : S → R → Option V → S) :
    Slots K V → S → List R → Except Fault (Slots K V × S)
  | t, s, [] => .ok (t, s)
  | t, s, r :: rs =>
    match plan s r with
    | .skip => tableLoop ops plan next t (next s r none) rs
    | .look k =>
      match ops.find t k with
      | .ok old => tableLoop ops plan next t (next s r old) rs
      | .error e => .error e
    | .put k v0 f =>
      match ops.put t k v0 f with
      | .ok (t', old) => tableLoop ops plan next t' (next s r old) rs
      | .error e => .error e

end Riptide.Hash
