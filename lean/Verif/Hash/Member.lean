import Verif.Hash.Table
import Verif.Hash.Size
import Verif.Work.Elem
import Verif.Common.Num
/-! # Model of `ismember`, `src/HashLinear.cpp` -/
namespace Riptide.Hash
open Riptide.Work

/-- `riptide::index_size_type`, `src/numpy_traits.h:392-439`: the type of the index output. -/
def indexType (n : Nat) : IT :=
  if n < 100 then .i8 else if n < 30000 then .i16 else if n < 2000000000 then .i32 else .i64

/-- `MakeHashLocation`, `src/HashLinear.cpp:1342-1605`, and `MakeHashLocationFloat`, 1995-2223, from
element `i` on: keys with `ins` (all integers; floats with `item == item`) are stored with their
position unless an equal key is there already. -/
def insertAll {K V : Type} (ins : K → Bool) (hash : K → Nat) (eq : K → K → Bool) (val : Nat → V) :
    Nat → List K → Slots K V → Except Fault (Slots K V)
  | _, [], t => .ok t
  | i, k :: ks, t =>
    if ins k then
      match upsert t (fun x => eq x k) (hash k) k (val i) id with
      | .ok r => insertAll ins hash eq val (i + 1) ks r.1
      | .error e => .error e
    else insertAll ins hash eq val (i + 1) ks t

/-- `MakeHashLocation` on a fresh table of `size` slots; positions are stored in the index type. -/
def makeLocation {K : Type} (ins : K → Bool) (hash : K → Nat) (eq : K → K → Bool) (size : Nat)
    (b : List K) : Except Fault (Slots K Int) :=
  insertAll ins hash eq (fun i => (indexType b.length).wrap i) 0 b (fresh K Int size)

/-- One element of `IsMember` / `IsMemberFloat`, `src/HashLinear.cpp:1750-1916`, 2255-2470: NaN is not
looked up.  `none`: the `runtime_error`, or an access outside the table. -/
def memberOne {K : Type} (ins : K → Bool) (hash : K → Nat) (eq : K → K → Bool) (bad : Int)
    (tbl : Slots K Int) (x : K) : Option (Bool × Int) :=
  if ins x then
    match find tbl (fun y => eq y x) (hash x) with
    | .ok (some j) => some (true, j)
    | .ok none => some (false, bad)
    | .error _ => none
  else some (false, bad)

/-- `IsMemberHash32_impl`, `src/HashLinear.cpp:4426-4501`, with `IsMemberMultiThread`, 4383-4413: the
table is built by the calling thread, the lookups run in blocks.  The output is the boolean and the
index of every element. -/
def isMember {K : Type} (ins : K → Bool) (hash : K → Nat) (eq : K → K → Bool) (size : Nat)
    (a b : List K) (par : Option (List Nat)) : Option (List (Option (Bool × Int))) :=
  match makeLocation ins hash eq size b with
  | .error _ => none
  | .ok tbl =>
    (elemWork (fun i => (a[i]?).bind (memberOne ins hash eq (indexType b.length).inv tbl))
      a.length par).bind (runWrites a.length)

/-- One element of the "perfect hash" lookup of 1- and 2-byte keys, `INNER_GET_LOCATION_PERFECT`,
`src/HashLinear.cpp:1676-1687`: the slot with the key's number is taken to be the key's. -/
def memberPerfect (bad : Int) (tbl : Slots Nat Int) (x : Nat) : Option (Bool × Int) :=
  match tbl[x]? with
  | none => none
  | some none => some (false, bad)
  | some (some e) => some (true, e.2)

/-- `ismember` of 1- and 2-byte keys, `src/HashLinear.cpp:4433-4453`: mask mode with the hint 128 or
32768. -/
def isMemberSmall (size : Nat) (a b : List Nat) (par : Option (List Nat)) :
    Option (List (Option (Bool × Int))) :=
  match makeLocation (fun _ => true) (fun k : Nat => k) (fun x y => decide (x = y)) size b with
  | .error _ => none
  | .ok tbl =>
    (elemWork (fun i => (a[i]?).bind (memberPerfect (indexType b.length).inv tbl))
      a.length par).bind (runWrites a.length)

/-- `HASH_INT1`, `src/HashLinear.cpp:1281-1283`: the key modulo the (64-bit) table size. -/
def hashInt1 (size k : Nat) : Nat := k % size
/-- `HASH_FLOAT1` / `HASH_FLOAT3`, `src/HashLinear.cpp:1319-1321`, 1328-1330 (prime mode, 4- and 8-byte
floats, on the bit pattern). -/
def hashFloatPrime (shift size k : Nat) : Nat := (k ^^^ (k >>> shift)) % size
/-- `HASH_FLOAT2`, `src/HashLinear.cpp:1325-1327` (mask mode, 4-byte floats). -/
def hashFloat2 (size k : Nat) : Nat := (k ^^^ (k >>> 20)) &&& (size - 1)

/-- `ismember` on floats, `src/HashLinear.cpp:4472-4493`, on bit patterns. -/
def isMemberFloat (f : FT) (hash : Nat → Nat) (size : Nat) (a b : List Nat) (par : Option (List Nat)) :
    Option (List (Option (Bool × Int))) :=
  isMember (fun x => f.eq x x) hash f.eq size a b par

end Riptide.Hash
