/-! # Membership by a graph of tasks, `src/is_member_tg.h` -/
namespace Riptide.Member

/-- `grainsize_v`, `src/is_member_tg.h:42`. -/
def grain : Nat := 1000000

/-- The end of the range which begins at `start`, `rangify_func`, `src/is_member_tg.h:66-73`: positions are items of the array, or characters of
strings of `len` characters; the result is cast to the type of the indices, of `w` bits. -/
def spanEnd (G w n len start : Nat) : Int :=
  Int.bmod (if start + G / len * len ≥ n then (n * len : Nat) else (start + G / len * len : Nat)) (2 ^ w)

/-- The ranges which `data_rangifier` hands out, `src/is_member_tg.h:236-248`; it stops when `range_start` is 0 again. -/
def spans (G w n len : Nat) : Nat → Nat → List (Nat × Int)
  | 0, _ => []
  | fuel + 1, s =>
    let e := spanEnd G w n len s
    (s, e) :: if (s : Int) > e - G + 1 then [] else spans G w n len fuel e.toNat

/-- `riptide::index_size_type`, `src/numpy_traits.h:418-441`: the bits of the indices for `n` items. -/
def indexBits (n : Nat) : Nat := if n < 100 then 8 else if n < 30000 then 16 else if n < 2000000000 then 32 else 64

/-- The number of hash tables, `src/is_member_tg.h:223,449`. -/
def tables (G n : Nat) : Nat := (n + G - 1) / G

/-- The items of a range, `src/is_member_tg.h:271-283`.  A range which ends before it begins is left only after reading outside of the array, and the
division by a length which is cast to 0 is undefined: `none`. -/
def positions (w len : Nat) (r : Nat × Int) : Option (List Nat) :=
  if r.2 < r.1 then none
  else
    let l := (List.range' r.1 (r.2.toNat - r.1)).filter (fun i => i % len = 0)
    if l ≠ [] ∧ len % 2 ^ w = 0 then none else some (l.map (· / len))

/-- Pieces of `k` items: a bucket is sent when it has `num_per_bucket_v` items, and at the end, `src/is_member_tg.h:291-304`. -/
def chunks {α : Type} (k : Nat) : Nat → List α → List (List α)
  | 0, _ => []
  | fuel + 1, l => if l = [] then [] else l.take k :: chunks k fuel (l.drop k)

/-- What `splitter_func` sends to each table for a range, `src/is_member_tg.h:262-307`, table by table.  A bucket which never had an item is read at a
null pointer, 300: `none`.  (One which has just been cleared still has its first item, and only an empty message is sent.)  `key` is what is read for an
item, `none` outside of the array, and `bucket` its table. -/
def split {α : Type} (w len B : Nat) (key : Nat → Option α) (bucket : α → Option Nat) (r : Nat × Int) : Option (List (List (List (α × Nat)))) :=
  if r = (0, 0) then some (List.replicate B [])
  else
    match positions w len r with
    | none => none
    | some ps =>
      match ps.mapM (fun i => (key i).map (fun k => (k, i))) with
      | none => none
      | some es =>
        if es.all (fun e => (bucket e.1).any (· < B)) then
          (List.range B).mapM fun j =>
            let l := es.filter (fun e => bucket e.1 == some j)
            if l = [] then none else some (chunks 1024 l.length l)
        else none

/-- What all ranges send, `src/is_member_tg.h:309-324`, with the number of tables and the type of the indices of `src/is_member_tg.h:449-456` and
`src/HashLinear.cpp:5760,5800-5835`; `len` is 1 for numbers. -/
def splitAll {α : Type} (G n len : Nat) (key : Nat → Option α) (bucket : α → Option Nat) : Option (List (List (List (List (α × Nat))))) :=
  (spans G (indexBits n) n len (n * len + 2) 0).mapM (split (indexBits n) len (tables G n) key bucket)

/-- Messages of several senders in some order in which those of each sender keep theirs: the ranges are split concurrently, `src/is_member_tg.h:314-324`.
The queue of a node is taken to be first in, first out. -/
inductive Interleaved {α : Type} : List (List α) → List α → Prop
  | nil (ls : List (List α)) : (∀ l ∈ ls, l = []) → Interleaved ls []
  | cons (ls : List (List α)) (i : Nat) (x : α) (l r : List α) : ls[i]? = some (x :: l) → Interleaved (ls.set i l) r → Interleaved ls (x :: r)

/-- A table with the items of all messages, in their order: `storing_func`, `src/is_member_tg.h:250-260`, 311, with a concurrency of 1; `insert` keeps the
first of equal keys. -/
def Stored {α : Type} (S : List (List (List (List (α × Nat))))) (j : Nat) (m : List (α × Nat)) : Prop :=
  ∃ r, Interleaved (S.map (fun s => s.getD j [])) r ∧ m = r.flatten

/-- `find`, `src/is_member_tg.h:327-335`, and `is_member_lookup_needles`, 407-429: `none` inside is the invalid index. -/
def find {α : Type} (eq : α → α → Bool) (m : List (α × Nat)) (v : α) : Option Nat := (m.find? (fun e => eq e.1 v)).map (·.2)

/-- The answer for one item, `src/is_member_tg.h:357-385`, 407-429: `b` is the table which is computed for it. -/
def answer {α : Type} (eq : α → α → Bool) (maps : List (List (α × Nat))) (b : Option Nat) (v : α) : Option (Option Nat) :=
  match b with
  | none => none
  | some j =>
    match maps[j]? with
    | none => none
    | some m => some (find eq m v)

/-- The tables which may come about, `src/is_member_tg.h:227-231,309-325`: each node has its own table and its own order of messages. -/
def Tables {α : Type} (S : List (List (List (List (α × Nat))))) (B : Nat) (maps : List (List (α × Nat))) : Prop :=
  maps.length = B ∧ ∀ j m, maps[j]? = some m → Stored S j m

/-- `our_hash_function` for numbers, `src/is_member_tg.h:75-86`: `cast` is the number as `size_t`, `none` if that is undefined; division by 0 is
undefined. -/
def numBucket {α : Type} (cast : α → Option Nat) (B : Nat) (v : α) : Option Nat :=
  if B = 1 then some 0 else if B = 0 then none else (cast v).map (· % B)

/-- `our_hash_function` for strings, `src/is_member_tg.h:78-81`: the hash is not reduced to the number of tables. -/
def strBucket (hash : List Nat → Nat) (B : Nat) (s : List Nat) : Option Nat := if B = 1 then some 0 else some (hash s)

/-- The number at a place, `src/is_member_tg.h:287-289`; `none` behind the end. -/
def numKey {α : Type} (data : List α) (i : Nat) : Option α := data[i]?

/-- `simple_span_from_fixed_cstring`, `src/is_member_tg.h:44-53`: characters up to a NUL, at most `len`; `none` if one is read behind the end. -/
def cstring : Nat → List Nat → Option (List Nat)
  | 0, _ => some []
  | _ + 1, [] => none
  | len + 1, c :: l => if c = 0 then some [] else (cstring len l).map (c :: ·)

/-- The string at a place, `src/is_member_tg.h:280,373`. -/
def strKey (len : Nat) (chars : List Nat) (i : Nat) : Option (List Nat) := cstring len (chars.drop (i * len))

end Riptide.Member
