import Verif.Sort.Argsort
import Verif.Hash.MkEntry
/-! # Model of the calls `LexSort32` and `LexSort64`, `src/Sort.cpp:3352-3635`, with their keywords

Failed allocations are left out, as are keys of type `long double`. -/
namespace Riptide.Sort.Call
open Riptide.Work Riptide.Hash

/-- The items of an array: numbers (floats as bit patterns), or strings, unicode and raw bytes, `src/Sort.cpp:3078-3121`. -/
inductive Data where
  | nums (v : List Int)
  | texts (v : List (List Nat))
  deriving DecidableEq, Repr

/-- `ArrayLength` of an array with one dimension, `src/MultiKey.cpp:235`. -/
def Data.len : Data → Nat
  | .nums v => v.length
  | .texts v => v.length

/-- One of the keys, an item of the list or of the arguments, `src/MultiKey.cpp:170-290`: `None`, something else, or an array with the number of its type,
its dimensions, whether the distance between its items is another one than their size although it counts as contiguous (that is, one item), and
its items. -/
inductive Key where
  | pyNone
  | notArray
  | array (ty ndim : Nat) (odd : Bool) (d : Data)
  deriving DecidableEq, Repr

/-- How the preparation of the keys can fail: an exception, or undefined behaviour. -/
inductive Fault where
  | raised
  | undef
  deriving DecidableEq, Repr

/-- What is kept of a key, `src/MultiKey.cpp:198-291`: whether there is an array (`pObject`), the type and the items. -/
structure Info where
  there : Bool
  ty : Nat
  d : Data
  deriving DecidableEq, Repr

/-- One round of the loop in `BuildArrayInfo`, `src/MultiKey.cpp:196-297`: `ObjectToDtype` refuses types after `NPY_VOID`; the first stride is read
before the number of dimensions is looked at. -/
def keyInfo : Key → Except Fault Info
  | .pyNone => .ok ⟨false, 0, .nums []⟩
  | .notArray => .error .raised
  | .array ty ndim odd d =>
    if 20 < ty then .error .raised
    else if ndim = 0 then .error .undef
    else if ndim ≠ 1 then .error .raised
    else if odd && decide (0 < d.len) then .error .raised
    else .ok ⟨true, ty, d⟩

/-- `CMultiListPrepare`, `src/Sort.h:49-91`, with `BuildArrayInfo`, `src/MultiKey.cpp:143-324`: the keys and the number of rows. Without a key
`aInfo[0]` is read outside of the allocation, line 77. -/
def prepare (keys : List Key) : Except Fault (List Info × Nat) :=
  match keys.mapM keyInfo with
  | .error e => .error e
  | .ok [] => .error .undef
  | .ok (k :: ks) => if ks.all (fun j => decide (j.d.len = k.d.len)) then .ok (k :: ks, k.d.len) else .error .raised

/-- The keyword `ascending`, `GetAscending`, `src/Sort.cpp:3380-3403`: an array is its length and the bytes from its first item on. -/
inductive Asc where
  | absent
  | bool (b : Bool)
  | array (len : Nat) (mem : List UInt8)
  | other
  deriving DecidableEq, Repr

/-- The test of the length, `src/Sort.cpp:3496`. -/
def Asc.wrongLen (k : Nat) : Asc → Bool
  | .array len _ => decide (len ≠ k)
  | _ => false

/-- A byte read as `bool`, `src/Sort.cpp:3595`: undefined for other bytes than 0 and 1. -/
def boolOf (b : UInt8) : Option Bool := if b = 0 then some false else if b = 1 then some true else none

/-- The directions of `k` keys, `src/Sort.cpp:3486-3488` and `3595`: one byte for each, whatever the type and the strides of the array are. -/
def Asc.flags (k : Nat) : Asc → Option (List Bool)
  | .absent => some (List.replicate k true)
  | .bool b => some (List.replicate k b)
  | .array _ mem => (List.range k).mapM fun (i : Nat) => (mem[i]?).bind boolOf
  | .other => some (List.replicate k true)

/-- The keyword `index`, `GetKwargIndex`, `src/Sort.cpp:3423-3455`, when it is an array (anything else is ignored): the width of its type if it is `int32` or
`int64`, the number of its items, and the memory from its first item on. -/
structure IdxArg where
  bits : Option Nat
  len : Nat
  mem : List Int
  deriving DecidableEq, Repr

/-- The arguments. -/
structure Args where
  keys : List Key
  cuts : Option CutArg
  asc : Asc
  index : Option IdxArg
  deriving DecidableEq

/-- `SortIndex`, `src/Sort.cpp:3072-3127`: the column to sort by; `none` for the types it does not know, which are passed over with a message. -/
def colOf (asc : Bool) (i : Info) : Option Column :=
  match i.d with
  | .nums v =>
    if i.ty ≤ 10 then some (.ints asc v)
    else if i.ty = 11 then some (.floats .f32 asc (v.map Int.toNat))
    else if i.ty = 12 then some (.floats .f64 asc (v.map Int.toNat))
    else none
  | .texts v =>
    if i.ty = 18 ∨ i.ty = 19 then some (.strs asc v)
    else if i.ty = 20 then some (.voids asc v)
    else none

/-- The columns which are sorted by, in the order of the loop, `src/Sort.cpp:3593-3607`. -/
def colsOf (is : List Info) (flags : List Bool) : List Column := (is.zip flags).filterMap fun p => colOf p.2 p.1

/-- The largest `UINDEX`, `src/Sort.cpp:3625` and `3632`. -/
def maxIdx (bits : Nat) : Nat := 2 ^ (bits - 1) - 1

/-- How the cutoffs stand, `src/Sort.cpp:3484` and `3490-3505`: absent, refused, undefined (`pCutOffs[-1]`, or memory outside of the array), or the
numbers, read one after the other whatever the stride is. -/
inductive Cuts where
  | absent
  | raised
  | undef
  | are (l : List Int)
  deriving DecidableEq, Repr

/-- `GetCutOffs`, `src/Sort.cpp:3352-3377`, and the test of the last one, line 3490. -/
def cutsOf (n : Nat) : Option CutArg → Cuts
  | none => .absent
  | some c =>
    if !c.isI64 then .raised
    else if c.len = 0 then .undef
    else match (List.range c.len).mapM fun (i : Nat) => c.mem[i]? with
      | none => .undef
      | some l => if l.getLast? = some (n : Int) then .are l else .raised

/-- The lengths of the partitions fit the index type, `src/Sort.cpp:3568-3571`. -/
def partsFit (bits : Nat) : Nat → List Nat → Bool
  | _, [] => true
  | s, e :: es => decide (e - s ≤ maxIdx bits) && partsFit bits e es

/-- What the call does after its checks: nothing more, sort `0 .. n` in a new array, sort the partitions in a new array, or sort in the memory of
the array passed as index: the items `items` in front of the items `rest`. -/
inductive Plan where
  | raised
  | undef
  | fresh (cols : List Column) (n : Nat)
  | freshCuts (cols : List Column) (n : Nat) (cuts : List Nat)
  | same (mem : List Int)
  | index (cols : List Column) (items : List Nat) (rest : List Int)
  | indexCuts (cols : List Column) (n : Nat) (cuts : List Nat) (rest : List Int)

/-- Whether the type of the index is the wanted one, `src/Sort.cpp:3534-3544`. -/
def IdxArg.fits (bits : Nat) (x : IdxArg) : Bool := decide (x.bits = some bits)

/-- With an index and without cutoffs, `src/Sort.cpp:3546-3549` and `3593-3607`: nothing is compared when there is one item or no column, otherwise every item is
used as a row number. -/
def indexPlan (bits : Nat) (cols : List Column) (n : Nat) (x : IdxArg) : Plan :=
  if x.len ≤ 1 ∨ cols = [] then .same x.mem
  else if x.mem.length < x.len ∨ maxIdx bits < x.len then .undef
  else if (x.mem.take x.len).all (fun v => decide (0 ≤ v ∧ v < (n : Int))) then .index cols ((x.mem.take x.len).map Int.toNat) (x.mem.drop x.len)
  else .undef

/-- With cutoffs, `src/Sort.cpp:3556-3574`. A falling cutoff is counted as undefined: the loop which fills the index writes more than `n` items, and the
partitions overlap although several threads sort them. With an index, its memory is filled, whatever its length is. -/
def cutPlan (bits : Nat) (cols : List Column) (n : Nat) (l : List Int) (x : Option IdxArg) : Plan :=
  if !risingFrom 0 l then .undef
  else if !partsFit bits 0 (l.map Int.toNat) then .undef
  else match x with
    | none => .freshCuts cols n (l.map Int.toNat)
    | some x => if x.mem.length < n then .undef else .indexCuts cols n (l.map Int.toNat) (x.mem.drop n)

/-- The index which is sorted in: `some none` means a new array, `none` an exception, `src/Sort.cpp:3507-3553`. -/
def startOf (bits n : Nat) : Option IdxArg → Option (Option IdxArg)
  | none => some none
  | some x =>
    if x.bits = none then none
    else if x.len = 0 then some none
    else if n < x.len then none
    else if x.fits bits then some (some x) else none

/-- Everything up to the loop over the columns, `src/Sort.cpp:3476-3590`. An index without items makes a new array, which is then not filled
with `0 .. n` (the test at line 3581) and is sorted as it was allocated. -/
def body (bits : Nat) (is : List Info) (n : Nat) (a : Args) : Plan :=
  match cutsOf n a.cuts, startOf bits n a.index with
  | .undef, _ => .undef
  | .raised, _ => .raised
  | c, s =>
    if a.asc.wrongLen is.length then .raised
    else match s with
      | none => .raised
      | some x =>
        if x = none ∧ (is.head?.map (·.there)) = some false then .undef
        else match a.asc.flags is.length with
          | none => .undef
          | some flags =>
            match c with
            | .are l => cutPlan bits (colsOf is flags) n l x
            | _ => match x with
              | some x => indexPlan bits (colsOf is flags) n x
              | none =>
                if a.index ≠ none ∧ n ≠ 0 then .undef
                else if maxIdx bits < n then .undef
                else .fresh (colsOf is flags) n

/-- `LexSort<UINDEX>` before the sorting, `src/Sort.cpp:3475-3590`. -/
def plan (bits : Nat) (a : Args) : Plan :=
  match prepare a.keys with
  | .error .raised => .raised
  | .error .undef => .undef
  | .ok (is, n) => body bits is n a

/-- What comes back: an exception, undefined behaviour, a new array (of the width `bits`), or the array passed as index, with its memory after the call. -/
inductive Reply where
  | raised
  | undef
  | fresh (bits : Nat) (items : List Nat)
  | index (mem : List Int)
  deriving DecidableEq, Repr

/-- A new array. -/
def ofFresh (bits : Nat) : Option (List Nat) → Reply
  | none => .undef
  | some l => .fresh bits l

/-- The memory of the index after the sort. -/
def ofIndex (rest : List Int) : Option (List Nat) → Reply
  | none => .undef
  | some l => .index (l.map (fun (i : Nat) => (i : Int)) ++ rest)

/-- The possible outcomes of the rest of the call, `src/Sort.cpp:3558-3614`: without cutoffs every sort is one of the ways of `par_amergesort`, with cutoffs the
partitions are filled and sorted in any order of the pool. -/
inductive Outcome (workers : Nat) (nt : Bool) (bits : Nat) : Plan → Reply → Prop
  | raised : Outcome workers nt bits .raised .raised
  | undef : Outcome workers nt bits .undef .undef
  | fresh (cols : List Column) (n : Nat) (r : Option (List Nat)) (h : LexRun cols (List.range n) r) :
      Outcome workers nt bits (.fresh cols n) (ofFresh bits r)
  | freshFull (cols : List Column) (n : Nat) (cuts : List Nat) (h : prepIndex n cuts = none) :
      Outcome workers nt bits (.freshCuts cols n cuts) .undef
  | freshCuts (cols : List Column) (n : Nat) (cuts s : List Nat) (r : Option (List Nat)) (h : prepIndex n cuts = some s)
      (hr : CutRun workers nt cuts cols s r) : Outcome workers nt bits (.freshCuts cols n cuts) (ofFresh bits r)
  | same (mem : List Int) : Outcome workers nt bits (.same mem) (.index mem)
  | index (cols : List Column) (items : List Nat) (rest : List Int) (r : Option (List Nat)) (h : LexRun cols items r) :
      Outcome workers nt bits (.index cols items rest) (ofIndex rest r)
  | indexFull (cols : List Column) (n : Nat) (cuts : List Nat) (rest : List Int) (h : prepIndex n cuts = none) :
      Outcome workers nt bits (.indexCuts cols n cuts rest) .undef
  | indexCuts (cols : List Column) (n : Nat) (cuts s : List Nat) (rest : List Int) (r : Option (List Nat)) (h : prepIndex n cuts = some s)
      (hr : CutRun workers nt cuts cols s r) : Outcome workers nt bits (.indexCuts cols n cuts rest) (ofIndex rest r)

/-- The call `LexSort32` (`bits` 32) or `LexSort64` (`bits` 64), `src/Sort.cpp:3622-3635`. -/
def LexCall (workers : Nat) (nt : Bool) (bits : Nat) (a : Args) (r : Reply) : Prop := Outcome workers nt bits (plan bits a) r

end Riptide.Sort.Call
