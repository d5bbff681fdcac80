import Verif.Heap.Model
import Verif.Rolling.Model
/-! The rolling quantile of `src/Heap.h:245-674` and `AccumRollingQuantile1e9Mult`.

The elements of `all_elements` are the numbers below the window size.  A value is `none` when it is
invalid and its order key otherwise (for floats, zeros of both signs have one key).  The doubly linked
list of invalid elements is modelled as a list. -/
namespace Riptide.Heap

/-- `StructureLocation`, `src/Heap.h:247-253`. -/
inductive Loc where
  | inMin | inMax | inNan | out
  deriving DecidableEq, Repr

/-- Result: invalid, one element, or `quantile_split_function` of two. -/
inductive Res where
  | inv
  | one (k : Int)
  | two (a b : Int)
  deriving DecidableEq, Repr

/-- Constant members: window size and quantile in units of 1e-9. -/
structure Cfg where
  w : Nat
  q : Nat

/-- Fraction of `FractionalIndex`, in units of 1e-9: `src/Heap.h:358-361`.  Exact arithmetic; the
rounding of `long double` is not modelled. -/
def fracOf (q n : Nat) : Nat := ((n - 1) * q) % 1000000000

/-- `IntegralIndex`, `src/Heap.h:363-376`; `precision_epsilon` is 1e-3. -/
def quantIndex (q n : Nat) : Nat :=
  if 999000000 < fracOf q n then (n - 1) * q / 1000000000 + 1 else (n - 1) * q / 1000000000

/-- `QuantileIndexIsIntegral`, `src/Heap.h:437-443`. -/
def quantIntegral (q n : Nat) : Bool := decide (fracOf q n < 1000000 ∨ 999000000 < fracOf q n)

/-- Capacity of the max heap, `src/GroupBy.cpp:1716`. -/
def Cfg.maxCap (c : Cfg) : Nat := quantIndex c.q c.w + 1
/-- Capacity of the min heap, `src/GroupBy.cpp:1717`. -/
def Cfg.minCap (c : Cfg) : Nat := c.w - c.maxCap

/-- The members of `RollingQuantile` and of its elements, `src/Heap.h:255-269`, `378-416`. -/
structure RQ where
  maxH : List Nat
  minH : List Nat
  pos : Nat → Option Nat
  nan : List Nat
  loc : Nat → Loc
  data : Nat → Option Int
  next : Nat → Option Nat
  oldest : Option Nat
  newest : Option Nat

/-- Key of an element. -/
def keyOf (d : Nat → Option Int) (x : Nat) : Int := (d x).getD 0
/-- `std::less`: the max heap. -/
def maxOrd (d : Nat → Option Int) (x : Nat) : Int := keyOf d x
/-- `std::greater`: the min heap. -/
def minOrd (d : Nat → Option Int) (x : Nat) : Int := -keyOf d x

/-- `element->structure_location = …`. -/
def RQ.setLoc (s : RQ) (x : Nat) (l : Loc) : RQ := { s with loc := fun y => if y = x then l else s.loc y }

/-- `PushToMaxHeap`, `src/Heap.h:657-661`. -/
def pushMax (c : Cfg) (x : Nat) (s : RQ) : Option RQ :=
  (push (maxOrd s.data) c.maxCap x ⟨s.maxH, s.pos⟩).map fun h =>
    ({ s with maxH := h.es, pos := h.pos } : RQ).setLoc x .inMax

/-- `PushToMinHeap`, `src/Heap.h:663-667`. -/
def pushMin (c : Cfg) (x : Nat) (s : RQ) : Option RQ :=
  (push (minOrd s.data) c.minCap x ⟨s.minH, s.pos⟩).map fun h =>
    ({ s with minH := h.es, pos := h.pos } : RQ).setLoc x .inMin

/-- The exchange in `PossiblySwapHeapHeads`, `src/Heap.h:471-476`: `a` heads the min heap, `b` the max
heap. -/
def exchange (s : RQ) (a b : Nat) : Option RQ :=
  (applyChange (minOrd s.data) (some 0) ⟨s.minH.set 0 b, s.pos⟩).bind fun h1 =>
    (applyChange (maxOrd s.data) (some 0) ⟨s.maxH.set 0 a, h1.pos⟩).map fun h2 =>
      (({ s with minH := h1.es, maxH := h2.es, pos := h2.pos } : RQ).setLoc b .inMin).setLoc a .inMax

/-- `PossiblySwapHeapHeads`, `src/Heap.h:467-478`. -/
def swapHeads (s : RQ) : Option RQ :=
  match s.minH[0]?, s.maxH[0]? with
  | some a, some b => if keyOf s.data a < keyOf s.data b then exchange s a b else some s
  | _, _ => some s

/-- `ApplyChangeInCorrespondingHeap`, `src/Heap.h:480-494`. -/
def changeIn (x : Nat) (s : RQ) : Option RQ :=
  match s.loc x with
  | .inMin => (applyChange (minOrd s.data) (s.pos x) ⟨s.minH, s.pos⟩).map fun h =>
      { s with minH := h.es, pos := h.pos }
  | .inMax => (applyChange (maxOrd s.data) (s.pos x) ⟨s.maxH, s.pos⟩).map fun h =>
      { s with maxH := h.es, pos := h.pos }
  | _ => some s

/-- `EraseFromCorrespondingHeap`, `src/Heap.h:616-631`. -/
def eraseIn (x : Nat) (s : RQ) : Option RQ :=
  match s.loc x with
  | .inMin => (erase (minOrd s.data) (s.pos x) ⟨s.minH, s.pos⟩).map fun h =>
      ({ s with minH := h.es, pos := h.pos } : RQ).setLoc x .out
  | .inMax => (erase (maxOrd s.data) (s.pos x) ⟨s.maxH, s.pos⟩).map fun h =>
      ({ s with maxH := h.es, pos := h.pos } : RQ).setLoc x .out
  | _ => some (s.setLoc x .out)

/-- Elements in the heaps, `src/Heap.h:496-499`. -/
def RQ.valid (s : RQ) : Nat := s.minH.length + s.maxH.length
/-- `total_elements`, `src/Heap.h:506-509`. -/
def RQ.total (s : RQ) : Nat := s.valid + s.nan.length

/-- `PushToCorrectHeap`, `src/Heap.h:640-655`. -/
def pushCorrect (c : Cfg) (x : Nat) (s : RQ) : Option RQ :=
  (if quantIndex c.q (s.valid + 1) < s.maxH.length then pushMin c x s else pushMax c x s).bind swapHeads

/-- `RebalanceHeaps`, `src/Heap.h:590-614`. -/
def rebalance (c : Cfg) (s : RQ) : Option RQ :=
  if s.valid = 0 then some s
  else if quantIndex c.q s.valid + 1 < s.maxH.length then
    s.maxH[0]?.bind fun x => (eraseIn x s).bind (pushMin c x)
  else if s.maxH.length < quantIndex c.q s.valid + 1 then
    s.minH[0]?.bind fun x => (eraseIn x s).bind (pushMax c x)
  else some s

/-- `GetQuantile`, `src/Heap.h:445-465`, with `min_count` 1 (`src/GroupBy.cpp:1720`). -/
def getQuantile (c : Cfg) (s : RQ) : Option Res :=
  if s.valid < 1 then some .inv
  else if quantIntegral c.q s.valid then s.maxH[0]?.map fun x => .one (keyOf s.data x)
  else s.maxH[0]?.bind fun x => s.minH[0]?.map fun y => .two (keyOf s.data x) (keyOf s.data y)

/-- `PushToNanList` and `List::Push`, `src/Heap.h:316-328`, `669-672`. -/
def pushNan (x : Nat) (s : RQ) : RQ := ({ s with nan := s.nan ++ [x] } : RQ).setLoc x .inNan

/-- `EraseFromNanList` and `List::Erase`, `src/Heap.h:330-348`, `633-638`. -/
def eraseNan (x : Nat) (s : RQ) : RQ := ({ s with nan := s.nan.erase x } : RQ).setLoc x .out

/-- `next_in_structure = …`. -/
def setNext (p : Nat → Option Nat) (x : Nat) (v : Option Nat) : Nat → Option Nat :=
  fun y => if y = x then v else p y

/-- The new element in `NanUpdateNotFull`, `src/Heap.h:525-526`, constructed by `src/Heap.h:214-216`,
`266-268`. -/
def freshAt (s : RQ) (x : Nat) (v : Option Int) : RQ :=
  { s with
    data := fun y => if y = x then v else s.data y
    pos := setPos s.pos x none
    loc := fun y => if y = x then .out else s.loc y
    next := setNext s.next x none }

/-- Linking the new element, `src/Heap.h:528-536`. -/
def linkNew (s : RQ) (first : Bool) (x : Nat) : Option RQ :=
  if first then some { s with oldest := some x, newest := some x }
  else s.newest.map fun m => { s with next := setNext s.next m (some x), newest := some x }

/-- `NanUpdateNotFull`, `src/Heap.h:523-549`. -/
def updateNotFull (c : Cfg) (s : RQ) (v : Option Int) : Option RQ :=
  (linkNew (freshAt s s.total v) (s.total == 0) s.total).bind fun s1 =>
    if v.isSome then pushCorrect c s.total s1 else some (pushNan s.total s1)

/-- The element reused by `NanUpdateFull` and its new place in the order, `src/Heap.h:555-564`. -/
def rotate (s : RQ) (x : Nat) (v : Option Int) : Option RQ :=
  s.newest.map fun m =>
    { s with
      data := fun y => if y = x then v else s.data y
      oldest := s.next x
      next := setNext s.next m (some x)
      newest := some x }

/-- `NanUpdateFull`, `src/Heap.h:551-588`. -/
def updateFull (c : Cfg) (s : RQ) (v : Option Int) : Option RQ :=
  s.oldest.bind fun x => (rotate s x v).bind fun s1 =>
    if s.loc x ≠ .inNan then
      if v.isSome then (changeIn x s1).bind swapHeads
      else (eraseIn x s1).bind fun s2 => rebalance c (pushNan x s2)
    else if v.isSome then pushCorrect c x (eraseNan x s1)
    else some s1

/-- `Update`, `src/Heap.h:511-521`. -/
def update (c : Cfg) (s : RQ) (v : Option Int) : Option (RQ × Res) :=
  (if s.total < c.w then updateNotFull c s v else updateFull c s v).bind fun s' =>
    (getQuantile c s').map fun r => (s', r)

/-- `Clean`, `src/Heap.h:418-425`. -/
def cleanAll (s : RQ) : Option RQ :=
  (clean s.maxH.length ⟨s.maxH, s.pos⟩).bind fun h1 =>
    (clean s.minH.length ⟨s.minH, h1.pos⟩).map fun h2 =>
      { s with maxH := h1.es, minH := h2.es, pos := h2.pos, nan := [],
               loc := fun y => if y ∈ s.nan then .out else s.loc y, oldest := none, newest := none }

/-- Twice the value of `QUANTILE_SPLIT` on a column of the integer type `t`, `src/GroupBy.cpp:75-79`:
the sum is taken in `t` after integer promotion, before the division by `2.0`.  Signed overflow is
undefined behaviour. -/
def splitSum (t : IT) (a b : Int) : Option Int :=
  if t.bits < 32 then some (a + b)
  else if t.signed then (if t.lo ≤ a + b ∧ a + b ≤ t.hi then some (a + b) else none)
  else some (t.wrap (a + b))

/-! ## The kernel -/

open Rolling (Packed rd rdS upTo emitLoop zeroBin store)

/-- `pDest[index] = rolling_quantile.Update(&pSrc[index])`, `src/GroupBy.cpp:1730-1734`. -/
def quantStep (c : Cfg) (src : List (Option Int)) (s : RQ) (_j idx : Int) : Option (RQ × Res) :=
  (rdS src idx).bind (update c s)

/-- The loop for window 1, `src/GroupBy.cpp:1687-1701`. -/
def copyStep (src : List (Option Int)) (s : RQ) (_j idx : Int) : Option (RQ × Res) :=
  (rdS src idx).map fun v => (s, match v with | none => .inv | some k => .one k)

/-- One bin, `src/GroupBy.cpp:1725-1737`. -/
def quantBin (P : Packed) (g : RQ → Int → Int → Option (RQ × Res)) (st : RQ × List (Int × Res)) (i : Int) :
    Option (RQ × List (Int × Res)) :=
  (rd P.first i).bind fun f => (rd P.count i).bind fun n =>
    (emitLoop P g (upTo f (f + n)) st).bind fun st' => (cleanAll st'.1).map fun s => (s, st'.2)

/-- The constructor, `src/Heap.h:402-416`; the element array is uninitialised. -/
def fresh (s0 : RQ) : RQ := { s0 with maxH := [], minH := [], nan := [], oldest := none, newest := none }

/-- `AccumRollingQuantile1e9Mult` on the bins `[lo, hi)`, `src/GroupBy.cpp:1641-1739`; `s0` stands for
the uninitialised work space.  (With window 1 there is no structure; `cleanAll` then does nothing.)
A window of 0 or below returns after bin 0. -/
def accumQuantile (s0 : RQ) (src : List (Option Int)) (P : Packed) (param : Int) (lo hi : Int) :
    Option (List (Option Res)) :=
  let q := (param.tmod 1000000001).toNat
  let w := param.tdiv 1000000001
  let g := if w = 1 then copyStep src else quantStep ⟨w.toNat, q⟩ src
  ((if lo = 0 then zeroBin P .inv else some []).bind fun ws0 =>
    if w ≤ 0 then some ws0
    else ((upTo (if lo = 0 then 1 else lo) hi).foldlM (quantBin P g) (fresh s0, ws0)).map Prod.snd).bind
      (store src.length)

end Riptide.Heap
