/-! The indexed binary heap of `src/Heap.h:4-206`.

The elements are numbers standing for `Element *`; `ord` is the order: `compare(a, b)` is
`ord a < ord b` (for `std::greater` the negated key).  Reading or writing outside the stored elements
is undefined behaviour, `none`. -/
namespace Riptide.Heap

/-- `_elements` up to `_current_size`, and the member `heap_position` of every element
(`heapNullIndex` is `none`). -/
structure HS where
  es : List Nat
  pos : Nat → Option Nat

/-- `ChangePositionInHeap`, `src/Heap.h:223-227`. -/
def setPos (p : Nat → Option Nat) (x : Nat) (v : Option Nat) : Nat → Option Nat :=
  fun y => if y = x then v else p y

/-- `Swap_elements`, `src/Heap.h:198-205`. -/
def HS.swap (h : HS) (i j : Nat) : Option HS :=
  h.es[i]?.bind fun a => h.es[j]?.map fun b =>
    ⟨(h.es.set i b).set j a, setPos (setPos h.pos b (some i)) a (some j)⟩

/-- `Compare_elements`, `src/Heap.h:188-191`. -/
def HS.less (h : HS) (ord : Nat → Int) (i j : Nat) : Option Bool :=
  h.es[i]?.bind fun a => h.es[j]?.map fun b => decide (ord a < ord b)

/-- `SiftUp`, `src/Heap.h:145-153`; the first argument bounds the number of iterations. -/
def siftUp (ord : Nat → Int) : Nat → Nat → HS → Option HS
  | 0, _, h => some h
  | n + 1, i, h =>
    if i = 0 then some h
    else (h.less ord ((i - 1) / 2) i).bind fun c =>
      if c then (h.swap ((i - 1) / 2) i).bind (siftUp ord n ((i - 1) / 2)) else some h

/-- The child to compare with, `src/Heap.h:159-163`. -/
def pickChild (ord : Nat → Int) (h : HS) (i : Nat) : Option Nat :=
  if 2 * i + 2 < h.es.length then
    (h.less ord (2 * i + 1) (2 * i + 2)).map fun c => if c then 2 * i + 2 else 2 * i + 1
  else some (2 * i + 1)

/-- `SiftDown`, `src/Heap.h:155-171`; the first argument bounds the number of iterations. -/
def siftDown (ord : Nat → Int) : Nat → Nat → HS → Option HS
  | 0, _, h => some h
  | n + 1, i, h =>
    if 2 * i + 2 ≤ h.es.length then
      (pickChild ord h i).bind fun c => (h.less ord c i).bind fun stop =>
        if stop then some h else (h.swap i c).bind (siftDown ord n c)
    else some h

/-- `Push`, `src/Heap.h:57-69`; a full heap is left alone. -/
def push (ord : Nat → Int) (max x : Nat) (h : HS) : Option HS :=
  if max ≤ h.es.length then some h
  else siftUp ord h.es.length h.es.length ⟨h.es ++ [x], setPos h.pos x (some h.es.length)⟩

/-- `PopBack`, `src/Heap.h:71-81`. -/
def popBack (h : HS) : Option HS :=
  match h.es.getLast? with
  | none => some h
  | some x => some ⟨h.es.dropLast, setPos h.pos x none⟩

/-- `SiftDown(index); SiftUp(index)`. -/
def sift (ord : Nat → Int) (i : Nat) (h : HS) : Option HS :=
  (siftDown ord h.es.length i h).bind (siftUp ord i i)

/-- `Erase`, `src/Heap.h:83-99`. -/
def erase (ord : Nat → Int) (i : Option Nat) (h : HS) : Option HS :=
  match i with
  | none => some h
  | some i => ((h.swap i (h.es.length - 1)).bind popBack).bind fun h' =>
      if i < h'.es.length then sift ord i h' else some h'

/-- `ApplyElementChange`, `src/Heap.h:109-119`. -/
def applyChange (ord : Nat → Int) (i : Option Nat) (h : HS) : Option HS :=
  match i with
  | none => some h
  | some i => sift ord i h

/-- `top`, `src/Heap.h:135-143`. -/
def HS.top (h : HS) : Option Nat := h.es[0]?

/-- `PopTop`, `src/Heap.h:121-133`. -/
def popTop (ord : Nat → Int) (h : HS) : Option HS :=
  if h.es.length = 0 then some h else erase ord (some 0) h

/-- One pass of the loop in `Clean` per stored element, `src/Heap.h:101-107`. -/
def clean : Nat → HS → Option HS
  | 0, h => some h
  | n + 1, h => (popBack h).bind (clean n)

/-- An operation of a client: the element, and for a change its new key.  Elements are erased and
changed through their recorded position, as in `src/Heap.h:472-486`, `603-618`. -/
inductive Op where
  | push (x : Nat)
  | popTop
  | popBack
  | erase (x : Nat)
  | change (x : Nat) (k : Int)

/-- A heap and the current keys of the elements. -/
structure HK where
  h : HS
  key : Nat → Int

/-- Effect of an operation on a heap of capacity `max`. -/
def step (max : Nat) (s : HK) : Op → Option HK
  | .push x => (push s.key max x s.h).map fun h => { s with h := h }
  | .popTop => (popTop s.key s.h).map fun h => { s with h := h }
  | .popBack => (popBack s.h).map fun h => { s with h := h }
  | .erase x => (erase s.key (s.h.pos x) s.h).map fun h => { s with h := h }
  | .change x k =>
    (applyChange (fun y => if y = x then k else s.key y) (s.h.pos x) s.h).map fun h =>
      ⟨h, fun y => if y = x then k else s.key y⟩

/-- A history. -/
def run (max : Nat) (s : HK) (ops : List Op) : Option HK := ops.foldlM (step max) s

/-- The empty heap, `src/Heap.h:11-19`. -/
def empty (key : Nat → Int) : HK := ⟨⟨[], fun _ => none⟩, key⟩

end Riptide.Heap
