import Verif.Sort.Argsort
/-! # Model of the in-place sorts of `src/Sort.cpp`: quicksort, heapsort

The array is a list, pointers are positions.  An access outside the array, or a push onto a full stack,
gives `none`.  `lt` is `COMPARE_LT<T, Ascending>`.  The index versions `aquicksort_` (`src/Sort.cpp:1005-1095`)
and `aheapsort_` (`785-845`) are the same programs moving row numbers, with `lt` comparing
`v[x]` and `v[y]`. -/
namespace Riptide.Quick
open Riptide.Sort (wr)

variable {α : Type}

/-- `std::swap(*p, *q)`, `src/Sort.cpp:565`. -/
def swap (a : List α) (p q : Nat) : Option (List α) :=
  a[p]?.bind fun x => a[q]?.map fun y => (a.set p y).set q x

/-- `if (COMPARE_LT(*p, *q)) T_SWAP(*p, *q);`, `src/Sort.cpp:935-940`. -/
def order (lt : α → α → Bool) (a : List α) (p q : Nat) : Option (List α) :=
  a[p]?.bind fun x => a[q]?.bind fun y => if lt x y then swap a p q else some a

/-- `do ++pi; while (COMPARE_LT(*pi, vp));`, `src/Sort.cpp:947-949`. -/
def up (lt : α → α → Bool) (vp : α) (a : List α) : Nat → Nat → Option Nat
  | 0, _ => none
  | fuel + 1, pi => a[pi + 1]?.bind fun x => if lt x vp then up lt vp a fuel (pi + 1) else some (pi + 1)

/-- `do --pj; while (COMPARE_LT(vp, *pj));`, `src/Sort.cpp:950-952`. -/
def down (lt : α → α → Bool) (vp : α) (a : List α) : Nat → Option Nat
  | 0 => none
  | pj + 1 => a[pj]?.bind fun x => if lt vp x then down lt vp a pj else some pj

/-- The loop `for (;;)` of the partition, `src/Sort.cpp:945-958`: gives the array and the final `pi`. -/
def partLoop (lt : α → α → Bool) (vp : α) : Nat → List α → Nat → Nat → Option (List α × Nat)
  | 0, _, _, _ => none
  | fuel + 1, a, pi, pj =>
    (up lt vp a a.length pi).bind fun pi' => (down lt vp a pj).bind fun pj' =>
      if pj' ≤ pi' then some (a, pi') else (swap a pi' pj').bind fun a' => partLoop lt vp fuel a' pi' pj'

/-- The partition of `[pl, pr]` (both ends included), `src/Sort.cpp:934-960`: median of three, partition,
pivot to its place; gives the array and the place of the pivot. -/
def partition (lt : α → α → Bool) (a : List α) (pl pr : Nat) : Option (List α × Nat) :=
  (order lt a (pl + (pr - pl) / 2) pl).bind fun a =>
  (order lt a pr (pl + (pr - pl) / 2)).bind fun a =>
  (order lt a (pl + (pr - pl) / 2) pl).bind fun a =>
  a[pl + (pr - pl) / 2]?.bind fun vp =>
  (swap a (pl + (pr - pl) / 2) (pr - 1)).bind fun a =>
  (partLoop lt vp a.length a pl (pr - 1)).bind fun r =>
  (swap r.1 r.2 (pr - 1)).map fun a => (a, r.2)

/-! ## Heapsort -/

/-- The larger child of a node whose first child is `j`: `if (j < n && COMPARE_LT(a[j], a[j + 1])) j += 1;`,
`src/Sort.cpp:741-744`, `768-771`; gives its number and value.  Node `k` is at position `base + k - 1`
(`a = start - 1`, `733`). -/
def child (lt : α → α → Bool) (base n : Nat) (a : List α) (j : Nat) : Option (Nat × α) :=
  a[base + j - 1]?.bind fun x =>
    if j < n then a[base + (j + 1) - 1]?.map fun y => if lt x y then (j + 1, y) else (j, x)
    else some (j, x)

/-- The loop `for (i = …, j = …; j <= n;)` and the final `a[i] = tmp`, `src/Sort.cpp:738-756`, `765-783`. -/
def sift (lt : α → α → Bool) (base n : Nat) (tmp : α) : Nat → Nat → Nat → List α → Option (List α)
  | 0, _, _, _ => none
  | fuel + 1, i, j, a =>
    if j ≤ n then
      (child lt base n a j).bind fun c =>
        if lt tmp c.2 then (wr a (base + i - 1) c.2).bind fun a' => sift lt base n tmp fuel c.1 (c.1 + c.1) a'
        else wr a (base + i - 1) tmp
    else wr a (base + i - 1) tmp

/-- `for (l = n >> 1; l > 0; --l) { tmp = a[l]; … }`, `src/Sort.cpp:735-757`. -/
def build (lt : α → α → Bool) (base n : Nat) : Nat → List α → Option (List α)
  | 0, a => some a
  | l + 1, a =>
    a[base + (l + 1) - 1]?.bind fun tmp =>
      (sift lt base n tmp (n + 1) (l + 1) (2 * (l + 1)) a).bind fun a' => build lt base n l a'

/-- `for (; n > 1;) { tmp = a[n]; a[n] = a[1]; n -= 1; … }`, `src/Sort.cpp:759-784`. -/
def drain (lt : α → α → Bool) (base : Nat) : Nat → List α → Option (List α)
  | 0, a => some a
  | n + 1, a =>
    if 1 < n + 1 then
      a[base + (n + 1) - 1]?.bind fun tmp => a[base + 1 - 1]?.bind fun top =>
        (wr a (base + (n + 1) - 1) top).bind fun a' =>
          (sift lt base n tmp (n + 1) 1 2 a').bind fun a'' => drain lt base n a''
    else some a

/-- `heapsort_` of the `n` elements from `base` on, `src/Sort.cpp:726-788`. -/
def heapsortAt (lt : α → α → Bool) (base n : Nat) (a : List α) : Option (List α) :=
  (build lt base n (n / 2) a).bind (drain lt base n)

/-- `heapsort_` of a whole array. -/
def heapsort (lt : α → α → Bool) (a : List α) : Option (List α) := heapsortAt lt 0 a.length a

/-! ## Quicksort -/

/-- An entry of the two stacks: `pl`, `pr + 1` and `cdepth`.  (`pr` may lie before the array when a segment
is empty; the model keeps `pr + 1`.) -/
structure Seg where
  pl : Nat
  pe : Nat
  depth : Int

/-- `npy_get_msb`, `src/Sort.cpp:58-66`. -/
def msb (n : Nat) : Nat := Nat.log2 n

/-- `PYA_QS_STACK`, `src/Sort.cpp:70`: the size of both stacks. -/
def stackSize : Nat := 128

/-- `SMALL_QUICKSORT`, `src/Sort.cpp:71`. -/
def smallQuicksort : Nat := 15

/-- `quicksort_`, `src/Sort.cpp:912-1001`, as a loop over its control points.  `top` says that control is
at the head of `for (;;)`, where alone `cdepth` is tested.  `st` are the stacks, two pointers and one depth
per entry. -/
def qloop (lt : α → α → Bool) : Nat → Bool → Seg → List Seg → List α → Option (List α)
  | 0, _, _, _, _ => none
  | fuel + 1, top, s, st, a =>
    if top = true ∧ s.depth < 0 then
      (heapsortAt lt s.pl (s.pe - s.pl) a).bind fun a' =>
        match st with
        | [] => some a'
        | t :: st' => qloop lt fuel true t st' a'
    else if s.pl + smallQuicksort + 1 < s.pe then
      if 2 * st.length + 2 ≤ stackSize then
        (partition lt a s.pl (s.pe - 1)).bind fun r =>
          if r.2 - s.pl < s.pe - 1 - r.2 then
            qloop lt fuel false ⟨s.pl, r.2, s.depth - 1⟩ (⟨r.2 + 1, s.pe, s.depth - 1⟩ :: st) r.1
          else
            qloop lt fuel false ⟨r.2 + 1, s.pe, s.depth - 1⟩ (⟨s.pl, r.2, s.depth - 1⟩ :: st) r.1
      else none
    else
      (Riptide.Sort.insertion lt s.pl (s.pe - (s.pl + 1)) (s.pl + 1) a).bind fun a' =>
        match st with
        | [] => some a'
        | t :: st' => qloop lt fuel true t st' a'

/-- `quicksort_` of a whole array. -/
def quicksort (lt : α → α → Bool) (a : List α) : Option (List α) :=
  qloop lt (2 * a.length + 2) true ⟨0, a.length, 2 * msb a.length⟩ [] a

end Riptide.Quick
