/-! # Model of the merge sorts of `src/Sort.cpp`

Sorting is in place: the array and the workspace are lists, pointers are positions.  A read or write
outside the array or the workspace gives `none`. -/
namespace Riptide.Sort

/-- `*p = v`. -/
def wr {α : Type} (a : List α) (p : Nat) (v : α) : Option (List α) :=
  if p < a.length then some (a.set p v) else none

/-- The inner loop of the insertion sort, `src/Sort.cpp:1738-1742`, 1802-1806: move larger elements up, then store
`v` at the free position `pj`. -/
def sink {α : Type} (lt : α → α → Bool) (pl : Nat) (v : α) (a : List α) : Nat → Option (List α)
  | 0 => wr a 0 v
  | pj + 1 =>
    if pl < pj + 1 then
      match a[pj]? with
      | none => none
      | some x =>
        if lt v x then
          match wr a (pj + 1) x with
          | none => none
          | some a' => sink lt pl v a' pj
        else wr a (pj + 1) v
    else wr a (pj + 1) v

/-- The insertion sort of positions `[pl, pi + n)`, the first `pi - pl` being sorted, `src/Sort.cpp:1731-1743`,
1795-1807; `n` counts the iterations left. -/
def insertion {α : Type} (lt : α → α → Bool) (pl : Nat) : Nat → Nat → List α → Option (List α)
  | 0, _, a => some a
  | n + 1, pi, a =>
    match a[pi]? with
    | none => none
    | some v =>
      match sink lt pl v a pi with
      | none => none
      | some a' => insertion lt pl n (pi + 1) a'

/-- Copy `n` elements of `a` from `pj` to the workspace at `pi`, `src/Sort.cpp:1683`, 1771-1774, 2183. -/
def copyOut {α : Type} (a : List α) : Nat → Nat → Nat → List α → Option (List α)
  | 0, _, _, w => some w
  | n + 1, pj, pi, w =>
    match a[pj]? with
    | none => none
    | some x =>
      match wr w pi x with
      | none => none
      | some w' => copyOut a n (pj + 1) (pi + 1) w'

/-- The merge loop, `src/Sort.cpp:1702-1717`, 1778-1791, 2190-2204: the left half is in the workspace at
`[pj, pi)`, the right half in the array at `[pm, pr)`, `pk` is the next position to write.  The right element is taken
only if it is less. -/
def mergeLoop {α : Type} (lt : α → α → Bool) (w : List α) (pi pr : Nat) (pj pm pk : Nat) (a : List α) :
    Option (List α) :=
  if _h : pj < pi then
    match w[pj]? with
    | none => none
    | some x =>
      if _h' : pm < pr then
        match a[pm]? with
        | none => none
        | some y =>
          if lt y x then
            match wr a pk y with
            | none => none
            | some a' => mergeLoop lt w pi pr pj (pm + 1) (pk + 1) a'
          else
            match wr a pk x with
            | none => none
            | some a' => mergeLoop lt w pi pr (pj + 1) pm (pk + 1) a'
      else
        match wr a pk x with
        | none => none
        | some a' => mergeLoop lt w pi pr (pj + 1) pm (pk + 1) a'
  else some a
termination_by (pi - pj) + (pr - pm)

/-- Merge `[pl, pm)` with `[pm, pr)` using the workspace from `pw`: `ParMergeMerge` and its string versions,
`src/Sort.cpp:2133-2208`, 1945-2131, and the merge step of the recursive sorts. -/
def mergeAt {α : Type} (lt : α → α → Bool) (pl pm pr pw : Nat) (a w : List α) : Option (List α × List α) :=
  match copyOut a (pm - pl) pl pw w with
  | none => none
  | some w' =>
    match mergeLoop lt w' (pw + (pm - pl)) pr pw pm pl a with
    | none => none
    | some a' => some (a', w')

/-- `SMALL_MERGESORT`, `src/Sort.cpp:68`. -/
def smallMergesort : Nat := 16

/-- `amergesort0_` (`src/Sort.cpp:1749-1808`, `skip = true`: no merge when the halves are already in order) and
`amergesort0_float`, `amergesort0_string`, `amergesort0_unicode`, `amergesort0_void`
(1502-1745, `skip = false`).  `lt` compares two elements of the array (rows, by their values). -/
def msort {α : Type} (lt : α → α → Bool) (skip : Bool) (pl pr pw : Nat) (a w : List α) :
    Option (List α × List α) :=
  if _h : pr - pl > smallMergesort then
    let pm := pl + (pr - pl) / 2
    match msort lt skip pl pm pw a w with
    | none => none
    | some (a1, w1) =>
      match msort lt skip pm pr pw a1 w1 with
      | none => none
      | some (a2, w2) =>
        match a2[pm]?, a2[pm - 1]? with
        | some y, some x => if skip && !lt y x then some (a2, w2) else mergeAt lt pl pm pr pw a2 w2
        | _, _ => none
  else
    match insertion lt pl (pr - pl - 1) (pl + 1) a with
    | none => none
    | some a' => some (a', w)
termination_by pr - pl
decreasing_by all_goals simp only [smallMergesort] at _h; omega

/-- `single_amergesort`, `src/Sort.cpp:2417-2456`; `w` is the allocated workspace, `arrayLength / 2` elements. -/
def singleSort {α : Type} (lt : α → α → Bool) (skip : Bool) (a w : List α) : Option (List α) :=
  (msort lt skip 0 a.length 0 a w).map Prod.fst

end Riptide.Sort
