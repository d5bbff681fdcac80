import Verif.Sort.Model
/-! # Model of the eight-way parallel merge sort, `src/Sort.cpp:2210-2397`, 2540-2680

Eight jobs, one per block.  Whichever thread takes a job runs its steps; the threads interleave in any
way, so a state is advanced by one step of any unfinished job.  A job marks its block as sorted in `Level[0]` with an
atomic OR; the one of two neighbours that comes second merges them, and so on up three levels. -/
namespace Riptide.Sort

/-- `EndPositions`, `src/Sort.cpp:2644-2663`. -/
def endPositions (n : Nat) : List Nat :=
  let e7 := n
  let e3 := n / 2
  let e5 := e3 + (e7 - e3) / 2
  let e1 := e3 / 2
  let e6 := e5 + (e7 - e5) / 2
  let e4 := e3 + (e5 - e3) / 2
  let e2 := e1 + (e3 - e1) / 2
  let e0 := e1 / 2
  [e0, e1, e2, e3, e4, e5, e6, e7]

/-- Where a job is: not taken, sorting or merging at level `l`, about to OR its bit into `Level[l]`, or finished
(`l` is the last level it worked at; only the proofs look at it). -/
inductive Pc
  | todo
  | work (l : Nat)
  | post (l : Nat)
  | done (l : Nat)
  deriving DecidableEq, Repr

structure ParState (α : Type) where
  a : List α
  w : List α
  level : Nat → Nat
  pc : Nat → Pc

/-- `pFirst`, `pSecond`: the part of the array job `j` works on at each level, `src/Sort.cpp:2253-2265` (level 0),
2296-2312 (level 1), 2340-2357 (level 2) and 2387-2388 (the final merge). -/
def segOf (e : List Nat) (n : Nat) : Nat → Nat → Nat × Nat
  | 0, j => (if j ≥ 1 then e.getD (j - 1) 0 else 0, e.getD j 0)
  | 1, j =>
    let i := j / 2 * 2 + 1
    (if i ≥ 2 then e.getD (i - 2) 0 else 0, e.getD i 0)
  | 2, j =>
    let i := (j / 2 * 2 + 1) / 2 / 2 * 4 + 3
    (if i ≥ 4 then e.getD (i - 4) 0 else 0, e.getD i 0)
  | _, _ => (0, n)

/-- The bit number (`index`) a job uses at each level, `src/Sort.cpp:2274`, 2318, 2363. -/
def bitOf : Nat → Nat → Nat
  | 0, j => j
  | 1, j => (j / 2 * 2 + 1) / 2
  | _, j => ((j / 2 * 2 + 1) / 2 / 2 * 4 + 3) / 4

/-- The buddy bit, `src/Sort.cpp:2277-2285`. -/
def buddyMask (i : Nat) : Nat := if i % 2 = 1 then 1 <<< (i - 1) else 1 <<< (i + 1)

def ParState.setPc {α : Type} (s : ParState α) (j : Nat) (p : Pc) : ParState α :=
  { s with pc := fun i => if i = j then p else s.pc i }

/-- The atomic OR and what follows from it, `src/Sort.cpp:2288-2293`, 2332-2338, 2377-2379. -/
def postBit {α : Type} (s : ParState α) (l j : Nat) : ParState α :=
  let old := s.level l
  let i := bitOf l j
  { (s.setPc j (if buddyMask i = (old &&& buddyMask i) then .work (l + 1) else .done l)) with
    level := fun k => if k = l then old ||| (1 <<< i) else s.level k }

/-- One step of job `j`; `none` is an access outside the array or the workspace.  Sorting a block and merging two
parts are single steps: `Sort/ParProps` shows that jobs which are at work at the same time are in disjoint parts of the
array and the workspace. -/
def stepJob {α : Type} (lt : α → α → Bool) (skip : Bool) (n : Nat) (s : ParState α) (j : Nat) :
    Option (ParState α) :=
  match s.pc j with
  | .todo => some (s.setPc j (.work 0))
  | .work 0 =>
    let p := segOf (endPositions n) n 0 j
    match msort lt skip p.1 p.2 p.1 s.a s.w with
    | none => none
    | some (a', w') => some { (s.setPc j (.post 0)) with a := a', w := w' }
  | .work (l + 1) =>
    let p := segOf (endPositions n) n (l + 1) j
    match mergeAt lt p.1 (p.1 + (p.2 - p.1) / 2) p.2 p.1 s.a s.w with
    | none => none
    | some (a', w') => some { (s.setPc j (if l + 1 = 3 then .done 3 else .post (l + 1))) with a := a', w := w' }
  | .post l => some (postBit s l j)
  | .done _ => some s

/-- The state when the work item is published: `Level` is 0, no block is taken. -/
def parInit {α : Type} (a w : List α) : ParState α := ⟨a, w, fun _ => 0, fun _ => .todo⟩

/-- A run: the jobs that make a step, in order. -/
def parRun {α : Type} (lt : α → α → Bool) (skip : Bool) (n : Nat) : List Nat → ParState α → Option (ParState α)
  | [], s => some s
  | j :: js, s =>
    match stepJob lt skip n s j with
    | none => none
    | some s' => parRun lt skip n js s'

/-- The eight blocks are completed (the call returns only then, C02). -/
def allDone {α : Type} (s : ParState α) : Prop := ∀ j, j < 8 → ∃ l, s.pc j = .done l

end Riptide.Sort
