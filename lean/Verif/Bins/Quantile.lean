import Verif.Bins.Model
import Verif.Common.Writes
/-! # Model of `NanInfCountFromSort` and `BinsToCutsSorted`, `src/Bins.cpp`

Items of an index are taken to be not negative. -/
namespace Riptide.Bins

/-- `pData[pIndex[i]]`. -/
def sortedAt {α : Type} (data : List α) (index : List Nat) (i : Nat) : Option α :=
  match index[i]? with
  | none => none
  | some r => data[r]?

/-- The loops from the back, `src/Bins.cpp:360-370` and 404-408: how many of the items before the `i`-th are passed. -/
def backRun {α : Type} (data : List α) (index : List Nat) (p : α → Bool) : Nat → Option Nat
  | 0 => some 0
  | i + 1 =>
    match sortedAt data index i with
    | none => none
    | some x => if p x then (backRun data index p i).map (· + 1) else some 0

/-- The loops from the front, `src/Bins.cpp:374-378` and 392-396, over `k` items from the `j`-th on: the counter is an `int`. -/
def frontRun {α : Type} (data : List α) (index : List Nat) (p : α → Bool) : Nat → Nat → Option Nat
  | 0, _ => some 0
  | k + 1, j =>
    match sortedAt data index j with
    | none => none
    | some x => if p x then (if j + 1 < 2 ^ 31 then (frontRun data index p k (j + 1)).map (· + 1) else none) else some 0

/-- `NanInfCount` for floats, `src/Bins.cpp:355-379`: NaNs, infinities and negative infinities. -/
def countFloats (f : FT) (data index : List Nat) : Option (Nat × Nat × Nat) :=
  match backRun data index f.isNan data.length with
  | none => none
  | some nan =>
    match backRun data index (fun x => f.eq x f.infMag) (data.length - nan) with
    | none => none
    | some inf =>
      match frontRun data index (fun x => f.eq x (2 ^ (f.eb + f.mb) + f.infMag)) (data.length - nan - inf) 0 with
      | none => none
      | some neg => some (nan, inf, neg)

/-- `NanInfCount` for integers, `src/Bins.cpp:382-410`: invalid values of signed types are in front, those of unsigned types at the back. -/
def countInts (t : IT) (data : List Int) (index : List Nat) : Option (Nat × Nat × Nat) :=
  if t.signed then (frontRun data index (fun x => decide (x = t.inv)) data.length 0).map (fun c => (0, 0, c))
  else (backRun data index (fun x => decide (x = t.inv)) data.length).map (fun c => (0, c, 0))

/-- `a <= b` on `double`. -/
def dLe (a b : Nat) : Bool := FT.f64.lt a b || FT.f64.eq a b

/-- `pBin1[bin]`; `past` is what is behind the end, `none` if reading it is undefined. -/
def edgeAt (edges : List Nat) (past : Option Nat) (b : Nat) : Option Nat := if b = edges.length then past else edges[b]?

/-- The rows below the first edge, `src/Bins.cpp:569-582`: the rows that remain and what is written.  `D` is the item of a row as `double`. -/
def clipLow (D : Nat → Option Nat) (c : Nat) : List Nat → Option (List Nat × List (Nat × Int))
  | [] => some ([], [])
  | r :: l =>
    match D r with
    | none => none
    | some v =>
      if FT.f64.lt v c then
        match clipLow D c l with
        | none => none
        | some (rest, ws) => some (rest, (r, 1) :: ws)
      else some (r :: l, [])

/-- The loop to the next bin, `src/Bins.cpp:609-615`. -/
def advance (edges : List Nat) (past : Option Nat) (v : Nat) : Nat → Nat → Nat → Option (Nat × Nat)
  | 0, b, c => some (b, c)
  | fuel + 1, b, c =>
    if b < edges.length ∧ FT.f64.lt c v then
      match edgeAt edges past (b + 1) with
      | none => none
      | some c' => advance edges past v fuel (b + 1) c'
    else some (b, c)

/-- The rows which get a bin, `src/Bins.cpp:599-623`, and those behind, 626-631. -/
def middle (edges : List Nat) (past : Option Nat) (o : IT) (D : Nat → Option Nat) : List Nat → Nat → Nat → Option (List (Nat × Int))
  | [], _, _ => some []
  | r :: l, b, c =>
    match D r with
    | none => none
    | some v =>
      if dLe v c then (middle edges past o D l b c).map ((r, o.wrap (b + 1)) :: ·)
      else
        match advance edges past v (edges.length + 1) b c with
        | none => none
        | some (b', c') =>
          if b' ≥ edges.length then some ((r :: l).map (·, 1)) else (middle edges past o D l b' c').map ((r, o.wrap (b' + 1)) :: ·)

/-- `MakeBinsSorted`, the bin to begin with, `src/Bins.cpp:584-596`: the edge after the first if the first value that is not below the edges is the first
edge. -/
def startBin (edges : List Nat) (past : Option Nat) (D : Nat → Option Nat) (e0 : Nat) : List Nat → Option (Nat × Nat)
  | [] => some (0, e0)
  | r :: _ =>
    match D r with
    | none => none
    | some v => if FT.f64.eq v e0 && decide (1 < edges.length) then (edgeAt edges past 1).map (1, ·) else some (0, e0)

/-- `MakeBinsSorted`, `src/Bins.cpp:532-632`: the writes.  `n` is the number of items; `conv` is the cast to `double`.  The counts are taken to be not
negative. -/
def cutWrites {α : Type} (data : List α) (conv : α → Nat) (index edges : List Nat) (past : Option Nat) (n nan inf neg : Nat) :
    Option (List (Nat × Int)) :=
  if neg > index.length then none
  else
    match (List.range (nan + inf)).mapM (fun i => if i < n then index[n - i - 1]? else none) with
    | none => none
    | some last =>
      match edgeAt edges past 0 with
      | none => none
      | some e0 =>
        if neg < n - (nan + inf) ∧ index.length < n - (nan + inf) then none
        else
          let D := fun r => (data[r]?).map conv
          match clipLow D e0 ((index.drop neg).take (n - (nan + inf) - neg)) with
          | none => none
          | some (rest, low) =>
            match startBin edges past D e0 rest with
            | none => none
            | some (b, c) =>
              match middle edges past (outType edges.length) D rest b c with
              | none => none
              | some ws => some ((index.take neg).map (·, 0) ++ last.map (·, 0) ++ low ++ ws)

/-- `BinsToCutsSorted`, `src/Bins.cpp:693-815`: the labels; `none` inside is a row that is not written. -/
def binsToCutsSorted {α : Type} (data : List α) (conv : α → Nat) (index edges : List Nat) (past : Option Nat) (nan inf neg : Nat) :
    Option (List (Option Int)) :=
  match cutWrites data conv index edges past data.length nan inf neg with
  | none => none
  | some ws => runWrites data.length ws

end Riptide.Bins
