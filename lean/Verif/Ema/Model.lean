import Verif.Common.Num
import Verif.Rolling.Model
/-! # Model of the cumulative functions, `src/Ema.cpp`

`EmaAll32` runs, for every column, one loop over the rows that keeps one cell per group.  Reading or
writing outside an array is undefined behaviour: the result is `none`.  An output cell that is never
written is `none` in the list of outputs. -/
namespace Riptide.Ema

variable {S T U W : Type}

/-- One iteration of `for (i = 0; i < totalInputRows; i++)`: `body` gives the new state and what is
stored in `pDest[i]`, if anything. -/
def rowStep (body : W → Nat → Option (W × Option U)) (s : W × List (Option U)) (i : Nat) :
    Option (W × List (Option U)) := (body s.1 i).map fun r => (r.1, s.2 ++ [r.2])

/-- The loop over `n` rows. -/
def rowLoop (body : W → Nat → Option (W × Option U)) (n : Nat) (w : W) : Option (List (Option U)) :=
  ((List.range n).foldlM (rowStep body) (w, [])).map Prod.snd

/-- `pWorkSpace[location]`. -/
def cellAt (ws : List S) (loc : Int) : Option S := if 0 ≤ loc then ws[loc.toNat]? else none

/-- `pWorkSpace[location] = f(pWorkSpace[location]); pDest[i] = …` -/
def touch (cell : S → Nat → Option S) (out : S → Nat → U) (ws : List S) (loc : Int) (i : Nat) :
    Option (List S × Option U) :=
  (cellAt ws loc).bind fun c => (cell c i).map fun c' => (ws.set loc.toNat c', some (out c' i))

/-- A row of a loop that tests `location >= GB_BASE_INDEX` (1); `bad` is what the other rows get, e.g.
`src/Ema.cpp:806-822`. -/
def guarded (bad : Option U) (key : List Int) (cell : S → Nat → Option S) (out : S → Nat → U)
    (ws : List S) (i : Nat) : Option (List S × Option U) :=
  key[i]?.bind fun loc => if 1 ≤ loc then touch cell out ws loc i else some (ws, bad)

/-- A row of a loop without that test, e.g. `src/Ema.cpp:1018-1036`. -/
def unguarded (key : List Int) (cell : S → Nat → Option S) (out : S → Nat → U)
    (ws : List S) (i : Nat) : Option (List S × Option U) :=
  key[i]?.bind fun loc => touch cell out ws loc i

/-- The optional boolean arguments `pIncludeMask` and `pResetMask` (`none`: NULL). -/
structure Masks where
  inc : Option (List Bool)
  rst : Option (List Bool)

/-- What a loop does with an included row: `reset` for one whose reset flag is set, else `add`.  This is
the body of the filter + reset loop, `src/Ema.cpp:810-815`; the other three leave out the tests of
the masks they do not have. -/
def maskedCell (m : Masks) (add reset : S → T → S) (src : List T) (c : S) (i : Nat) : Option S :=
  match m.inc, m.rst with
  | some inc, some rst =>
    inc[i]?.bind fun a =>
      if a then rst[i]?.bind fun r => src[i]?.map fun x => if r then reset c x else add c x else some c
  | some inc, none => inc[i]?.bind fun a => if a then src[i]?.map fun x => add c x else some c
  | none, some rst => rst[i]?.bind fun r => src[i]?.map fun x => if r then reset c x else add c x
  | none, none => src[i]?.map fun x => add c x

/-- `CumSum` (`src/Ema.cpp:777-893`) and `CumProd` (`1200-1320`): `zero` is 0 or 1, `add` is `+=` or
`*=` in the output type.  `uniq` is `numUnique`. -/
def cumulate (zero : U) (add : U → T → U) (inv : U) (m : Masks) (key : List Int) (src : List T)
    (uniq n : Nat) : Option (List (Option U)) :=
  rowLoop (guarded (some inv) key (maskedCell m add (fun _ x => add zero x) src) fun c _ => c) n
    (List.replicate (uniq + 1) zero)

/-- The output type for an integer column of type `t` (`src/Ema.cpp:1999-2029`). -/
def wide (t : IT) : IT := if t.signed then .i64 else .u64

/-- `CumSum` of an integer column: `pWorkSpace[location] += (U)pSrc[i]`.  Overflow of `int64_t` is
modelled as wrapping, as compiled code does it. -/
def cumSum (t : IT) := cumulate (0 : Int) (fun c (x : Int) => (wide t).wrap (c + (wide t).wrap x)) (wide t).inv

/-- `CumProd` of an integer column: `pWorkSpace[location] *= pSrc[i]`. -/
def cumProd (t : IT) := cumulate (1 : Int) (fun c (x : Int) => (wide t).wrap (c * x)) (wide t).inv

/-! ## Minimum and maximum -/

/-- A column type as the extremes see it: `invalid_for_type<T>::value`, `is_valid`, and `_compare`
(`std::less` or `std::greater`). -/
structure Kind (T : Type) where
  inv : T
  valid : T → Bool
  better : T → T → Bool

/-- `CumNanExtreme`, an included row without reset, `src/Ema.cpp:940-949`. -/
def nanAdd (k : Kind T) (c x : T) : T :=
  if k.valid x then (if !k.valid c || k.better x c then x else c) else c

/-- `CumExtreme`, an included row: the cell is the value and `pWorkSpaceDataSeen`,
`src/Ema.cpp:1086-1100`. -/
def strictAdd (k : Kind T) (c : T × Bool) (x : T) : T × Bool :=
  if !c.2 then (x, true)
  else if !k.valid x || (k.valid c.1 && k.better x c.1) then (x, true) else c

/-- The loops of the two extremes: with a mask the rows of other keys are skipped without a write, and
without masks the key is not tested, `src/Ema.cpp:923-1037`, `1073-1189`. -/
def extremeLoop (m : Masks) (key : List Int) (cell : S → Nat → Option S) (out : S → T) (uniq n : Nat)
    (init : S) : Option (List (Option T)) :=
  match m.inc, m.rst with
  | none, none => rowLoop (unguarded key cell fun c _ => out c) n (List.replicate (uniq + 1) init)
  | _, _ => rowLoop (guarded none key cell fun c _ => out c) n (List.replicate (uniq + 1) init)

/-- `CumNanExtreme`, `src/Ema.cpp:898-1040`. -/
def cumNanExtreme (k : Kind T) (m : Masks) (key : List Int) (src : List T) (uniq n : Nat) :
    Option (List (Option T)) :=
  extremeLoop m key (maskedCell m (nanAdd k) (fun _ x => x) src) id uniq n k.inv

/-- `CumExtreme`, `src/Ema.cpp:1044-1195`.  (The buffer `pWorkSpaceDataSeen` is never freed, which the
model does not show.) -/
def cumExtreme (k : Kind T) (m : Masks) (key : List Int) (src : List T) (uniq n : Nat) :
    Option (List (Option T)) :=
  extremeLoop m key (maskedCell m (strictAdd k) (fun _ x => (x, true)) src) Prod.fst uniq n
    (k.inv, false)

/-- Integer columns, minimum. -/
def intMin (t : IT) : Kind Int := ⟨t.inv, fun x => decide (x ≠ t.inv), fun a b => decide (a < b)⟩
/-- Integer columns, maximum. -/
def intMax (t : IT) : Kind Int := ⟨t.inv, fun x => decide (x ≠ t.inv), fun a b => decide (b < a)⟩
/-- Floating-point columns, minimum; `nan` is the bit pattern of the quiet NaN. -/
def floatMin (f : FT) (nan : Nat) : Kind Nat := ⟨nan, fun b => !f.isNan b, fun a b => f.lt a b⟩
/-- Floating-point columns, maximum. -/
def floatMax (f : FT) (nan : Nat) : Kind Nat := ⟨nan, fun b => !f.isNan b, fun a b => f.lt b a⟩

/-! ## Counting -/

/-- `pIncludeMask[i]`, true when there is no mask. -/
def included (inc : Option (List Bool)) (i : Nat) : Option Bool :=
  match inc with | some a => a[i]? | none => some true

/-- A row of the filter loop of `FindNth`: `location >= 1 && pIncludeMask[i]`, `src/Ema.cpp:1346-1359`. -/
def nthRow (inc : Option (List Bool)) (key : List Int) (ws : List Int) (i : Nat) :
    Option (List Int × Option Int) :=
  key[i]?.bind fun loc =>
    if 1 ≤ loc then
      (included inc i).bind fun a =>
        if a then touch (fun (c : Int) _ => some (IT.i32.wrap (c + 1))) (fun c _ => c) ws loc i
        else some (ws, some 0)
    else some (ws, some 0)

/-- `FindNth`, `src/Ema.cpp:1327-1385`; the count is an `int32_t` (`2203-2205`). -/
def findNth (inc : Option (List Bool)) (key : List Int) (uniq n : Nat) : Option (List (Option Int)) :=
  rowLoop (nthRow inc key) n (List.replicate (uniq + 1) (0 : Int))

end Riptide.Ema
