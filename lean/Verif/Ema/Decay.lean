import Verif.Ema.Model
/-! # Model of the exponential moving averages, `src/Ema.cpp:1388-1950`

Values live in any commutative ring `R`: rounding of `double` is not modelled.  `w d` is
`exp(-decayRate * d)`.  Times are of an integer type `V` (int32, uint32, int64, uint64,
`src/Ema.cpp:1955-1980`); their difference is computed in that type.  Overflow of a signed difference is
modelled as wrapping, as compiled code does it. -/
namespace Riptide.Ema

variable {R : Type} [Lean.Grind.CommRing R]

/-- `pTime[i] - pLastTime[location]`. -/
def since (V : IT) (t last : Int) : Int := V.wrap (t - last)

/-- `pLastEma[location] = value + pLastEma[location] * exp(-decayRate * (pTime[i] - pLastTime[location]));
pLastTime[location] = pTime[i];`, `src/Ema.cpp:1471-1472`, `1506-1507`. -/
def decayTo (V : IT) (w : Int → R) (c : R × Int) (x : R) (t : Int) : R × Int :=
  (x + c.1 * w (since V t c.2), t)

/-- The cell of a row in the four loops of `EmaDecay`: filter + reset `src/Ema.cpp:1459-1473`, filter
`1491-1508` (an excluded row adds the value 0), reset `1528-1536`, plain `1553-1562`. -/
def decayCell (V : IT) (w : Int → R) (m : Masks) (src : List R) (time : List Int) (c : R × Int)
    (i : Nat) : Option (R × Int) :=
  match m.inc, m.rst with
  | some inc, some rst =>
    inc[i]?.bind fun a =>
      if a then src[i]?.bind fun x => rst[i]?.bind fun r => time[i]?.map fun t =>
        decayTo V w (if r then (0, 0) else c) x t
      else some c
  | some inc, none =>
    inc[i]?.bind fun a => (if a then src[i]? else some 0).bind fun x => time[i]?.map fun t =>
      decayTo V w c x t
  | none, some rst =>
    rst[i]?.bind fun r => src[i]?.bind fun x => time[i]?.map fun t =>
      decayTo V w (if r then (0, 0) else c) x t
  | none, none => src[i]?.bind fun x => time[i]?.map fun t => decayTo V w c x t

/-- `pDest[i]`: the filter + reset loop stores 0, `src/Ema.cpp:1475`. -/
def decayOut (m : Masks) (c : R × Int) : R :=
  match m.inc, m.rst with
  | some _, some _ => 0
  | _, _ => c.1

/-- `EmaDecay`, `src/Ema.cpp:1405-1570`; `inv` is NaN. -/
def emaDecay (V : IT) (w : Int → R) (inv : R) (m : Masks) (key : List Int) (src : List R)
    (time : List Int) (uniq n : Nat) : Option (List (Option R)) :=
  rowLoop (guarded (some inv) key (decayCell V w m src time) fun c _ => decayOut m c) n
    (List.replicate (uniq + 1) ((0 : R), (0 : Int)))

/-- The cell of `EmaNormal`: `pLastEma`, `pLastTime`, `pLastValue`. -/
structure NCell (R : Type) where
  ema : R
  last : Int
  value : R
  deriving DecidableEq

/-- The weight `decayedWeight` for a time difference, `src/Ema.cpp:1581-1584`. -/
def weightOf (w : Int → R) (d : Int) : R := if d < 0 then 0 else w d

/-- `EMA_NORMAL_FUNC`, `src/Ema.cpp:1580-1587`. -/
def normalTo (V : IT) (w : Int → R) (c : NCell R) (x : R) (t : Int) : NCell R :=
  { c with
    ema := x * (1 - weightOf w (since V t c.last)) + c.ema * weightOf w (since V t c.last)
    last := t }

/-- `pLastEma[location] = 0; pLastTime[location] = 0;`, `src/Ema.cpp:1674-1678`, `1737-1741`. -/
def zeroed (r : Bool) (c : NCell R) : NCell R := if r then { c with ema := 0, last := 0 } else c

/-- The cell of a row in the four loops of `EmaNormal`: filter + reset `src/Ema.cpp:1664-1685`, filter
`1700-1716`, reset `1735-1744`, plain `1758-1766`. -/
def normalCell (V : IT) (w : Int → R) (m : Masks) (src : List R) (time : List Int) (c : NCell R)
    (i : Nat) : Option (NCell R) :=
  match m.inc, m.rst with
  | some inc, some rst =>
    inc[i]?.bind fun a =>
      if a then src[i]?.bind fun x => rst[i]?.bind fun r => time[i]?.map fun t =>
        normalTo V w (zeroed r c) x t
      else some c
  | some inc, none =>
    inc[i]?.bind fun a => (if a then src[i]? else some c.value).bind fun x => time[i]?.map fun t =>
      { normalTo V w c x t with value := x }
  | none, some rst =>
    rst[i]?.bind fun r => src[i]?.bind fun x => time[i]?.map fun t => normalTo V w (zeroed r c) x t
  | none, none => src[i]?.bind fun x => time[i]?.map fun t => normalTo V w c x t

/-- `pLastEma[location] = (U)value` for one row of the backward loop that finds the first value of every
bin, whatever the filter says, `src/Ema.cpp:1619-1624`, `1815-1820`. -/
def firstStep (key : List Int) (src : List R) (ws : List R) (i : Nat) : Option (List R) :=
  key[i]?.bind fun loc => src[i]?.bind fun x =>
    if 0 ≤ loc ∧ loc.toNat < ws.length then some (ws.set loc.toNat x) else none

/-- That loop, `for (i = totalInputRows - 1; i >= 0; i--)`; `raw` is what the allocated memory holds. -/
def firstValues (key : List Int) (src : List R) (n : Nat) (raw : List R) : Option (List R) :=
  (List.range n).reverse.foldlM (firstStep key src) raw

/-- `largeNegative`, `src/Ema.cpp:1637-1647`: `(V)0x80000000` or `(V)0x8000000000000000LL`. -/
def farPast (V : IT) : Int := V.wrap ((2 : Int) ^ (V.bits - 1))

/-- `EmaNormal`, `src/Ema.cpp:1598-1778`. -/
def emaNormal (V : IT) (w : Int → R) (inv : R) (m : Masks) (key : List Int) (src : List R)
    (time : List Int) (n : Nat) (raw : List R) : Option (List (Option R)) :=
  (firstValues key src n raw).bind fun first =>
    rowLoop (guarded (some inv) key (normalCell V w m src time) fun c _ => c.ema) n
      (first.map fun e => ⟨e, farPast V, 0⟩)

/-- The cell of a row in the loops of `EmaWeighted`: an excluded row counts as 0, `src/Ema.cpp:1833-1920`.
`wt` is the parameter `decayedWeight`. -/
def weightedCell (wt : R) (m : Masks) (src : List R) (c : R) (i : Nat) : Option R :=
  match m.inc, m.rst with
  | some inc, some rst =>
    inc[i]?.bind fun a => (if a then src[i]? else some 0).bind fun x =>
      (if a then rst[i]? else some false).map fun r => x * (1 - wt) + (if r then 0 else c) * wt
  | some inc, none =>
    inc[i]?.bind fun a => (if a then src[i]? else some 0).map fun x => x * (1 - wt) + c * wt
  | none, some rst =>
    rst[i]?.bind fun r => src[i]?.map fun x => x * (1 - wt) + (if r then 0 else c) * wt
  | none, none => src[i]?.map fun x => x * (1 - wt) + c * wt

/-- `EmaWeighted`, `src/Ema.cpp:1794-1932`. -/
def emaWeighted (wt inv : R) (m : Masks) (key : List Int) (src : List R) (n : Nat) (raw : List R) :
    Option (List (Option R)) :=
  (firstValues key src n raw).bind fun first =>
    rowLoop (guarded (some inv) key (weightedCell wt m src) fun c _ => c) n first

/-! ## Output types -/

/-- The size in bytes of an output element the kernel writes (`sizeof(U)`) and of an element of the array
allocated for it, for `EMA_NORMAL`, `EMA_WEIGHTED`, `EMA_DECAY` and a time of numpy type number `time`
(`src/Ema.cpp:1952-1981`, `2207-2245`, `2469-2476`); `none`: no kernel, the column yields `None`. -/
def emaSizes (time : Int) : Option (Nat × Nat) :=
  if time = 13 then some (16, 8)
  else if time = 11 ∨ time = 12 ∨ time = 5 ∨ time = 6 ∨ time = 7 ∨ time = 8 ∨ time = 9 ∨ time = 10 then
    some (8, 8)
  else none

end Riptide.Ema
