import Verif.Work.Elem
import Verif.Binary.Vec
/-! # Model of the kernels of operations on one array, `src/UnaryOps.cpp` -/
namespace Riptide.Unary
open Riptide.Work Riptide.Binary

/-- The loop over registers of `UnaryOpFast`, `src/UnaryOps.cpp:693-701`, and of the tests, lines 791-802: `w` rows are read, the
register is computed, `w` rows are stored. -/
def vecLoop {α β : Type} (vec : List α → List β) (w : Nat) : Nat → List α → List β
  | 0, _ => []
  | k + 1, xs => vec (xs.take w) ++ vecLoop vec w k (xs.drop w)

/-- `UnaryOpFast`, `src/UnaryOps.cpp:663-715`; the same shape have `UnaryNanFastFloat` and its relatives, lines 775-1138. `wide` is the
condition on strides and alignment (lines 672-673). `none` is undefined behaviour. -/
def fastCall {α β : Type} (vec : List α → List β) (s : α → Option β) (w : Nat) (wide : Bool) (xs : List α) : Option (List β) :=
  if wide && decide (w ≤ xs.length) then
    ((xs.drop (w * (xs.length / w))).mapM s).map fun r => vecLoop vec w (xs.length / w) xs ++ r
  else xs.mapM s

/-- `UnaryOpSlow`, `UnaryOpSlowDouble`, `UnaryOpSlowBool`, `src/UnaryOps.cpp:1140-1200`: one row after the other. -/
def slowCall {α β : Type} (s : α → Option β) (xs : List α) : Option (List β) := xs.mapM s

/-- One call of a kernel for the rows from `start` on, with the rows of the output it writes, `src/UnaryOps.cpp:2433-2439`. -/
def callRows {α β : Type} (call : List α → Option (List β)) (xs : List α) (start len : Nat) : Option (List (Nat × β)) :=
  (call ((xs.drop start).take len)).map fun ys => (List.range' start len).zip ys

/-- `ProcessOneInput`, `src/UnaryOps.cpp:2483-2511`, with `UnaryThreadCallbackStrided`, lines 2419-2451: the kernel is called once, or once
for each block, in the order in which the blocks are completed. All blocks are aligned as the first one is, because a block of 0x4000
rows is a multiple of 32 bytes. -/
def unaryWork {α β : Type} (call : List α → Option (List β)) (xs : List α) (par : Option (List Nat)) : Option (List (Nat × β)) :=
  match par with
  | none => callRows call xs 0 xs.length
  | some calls =>
    (calls.mapM fun b => callRows call xs (chunk * b) (blockLen xs.length chunk (blockLastGeneric xs.length chunk) b)).map List.flatten

/-! ## Integers -/

/-- `-x`, `NEG_OP`, `src/UnaryOps.cpp:220-224`: types narrower than `int` are promoted, the result is converted back; otherwise
overflow is undefined. -/
def negI (t : IT) (x : Int) : Option Int :=
  if t.bits < 32 then some (t.wrap (-x)) else if t.InRange (-x) then some (-x) else none

/-- `ABS_OP`, `src/UnaryOps.cpp:192-196`. -/
def absI (t : IT) (x : Int) : Option Int := if x < 0 then negI t x else some x

/-- `SIGN_OP`, `src/UnaryOps.cpp:205-209`. -/
def signI (x : Int) : Int := if 0 < x then 1 else if x < 0 then -1 else 0

/-- `_mm256_sub_epi8/16/32/64` from zero, `NEG_OP_256i*`, `src/UnaryOps.cpp:567-586`. -/
def negIV (t : IT) (v : List Int) : List Int := v.map fun (x : Int) => t.wrap (0 - x)

/-- `_mm256_abs_epi8/16/32`, `ABS_OP_256i*`, `src/UnaryOps.cpp:537-548`: the absolute value as unsigned number, taken as signed. -/
def absIV (t : IT) (v : List Int) : List Int := v.map fun (x : Int) => t.wrap x.natAbs

/-- The kernel for `ABS` of integers: with registers up to 32 bits, `src/UnaryOps.cpp:2245-2250`, one by one for 64 bits, lines 1603-1604. -/
def absCallI (t : IT) (wide : Bool) : List Int → Option (List Int) :=
  if t.bits = 64 then slowCall (absI t) else fastCall (absIV t) (absI t) (256 / t.bits) wide

/-- The kernel for `NEG` of integers, `src/UnaryOps.cpp:2305-2312`. -/
def negCallI (t : IT) (wide : Bool) : List Int → Option (List Int) := fastCall (negIV t) (negI t) (256 / t.bits) wide

/-- `INVERT_OP`, `src/UnaryOps.cpp:231-234`: `~x`. -/
def invertI (t : IT) (x : Int) : Int := t.wrap (-x - 1)

/-- `INVERT_OP_BOOL`, `src/UnaryOps.cpp:236-239`. -/
def invertBool (x : BitVec 8) : BitVec 8 := x ^^^ 1

/-! ## Floating point numbers as bit patterns -/

/-- The sign bit as a number (`__f32vec8_abs_mask`, `src/UnaryOps.cpp:87-101`, is its complement). -/
def signBit (f : FT) : Nat := 2 ^ (f.eb + f.mb)

/-- Change of sign, `NEG_OP`, `src/UnaryOps.cpp:220-224`. -/
def flip (f : FT) (b : Nat) : Nat := if f.neg b then f.mag b else f.mag b + signBit f

/-- `ABS_OP`, `src/UnaryOps.cpp:192-196`: `x < 0 ? -x : x`. -/
def absF (f : FT) (b : Nat) : Nat := if f.lt b 0 then flip f b else b

/-- `_mm256_and_ps` with the mask, `ABS_OP_256`, `src/UnaryOps.cpp:550-565`, for one lane. -/
def absFV (f : FT) (b : Nat) : Nat := b &&& (signBit f - 1)

/-- A signalling NaN becomes quiet: the result of an arithmetic instruction on a NaN (IEEE 754), used for `src/UnaryOps.cpp:588-600`. -/
def quiet (f : FT) (b : Nat) : Nat := b ||| 2 ^ (f.mb - 1)

/-- `_mm256_sub_ps` from zero, `NEG_OP_256`, `src/UnaryOps.cpp:588-602`, for one lane: `0 - x` is exact, and +0 for both zeros. -/
def negFV (f : FT) (b : Nat) : Nat := if f.isNan b then quiet f b else if f.mag b = 0 then 0 else flip f b

/-- `FLOATSIGN_OP`, `src/UnaryOps.cpp:213-217`. -/
def signF (f : FT) (b : Nat) : Nat :=
  if f.lt 0 b then f.ofInt 1 else if f.lt b 0 then f.ofInt (-1) else if f.eq b b then 0 else b

/-- The five ways in which a number is rounded to an integer: `floor`, `ceil`, `trunc`, `round` (halves away from zero; `src/UnaryOps.cpp:288-356`), and
`_MM_FROUND_NINT` (halves to the even number; lines 71-72). -/
inductive Way where
  | floor | ceil | trunc | away | even
  deriving DecidableEq, Repr

/-- Whether the integer part `q` of the magnitude is increased; `r` is the rest in units of `1 / u` (the definition of the functions in C and of
`_mm256_round_ps`, used in `src/UnaryOps.cpp:604-646`). -/
def Way.up : Way → Bool → Nat → Nat → Nat → Bool
  | .floor, neg, _, r, _ => neg && decide (r ≠ 0)
  | .ceil, neg, _, r, _ => !neg && decide (r ≠ 0)
  | .trunc, _, _, _, _ => false
  | .away, _, _, r, u => decide (u ≤ 2 * r)
  | .even, _, q, r, u => decide (u < 2 * r) || (decide (2 * r = u) && decide (q % 2 = 1))

/-- The magnitude bits of a natural number which the format represents (used in `src/UnaryOps.cpp:604-646`). -/
def magOfNat (f : FT) (n : Nat) : Nat := if n = 0 then 0 else f.roundMag n

/-- Rounding to an integer, `src/UnaryOps.cpp:288-356` and `604-646`: NaN stays NaN, numbers with so large an exponent that they are integers
(and the infinities) are returned, the sign of a zero result is that of the argument. -/
def roundF (f : FT) (way : Way) (b : Nat) : Nat :=
  if f.isNan b then quiet f b
  else if (f.bias + f.mb) * 2 ^ f.mb ≤ f.mag b then b
  else
    let m := f.scaledMag (f.mag b)
    let q := m / 2 ^ f.unit
    let r := m % 2 ^ f.unit
    (if f.neg b then signBit f else 0) + magOfNat f (if way.up (f.neg b) q r (2 ^ f.unit) then q + 1 else q)

/-- The kernel for `ABS` of floats and doubles, `src/UnaryOps.cpp:2241-2244`. -/
def absCallF (f : FT) (wide : Bool) : List Nat → Option (List Nat) :=
  fastCall (fun v => v.map (absFV f)) (fun b => some (absF f b)) (256 / (1 + f.eb + f.mb)) wide

/-- The kernel for `NEG` of floats and doubles, `src/UnaryOps.cpp:2301-2304`. -/
def negCallF (f : FT) (wide : Bool) : List Nat → Option (List Nat) :=
  fastCall (fun v => v.map (negFV f)) (fun b => some (flip f b)) (256 / (1 + f.eb + f.mb)) wide

/-- The operations which round: `FLOOR`, `CEIL`, `TRUNC`, `ROUND`, `src/UnaryOps.cpp:2320-2362`. -/
inductive RoundOp where
  | floor | ceil | trunc | round
  deriving DecidableEq, Repr

/-- The function in C, `src/UnaryOps.cpp:288-356`. -/
def RoundOp.scalar : RoundOp → Way
  | .floor => .floor
  | .ceil => .ceil
  | .trunc => .trunc
  | .round => .away

/-- The instruction, `src/UnaryOps.cpp:604-646`. -/
def RoundOp.vector : RoundOp → Way
  | .floor => .floor
  | .ceil => .ceil
  | .trunc => .trunc
  | .round => .even

/-- The kernels which round, `src/UnaryOps.cpp:2320-2362`. -/
def roundCall (f : FT) (op : RoundOp) (wide : Bool) : List Nat → Option (List Nat) :=
  fastCall (fun v => v.map (roundF f op.vector)) (fun b => some (roundF f op.scalar b)) (256 / (1 + f.eb + f.mb)) wide

/-! ## Tests -/

/-- The tests, `src/UnaryOps.cpp:241-285` and `526-530`. -/
inductive Test where
  | isnan | isnotnan | isfinite | isnotfinite | isinf | isnotinf | isnormal | isnotnormal | isnanorzero | signbit | lnot
  deriving DecidableEq, Repr

/-- A test of one number: `std::isnan`, `std::isfinite` and so on, `src/UnaryOps.cpp:241-285`. -/
def testF (f : FT) (t : Test) (b : Nat) : Bool :=
  match t with
  | .isnan => f.isNan b
  | .isnotnan => !f.isNan b
  | .isfinite => f.isFinite b
  | .isnotfinite => !f.isFinite b
  | .isinf => decide (f.mag b = f.infMag)
  | .isnotinf => !decide (f.mag b = f.infMag)
  | .isnormal => decide (2 ^ f.mb ≤ f.mag b) && f.isFinite b
  | .isnotnormal => !(decide (2 ^ f.mb ≤ f.mag b) && f.isFinite b)
  | .isnanorzero => f.eq b 0 || f.isNan b
  | .signbit => f.neg b
  | .lnot => f.eq b 0

/-- A boolean as it is stored, `src/UnaryOps.cpp:1197`. -/
def boolByte (b : Bool) : BitVec 8 := if b then 1 else 0

/-- `_mm256_cmp_ps(m0, m0, _CMP_EQ_OQ)`, `src/UnaryOps.cpp:802`. -/
def selfEq {n : Nat} (f : FT) (v : List (BitVec n)) : List (BitVec n) := v.map fun a => laneMask n (f.eq a.toNat a.toNat)

/-- `m0 & 0x7f800000`, `src/UnaryOps.cpp:979`, and the same for doubles. -/
def expBits {n : Nat} (f : FT) (a : BitVec n) : Nat := (a &&& BitVec.ofNat n f.infMag).toNat

/-- `_mm256_cmp_ps(m_finitecomp, m0 & m_finitecomp, _CMP_NEQ_OQ)`, `src/UnaryOps.cpp:979`: true if both are numbers and differ. -/
def expNe {n : Nat} (f : FT) (v : List (BitVec n)) : List (BitVec n) :=
  v.map fun a => laneMask n (!f.isNan f.infMag && !f.isNan (expBits f a) && decide (f.key f.infMag ≠ f.key (expBits f a)))

/-- The same with `_CMP_EQ_OQ`, `src/UnaryOps.cpp:1073`. -/
def expEq {n : Nat} (f : FT) (v : List (BitVec n)) : List (BitVec n) := v.map fun a => laneMask n (f.eq f.infMag (expBits f a))

/-- The vector part of the four tests which have one, `src/UnaryOps.cpp:775-1138`: `w = 8` for floats, `w = 4` for doubles. -/
def testFV {n : Nat} (f : FT) (w : Nat) (t : Test) (v : List (BitVec n)) : List (BitVec 8) :=
  match t with
  | .isnan => lutInv w (movemask (selfEq f v) &&& (2 ^ w - 1))
  | .isnotnan => lut w (movemask (selfEq f v) &&& (2 ^ w - 1))
  | .isfinite => lut w (movemask (expNe f v) &&& (2 ^ w - 1))
  | .isnotfinite => lut w (movemask (expEq f v) &&& (2 ^ w - 1))
  | _ => []

/-- Which tests have a vector part: `GetUnaryOpFast`, `src/UnaryOps.cpp:2254-2296`. -/
def Test.fast : Test → Bool
  | .isnan | .isnotnan | .isfinite | .isnotfinite => true
  | _ => false

/-- A test of an array of floats or doubles, `src/UnaryOps.cpp:2254-2296` and `1716-1990`. -/
def testCall {n : Nat} (f : FT) (w : Nat) (t : Test) (wide : Bool) (xs : List (BitVec n)) : Option (List (BitVec 8)) :=
  let s : BitVec n → Option (BitVec 8) := fun a => some (boolByte (testF f t a.toNat))
  if t.fast then fastCall (testFV f w t) s w wide xs else slowCall s xs

/-- A test of integers, `src/UnaryOps.cpp:1600-1990`: numbers which are riptide's invalid count as NaN, every number is normal and none infinite.
`LOGICAL_NOT` reads unsigned numbers as signed ones. `none`: left to numpy. -/
def testI (t : IT) : Test → Int → Option Bool
  | .isnan, x => some (decide (x = t.inv))
  | .isnotnan, x => some (!decide (x = t.inv))
  | .isfinite, x => some (!decide (x = t.inv))
  | .isnotfinite, x => some (decide (x = t.inv))
  | .isinf, _ => some false
  | .isnotinf, _ => some true
  | .isnormal, _ => some true
  | .isnotnormal, _ => some false
  | .isnanorzero, x => some (decide (x = t.inv) || decide (x = 0))
  | .signbit, _ => none
  | .lnot, x => some (decide ((IT.wrap ⟨t.bits, true⟩ x) = 0))

/-- A test of booleans, `src/UnaryOps.cpp:1600-1990`: no boolean is invalid (`src/missing_values.h:29-49`), but `ISNANORZERO` and `LOGICAL_NOT` read
them as `int8_t`. -/
def testB (x : BitVec 8) : Test → Option Bool
  | .isnan => some false
  | .isnotnan => some true
  | .isfinite => some true
  | .isnotfinite => some false
  | .isinf => some false
  | .isnotinf => some true
  | .isnormal => some true
  | .isnotnormal => some false
  | .isnanorzero => some (decide (x.toInt = -128) || decide (x = 0))
  | .signbit => none
  | .lnot => some (decide (x = 0))

/-- A test of text, `UnaryOpSlow_ISINVALID<flexible_t>`, `src/UnaryOps.cpp:1289-1314`: the first byte is zero. -/
def textInvalid (bytes : List (BitVec 8)) : Bool := decide (bytes.head? = some 0)

end Riptide.Unary
