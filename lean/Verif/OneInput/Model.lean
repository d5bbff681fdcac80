import Verif.Unary.Model
import Verif.Unary.Strided
/-! # Model of `process_one_input`, the second engine for operations on one array, `src/one_input.cpp` and `src/one_input_impl.h`

Items are integers: the number itself for an integer type, the bit pattern for a floating point type. -/
namespace Riptide.OneInput
open Riptide.Unary Riptide.Binary

/-- The operations `get_op_trait` knows, `src/one_input.cpp:173-218`. -/
inductive Op where
  | abs | isnan | isnotnan | isfinite | isnotfinite | bnot | round (r : RoundOp) | sqrt
  deriving DecidableEq, Repr

/-- `get_op_trait`, `src/one_input.cpp:173-218`, by the numbers of `src/CommonInc.h:184-246`. `none`: an exception. `NEG` (202) is taken
as `INVERT` (204), lines 192-197. -/
def opOf (fn : Nat) : Option Op :=
  if fn = 201 then some .abs
  else if fn = 604 then some .isnan
  else if fn = 608 then some .isnotnan
  else if fn = 605 then some .isfinite
  else if fn = 609 then some .isnotfinite
  else if fn = 202 then some .bnot
  else if fn = 204 then some .bnot
  else if fn = 205 then some (.round .floor)
  else if fn = 206 then some (.round .ceil)
  else if fn = 207 then some (.round .trunc)
  else if fn = 208 then some (.round .round)
  else if fn = 301 then some .sqrt
  else none

/-- `value_return`, `src/operation_traits.h:53-156`: the result has the type of the items, not `bool`. -/
def Op.value : Op → Bool
  | .isnan | .isnotnan | .isfinite | .isnotfinite => false
  | _ => true

/-- The types `get_type_trait` knows, `src/one_input.cpp:114-171`. -/
inductive Ty where
  | int (t : IT) | flt (f : FT) | text
  deriving DecidableEq, Repr

/-- `get_type_trait`, `src/one_input.cpp:114-171`, by numpy's numbers. `none`: an exception. -/
def tyOf (n : Nat) : Option Ty :=
  match n with
  | 1 => some (.int .i8)
  | 2 => some (.int .u8)
  | 3 => some (.int .i16)
  | 4 => some (.int .u16)
  | 5 => some (.int .i32)
  | 6 => some (.int .u32)
  | 7 => some (.int .i64)
  | 8 => some (.int .u64)
  | 9 => some (.int .i64)
  | 10 => some (.int .u64)
  | 11 => some (.flt .f32)
  | 12 => some (.flt .f64)
  | 18 => some .text
  | 19 => some .text
  | _ => none

/-- What `calculate` does with one item, `src/one_input_impl.h:24-475`: `size` bytes of the item, the same of the result; one lane of a
register, if the result is a register; the item alone, `none` if undefined. -/
structure Kern where
  size : Nat
  wide : Option (Int → Int)
  scalar : Int → Option Int

/-- The result of a test, `src/one_input_impl.h:387-475`: no bit or all bits of an item of the type. -/
def mask (f : FT) (c : Bool) : Int := if c then ((2 ^ (1 + f.eb + f.mb) - 1 : Nat) : Int) else 0

/-- `std::abs` of a signed integer, `src/one_input_impl.h:47`: narrow types are promoted to `int`. -/
def stdAbs (t : IT) (x : Int) : Option Int :=
  if t.bits < 32 then some (t.wrap x.natAbs) else if t.InRange x.natAbs then some x.natAbs else none

/-- The absolute value of a lane, `src/simd/avx2.h:214-217`, `1078-1081` and `1979-1982`; for 64 bits without AVX-512 (lines 2943-2953) the
sign bit is cleared. -/
def laneAbs (t : IT) (x : Int) : Int := if t.bits = 64 then x % 2 ^ 63 else t.wrap x.natAbs

/-- `calculate` for integers, `src/one_input_impl.h:24-475`. `sq` is the square root of the hardware. -/
def kernI (sq : FT → Nat → Nat) (t : IT) : Op → Kern
  | .abs => ⟨t.bits / 8, if t.signed then some (laneAbs t) else none, if t.signed then stdAbs t else some⟩
  | .isnan | .isnotnan | .isfinite | .isnotfinite => ⟨t.bits / 8, none, fun _ => some 0⟩
  | .bnot => ⟨t.bits / 8, none, fun x => some (invertI t x)⟩
  | .round r => ⟨t.bits / 8, none, fun x => FT.f64.toInt t (roundF .f64 r.scalar (FT.f64.ofInt x))⟩
  | .sqrt => ⟨t.bits / 8, none, fun x => FT.f64.toInt t (sq .f64 (FT.f64.ofInt x))⟩

/-- `calculate` for floating point numbers, `src/one_input_impl.h:24-475`, with `src/simd/avx2.h` for the registers. -/
def kernF (sq : FT → Nat → Nat) (f : FT) : Op → Kern
  | .abs => ⟨(1 + f.eb + f.mb) / 8, some fun x => absFV f x.toNat, fun x => some (absFV f x.toNat)⟩
  | .isnan => ⟨(1 + f.eb + f.mb) / 8, some fun x => mask f (f.isNan x.toNat), fun x => some (mask f (f.isNan x.toNat))⟩
  | .isnotnan => ⟨(1 + f.eb + f.mb) / 8, some fun x => mask f (!f.isNan x.toNat), fun x => some (mask f (!f.isNan x.toNat))⟩
  | .isfinite => ⟨(1 + f.eb + f.mb) / 8, none, fun x => some (mask f (f.isFinite x.toNat))⟩
  | .isnotfinite => ⟨(1 + f.eb + f.mb) / 8, none, fun x => some (mask f (!f.isFinite x.toNat))⟩
  | .bnot => ⟨(1 + f.eb + f.mb) / 8, none, fun _ => some f.qnan⟩
  | .round r => ⟨(1 + f.eb + f.mb) / 8, some fun x => roundF f r.vector x.toNat, fun x => some (roundF f r.scalar x.toNat)⟩
  | .sqrt => ⟨(1 + f.eb + f.mb) / 8, some fun x => sq f x.toNat, fun x => some (sq f x.toNat)⟩

/-- The kernel for a type, `src/one_input_impl.h:611-635`. Texts are no member of `data_type_t` (`src/operation_traits.h:37-50`): nothing is
called for them. -/
def kernOf (sq : FT → Nat → Nat) (op : Op) : Ty → Option Kern
  | .int t => some (kernI sq t op)
  | .flt f => some (kernF sq f op)
  | .text => none

/-- What a walk does. -/
inductive Walk where
  /-- values stored at distances in bytes from the beginning of the output -/
  | done (writes : List (Int × Int))
  | never
  | undef
  deriving DecidableEq, Repr

/-- One register or one item, `perform_operation`, `src/one_input_impl.h:567-609`: the values stored, of the items from `off` on. -/
def step (k : Kern) (read : Int → Int) (os : Int) (n off : Nat) : Option (List Int) :=
  match k.wide with
  | some w =>
    if os = (k.size : Int) ∧ 32 / k.size + off < n then
      some ((List.range (32 / k.size)).map fun (j : Nat) => w (read ((off : Int) * os + (j : Int) * (k.size : Int))))
    else (k.scalar (read ((off : Int) * os))).map fun v => [v]
  | none => (k.scalar (read ((off : Int) * os))).map fun v => [v]

/-- The values of one store, side by side, `src/one_input_impl.h:575-583`. -/
def place (size : Nat) (at_ : Int) : List Int → List (Int × Int)
  | [] => []
  | v :: r => (at_, v) :: place size (at_ + size) r

/-- `walk_data_array`, `src/one_input_impl.h:643-654`; `fuel` bounds the number of steps. -/
def walk (k : Kern) (read : Int → Int) (inner os so : Int) (n : Nat) : Nat → Nat → Option (List (Int × Int))
  | 0, _ => some []
  | fuel + 1, off =>
    if off < n then
      match step k read os n off with
      | none => none
      | some vs => (walk k read inner os so n fuel (off + vs.length)).map (place k.size ((off : Int) * inner * so) vs ++ ·)
    else some []

/-- `walk_data_array`, `src/one_input_impl.h:643-654`: without a kernel the offset is never advanced. -/
def walkAll (k : Option Kern) (read : Int → Int) (inner os so : Int) (n : Nat) : Walk :=
  match k with
  | none => if 0 < n then .never else .done []
  | some k =>
    match walk k read inner os so n n 0 with
    | none => .undef
    | some ws => .done ws

/-- The bytes stored, `src/one_input_impl.h:575-583`: each with the value it belongs to and its place in it. -/
def cells (size : Nat) (ws : List (Int × Int)) : List (Int × Int × Nat) :=
  ws.flatMap fun w => (List.range size).map fun (b : Nat) => (w.1 + (b : Int), w.2, b)

/-- The last byte stored at a place, `src/one_input_impl.h:575-583`. -/
def lastAt (cs : List (Int × Int × Nat)) (p : Int) : Option (Int × Nat) := (cs.reverse.find? fun c => c.1 == p).map fun c => c.2

/-- The item at a place of the output, if its bytes are the ones of one value, `src/one_input_impl.h:575-583`. `none`: kept, or a mixture. -/
def itemAt (cs : List (Int × Int × Nat)) (size : Nat) (p : Int) : Option Int :=
  match lastAt cs p with
  | some (v, 0) => if (List.range size).all fun (b : Nat) => lastAt cs (p + (b : Int)) == some (v, b) then some v else none
  | _ => none

/-- A byte of one of the `len` items of `item` bytes, `so` bytes apart, of the output (`src/one_input.cpp:84-88`). -/
def inItems (so : Int) (item len : Nat) (p : Int) : Bool :=
  (List.range len).any fun (i : Nat) => decide ((i : Int) * so ≤ p) && decide (p < (i : Int) * so + (item : Int))

/-- What the call does. -/
inductive Out where
  /-- a new array with these items -/
  | array (items : List (Option Int))
  /-- `None`; the items stored into the given array -/
  | nothing (items : List (Option Int))
  | throws
  | never
  /-- undefined arithmetic, or bytes stored outside of the items of the output -/
  | bad
  deriving DecidableEq, Repr

/-- The output after a walk (`src/one_input.cpp:43-46` and `83-104`), its items `so` bytes apart. -/
def settle (w : Walk) (size item len : Nat) (so : Int) (out : List (Option Int) → Out) : Out :=
  match w with
  | .never => .never
  | .undef => .bad
  | .done ws =>
    if (cells size ws).all fun c => inItems so item len c.1 then out ((List.range len).map fun (i : Nat) => itemAt (cells size ws) item ((i : Int) * so))
    else .bad

/-- The bytes of a value, 0 for texts (`src/operation_traits.h:12-50`). -/
def kernSize : Option Kern → Nat
  | none => 0
  | some k => k.size

/-- The walk of the second branch, `src/one_input.cpp:92-103`, with `walk_row_major` and `walk_column_major`, `src/one_input_impl.h:656-691`. -/
def walkGiven (k : Option Kern) (read : Int → Int) (a : Lay) (so : Int) : Walk :=
  if (contig a).1 = 0 then walkAll k read (a.dims.length : Int) (contig a).2 so a.len
  else if (contig a).1 = 1 then walkAll k read (prod (a.dims.drop 1) : Int) (str a 0) so (dim a 0)
  else if (contig a).1 = -1 then
    walkAll k read ((dim a 0 : Int) * (dim a 1 : Int)) (dim a (a.dims.length - 1) : Int) so (dim a (a.dims.length - 1))
  else .done []

/-- The second branch of `process_one_input`, `src/one_input.cpp:56-105`: the output is given, or the input is not walked by one distance. -/
def second (k : Option Kern) (op : Op) (ty : Nat) (a : Lay) (read : Int → Int) (given : Option (Nat × Lay)) : Out :=
  let osz := if op.value then a.item else 1
  match given with
  | some (gt, o) =>
    if gt ≠ (if op.value then ty else 0) ∨ a.len ≠ o.len then .nothing (List.replicate o.len none)
    else if (contig o).1 = 0 then settle (walkGiven k read a (contig o).2) (kernSize k) o.item o.len (contig o).2 .nothing
    else .nothing (List.replicate o.len none)
  | none =>
    let o := newOut a osz
    if (contig o).1 = 0 then settle (walkGiven k read a (contig o).2) (kernSize k) osz o.len (contig o).2 fun _ => .nothing []
    else .nothing []

/-- `process_one_input`, `src/one_input.cpp:18-110`: `read` gives the item at a distance from the beginning of the input; `given` is the output
with its type, if `numpy_outtype` is not -1. Simplified: memory is there (lines 48-52), and an output type without an output (line 72) does not
happen. -/
def call (sq : FT → Nat → Nat) (fn ty : Nat) (a : Lay) (read : Int → Int) (given : Option (Nat × Lay)) : Out :=
  match opOf fn with
  | none => .throws
  | some op =>
    match tyOf ty with
    | none => .throws
    | some t =>
      if (contig a).1 = 0 ∧ given = none then
        let osz := if op.value then a.item else 1
        settle (walkAll (kernOf sq op t) read 1 (contig a).2 (contig a).2 a.len) (kernSize (kernOf sq op t)) osz a.len osz .array
      else second (kernOf sq op t) op ty a read given

end Riptide.OneInput
