import Verif.Quick.Spec
import Verif.Str.Spec
import Verif.Arrays.NumsSpec
/-! Arrays which can be sorted (C151). -/
namespace Riptide.Quick.Call.Spec
open Riptide.Nums Riptide.Mask.Call.Spec

/-- numpy's numbers of the types of integers; booleans are `int8_t`. -/
def IntType (type : Nat) (t : IT) : Prop :=
  (type, t) ∈ [(0, IT.i8), (1, .i8), (2, .u8), (3, .i16), (4, .u16), (5, .i32), (6, .u32), (7, .i64), (9, .i64), (8, .u64), (10, .u64)]

/-- numpy's numbers of the types of floats, and their bytes. -/
def FloatType (type : Nat) (f : FT) (w : Nat) : Prop := (type, f, w) ∈ [(11, FT.f32, 4), (12, .f64, 8)]

/-- Strings with characters of one byte, and unicode with characters of four. -/
def TextType (type u : Nat) : Prop := (type, u) ∈ [(18, 1), (19, 4)]

/-- The item at `o` has these characters of `u` bytes. -/
def HasRow (u : Nat) (sw : Bool) (m : Mem) (o : Int) (r : List Nat) : Prop :=
  ∀ j : Nat, j < r.length → HasBits u sw m (o + ((u * j : Nat) : Int)) (r.getD j 0)

/-- The array holds these rows of `k` characters each, in the order in which numpy lists them. -/
def Rows (u k : Nat) (a : Arr) (m : Mem) (rs : List (List Nat)) : Prop :=
  AllAt (fun o r => r.length = k ∧ HasRow u a.swapped m o r) (inC a.lay.dims a.lay.strides) rs

/-- Rows which are equal lie together. -/
def Together (rs : List (List Nat)) : Prop :=
  ∀ (i j k : Nat), i < j → j < k → ∀ r, rs[i]? = some r → rs[k]? = some r → rs[j]? = some r

instance (type : Nat) (t : IT) : Decidable (IntType type t) := inferInstanceAs (Decidable (_ ∈ _))
instance (type : Nat) (f : FT) (w : Nat) : Decidable (FloatType type f w) := inferInstanceAs (Decidable (_ ∈ _))
instance (type u : Nat) : Decidable (TextType type u) := inferInstanceAs (Decidable (_ ∈ _))
instance (u : Nat) (sw : Bool) (m : Mem) (o : Int) (r : List Nat) : Decidable (HasRow u sw m o r) :=
  inferInstanceAs (Decidable (∀ j : Nat, j < r.length → _))
instance (u k : Nat) (a : Arr) (m : Mem) (rs : List (List Nat)) : Decidable (Rows u k a m rs) := decAllAt _ _ rs

end Riptide.Quick.Call.Spec
