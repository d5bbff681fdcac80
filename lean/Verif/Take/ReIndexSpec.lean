import Verif.Take.ReIndex
/-! What re-indexing is to give: for each entry of the index the item of that number. -/
namespace Riptide.ReIndex
open Riptide.Hash

/-- The number an index entry of the given type stands for: signed or unsigned, little endian. -/
def entry (ty : Ty) (bytes : List UInt8) : Int :=
  let u : Int := leWord bytes
  match ty with
  | .i32 => if u < 2 ^ 31 then u else u - 2 ^ 32
  | .i64 => if u < 2 ^ 63 then u else u - 2 ^ 64
  | _ => u

/-- An array of integers of 32 or 64 bits. -/
def IsIndex (c : Col) : Prop :=
  (c.ty = .i32 ∨ c.ty = .u32) ∧ c.width = 4 ∧ (∀ b ∈ c.items, b.length = 4) ∨
  (c.ty = .i64 ∨ c.ty = .u64) ∧ c.width = 8 ∧ (∀ b ∈ c.items, b.length = 8)

/-- Every entry is the number of a row of the data. -/
def InRange (index : Col) (n : Nat) : Prop :=
  ∀ b ∈ index.items, 0 ≤ entry index.ty b ∧ entry index.ty b < n

/-- The items in the order of the index. -/
def taken (index data : Col) : List (List UInt8) :=
  index.items.map fun b => data.items.getD (entry index.ty b).toNat []

end Riptide.ReIndex
