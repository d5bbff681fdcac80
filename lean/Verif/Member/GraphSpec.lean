/-! # What is asked of membership -/
namespace Riptide.Member

/-- The answer for `v`: the place of the first item that is equal, if there is one. -/
def IsFirst {α : Type} (eq : α → α → Bool) (data : List α) (v : α) (a : Option Nat) : Prop :=
  match a with
  | none => ∀ x ∈ data, eq x v = false
  | some i => (∃ x, data[i]? = some x ∧ eq x v = true) ∧ ∀ k x, k < i → data[k]? = some x → eq x v = false

/-- The same with any place of an equal item. -/
def IsSome {α : Type} (eq : α → α → Bool) (data : List α) (v : α) (a : Option Nat) : Prop :=
  match a with
  | none => ∀ x ∈ data, eq x v = false
  | some i => ∃ x, data[i]? = some x ∧ eq x v = true

/-- The text of a string of fixed width: up to a NUL. -/
def text (s : List Nat) : List Nat := s.takeWhile (· ≠ 0)

/-- The strings of `len` characters in an array. -/
def texts (len n : Nat) (chars : List Nat) : List (List Nat) := (List.range n).map (fun i => text ((chars.drop (i * len)).take len))

end Riptide.Member
