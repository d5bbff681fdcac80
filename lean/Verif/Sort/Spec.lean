/-! # What a stable sort is -/
namespace Riptide.Sort.Spec

/-- `lt` is a strict weak order on the values with `P`. -/
structure Weak {α : Type} (P : α → Prop) (lt : α → α → Bool) : Prop where
  asymm : ∀ x y, P x → P y → lt x y = true → lt y x = false
  /-- "not after" is transitive -/
  trans : ∀ x y z, P x → P y → P z → lt y x = false → lt z y = false → lt z x = false

/-- Neither comes before the other. -/
def tie {α : Type} (lt : α → α → Bool) (x y : α) : Bool := !lt x y && !lt y x

/-- `out` is the stable sort of `xs`: the same elements, none after a larger one, and tied elements in
the order they have in `xs`. -/
structure StableSort {α : Type} (lt : α → α → Bool) (xs out : List α) : Prop where
  perm : out.Perm xs
  sorted : out.Pairwise fun x y => lt y x = false
  stable : ∀ z ∈ xs, out.filter (tie lt z) = xs.filter (tie lt z)

/-- Lexicographic order on rows by several columns; the *last* column of the list is the most significant. -/
def lexLt {α : Type} : List (α → α → Bool) → α → α → Bool
  | [], _, _ => false
  | lt :: lts, x, y => lexLt lts x y || (!lexLt lts y x && lt x y)

end Riptide.Sort.Spec
