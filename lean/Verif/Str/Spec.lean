/-! # What a fixed-width string means, independent of the code -/
namespace Riptide.Str.Spec

/-- The contents of a NUL-padded string: trailing zero bytes removed. -/
def content : List Nat → List Nat
  | [] => []
  | x :: xs => if x = 0 ∧ content xs = [] then [] else x :: content xs

/-- No NUL inside the contents: everything after the first NUL is padding. -/
def NoInnerNul (s : List Nat) : Prop :=
  ∀ i j, i ≤ j → s[i]? = some 0 → s[j]? = some 0 ∨ s.length ≤ j

/-- The order of strings: lexicographic order of the contents, a proper prefix is smaller. -/
def Before (a b : List Nat) : Prop := content a < content b

/-- `lt` is a strict total order up to `eq`. -/
structure StrictTotal {α : Type} (P : α → Prop) (eq : α → α → Prop) (lt : α → α → Bool) : Prop where
  irrefl : ∀ a, P a → lt a a = false
  trans : ∀ a b c, P a → P b → P c → lt a b = true → lt b c = true → lt a c = true
  total : ∀ a b, P a → P b → lt a b = true ∨ eq a b ∨ lt b a = true

end Riptide.Str.Spec
