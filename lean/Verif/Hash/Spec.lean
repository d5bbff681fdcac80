import Verif.Common.Num
/-! # What membership means, independent of hashing -/
namespace Riptide.Hash.Spec

/-- `j` is the first position of `b` with a key that `same` accepts. -/
def FirstAt {K : Type} (same : K → Prop) (b : List K) (j : Nat) : Prop :=
  (∃ y, b[j]? = some y ∧ same y) ∧ ∀ (i : Nat) y, i < j → b[i]? = some y → ¬ same y

/-- The answer of `ismember` for one element. -/
def IsAnswer {K : Type} (same : K → Prop) (b : List K) (bad : Int) (found : Bool) (loc : Int) : Prop :=
  (found = true ∧ ∃ j : Nat, loc = (j : Int) ∧ FirstAt same b j) ∨
  (found = false ∧ loc = bad ∧ ∀ y ∈ b, ¬ same y)

/-- Number of keys that differ from every earlier key (`seen` and the preceding ones). -/
def distinctFrom {K : Type} (eq : K → K → Bool) : List K → List K → Nat
  | _, [] => 0
  | seen, k :: ks => (if seen.any (fun x => eq x k) then 0 else 1) + distinctFrom eq (seen ++ [k]) ks

/-- Number of distinct keys. -/
def distinct {K : Type} (eq : K → K → Bool) (l : List K) : Nat := distinctFrom eq [] l

/-- Numeric equality of two bit patterns: neither is a NaN, and they are the same pattern or both are
zeros (`+0.0` and `-0.0`). -/
def SameFloat (f : FT) (x y : Nat) : Prop :=
  ¬ f.infMag < x % 2 ^ (f.eb + f.mb) ∧ ¬ f.infMag < y % 2 ^ (f.eb + f.mb) ∧
  (x = y ∨ (x % 2 ^ (f.eb + f.mb) = 0 ∧ y % 2 ^ (f.eb + f.mb) = 0))

/-- The bit patterns of the two zeros. -/
def IsZero (f : FT) (z : Nat) : Prop := z = 0 ∨ z = 2 ^ (f.eb + f.mb)

/-- Group numbering by first appearance of rows `(key, kept)`. -/
structure Numbering {K : Type} (rows : List (K × Bool)) (bins firsts : List Nat) : Prop where
  /-- one bin per row -/
  length : bins.length = rows.length
  /-- filtered rows are in bin 0 -/
  filtered : ∀ (i : Nat) k, rows[i]? = some (k, false) → bins[i]? = some 0
  /-- kept rows are in one of the bins `1 .. k` -/
  range : ∀ (i : Nat) k, rows[i]? = some (k, true) → ∃ g, bins[i]? = some (g + 1) ∧ g < firsts.length
  /-- two kept rows share their bin exactly when the keys are the same -/
  same : ∀ (i j : Nat) k k', rows[i]? = some (k, true) → rows[j]? = some (k', true) →
    (bins[i]? = bins[j]? ↔ k = k')
  /-- the reported row of a bin is the first one in it -/
  first : ∀ (g f : Nat), firsts[g]? = some f →
    bins[f]? = some (g + 1) ∧ ∀ (j : Nat), j < f → bins[j]? ≠ some (g + 1)
  /-- bins are numbered in the order in which they first appear -/
  order : firsts.Pairwise (· < ·)

/-- `l` is the last position of `c`. -/
def LastAt {C : Type} (cs : List C) (c : C) (l : Nat) : Prop :=
  cs[l]? = some c ∧ ∀ j : Nat, l < j → cs[j]? ≠ some c

/-- `o` is the nearest earlier position with the same entry as position `i`, if there is one. -/
def PrevAt {C : Type} (cs : List C) (i : Nat) : Option Nat → Prop
  | none => ∀ j : Nat, j < i → cs[j]? ≠ cs[i]?
  | some j => j < i ∧ cs[j]? = cs[i]? ∧ ∀ l : Nat, j < l → l < i → cs[l]? ≠ cs[i]?

/-- `o` is the nearest later position with the same entry as position `i`, if there is one. -/
def NextAt {C : Type} (cs : List C) (i : Nat) : Option Nat → Prop
  | none => ∀ j : Nat, i < j → cs[j]? ≠ cs[i]?
  | some j => i < j ∧ cs[j]? = cs[i]? ∧ ∀ l : Nat, i < l → l < j → cs[l]? ≠ cs[i]?

/-- `f` is the first position of `c`. -/
def FirstIs {C : Type} (cs : List C) (c : C) (f : Nat) : Prop :=
  cs[f]? = some c ∧ ∀ j : Nat, j < f → cs[j]? ≠ some c

/-- What `MultiKeyHash` reports for every row of `keys`. -/
structure Linked {K : Type} [DecidableEq K] (keys : List K) (uniques : Nat) (index running : List Nat)
    (prev next : List (Option Nat)) (first : List Nat) : Prop where
  /-- group numbers by first appearance -/
  num : ∃ firsts, Numbering (keys.map fun k => (k, true)) index firsts ∧ firsts.length = uniques
  /-- how often the key occurred up to this row -/
  run : running.length = keys.length ∧
    ∀ (i : Nat) k, keys[i]? = some k → running[i]? = some ((keys.take (i + 1)).count k)
  /-- nearest earlier row of the same key -/
  prev : prev.length = keys.length ∧ ∀ (i : Nat) o, prev[i]? = some o → PrevAt keys i o
  /-- nearest later row of the same key -/
  next : next.length = keys.length ∧ ∀ (i : Nat) o, next[i]? = some o → NextAt keys i o
  /-- first row of the same key -/
  first : first.length = keys.length ∧
    ∀ (i : Nat) k, keys[i]? = some k → ∃ f, first[i]? = some f ∧ FirstIs keys k f

end Riptide.Hash.Spec
