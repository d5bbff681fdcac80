import Verif.Work.Props
/-! Consequences of the block-coverage theorems used by the other areas. -/
namespace Riptide.Work


/-- Per-row results computed block by block, in any order, are a permutation of the results
computed in row order. -/
theorem blocks_perm {α : Type} (g : List Nat → List α)
    (hg : ∀ x y, g (x ++ y) = g x ++ g y) (h0 : g [] = [])
    {len : Nat} {calls : List Nat} (h : calls.Perm (List.range (blockLastGeneric len chunk))) :
    ((calls.map fun b => g (blockRows len chunk b)).flatten).Perm (g (List.range len)) := by
  have e : ∀ l : List Nat, (l.map fun b => g (blockRows len chunk b)).flatten =
      g (l.flatMap (blockRows len chunk)) := by
    intro l
    induction l with
    | nil => simp [h0]
    | cons a l ih => simp only [List.map_cons, List.flatten_cons, ih, List.flatMap_cons, hg]
  rw [← blocks_cover len, ← e]
  exact (h.map _).flatten

theorem sched_same {workers len : Nat} {nt : Bool} {p1 p2 : Option (List Nat)}
    (h1 : ChunkSched workers len nt p1) (h2 : ChunkSched workers len nt p2) :
    (p1 = none ↔ p2 = none) := by
  rcases h1.cases with ⟨rfl, a⟩ | ⟨c, rfl, a, _⟩ <;>
  rcases h2.cases with ⟨rfl, b⟩ | ⟨d, rfl, b, _⟩ <;> simp_all

end Riptide.Work
