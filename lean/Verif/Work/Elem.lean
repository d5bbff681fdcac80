import Verif.Work.Sched
import Verif.Common.Writes
/-! Element-wise parallel operations: each row of the output is computed on its own. -/
namespace Riptide.Work

/-- Rows `[start, start+len)` computed by `f` (`none`: undefined behaviour) and written to the
output. -/
def elemBlock {α : Type} (f : Nat → Option α) (start len : Nat) : Option (List (Nat × α)) :=
  (List.range' start len).mapM fun i => (f i).map fun v => (i, v)

/-- The pattern of `DoMultiThreadedChunkWork` (`src/MathWorker.h:267-292`) and of the callbacks with
a `GetNextWorkBlock` loop: everything at once, or block by block in completion order. -/
def elemWork {α : Type} (f : Nat → Option α) (n : Nat) (par : Option (List Nat)) :
    Option (List (Nat × α)) :=
  match par with
  | none => elemBlock f 0 n
  | some calls =>
    (calls.mapM fun b => elemBlock f (chunk * b)
      (blockLen n chunk (blockLastGeneric n chunk) b)).map List.flatten

theorem range_zipIdx_swap {α : Type} (f : Nat → α) (n : Nat) :
    ((List.range n).map fun i => (i, f i)) = (((List.range n).map f).zipIdx.map Prod.swap) := by
  apply List.ext_getElem?
  intro i
  by_cases h : i < n
  · simp [h]
  · rw [List.getElem?_eq_none (by simp; omega), List.getElem?_eq_none (by simp; omega)]

/-- If every row is defined, every schedule writes every row once. -/
theorem elemWork_perm {α : Type} (f : Nat → Option α) (g : Nat → α) {n : Nat}
    (hf : ∀ i, i < n → f i = some (g i)) {workers : Nat} {nt : Bool} {par : Option (List Nat)}
    (h : ChunkSched workers n nt par) :
    ∃ ws, elemWork f n par = some ws ∧ ws.Perm ((List.range n).map fun i => (i, g i)) := by
  have hrow : ∀ l : List Nat, (∀ i ∈ l, i < n) →
      (l.mapM fun i => (f i).map fun v => (i, v)) = some (l.map fun i => (i, g i)) := by
    intro l hl
    exact mapM_some _ _ l (fun i hi => by rw [hf i (hl i hi)]; rfl)
  rcases h.cases with ⟨rfl, _⟩ | ⟨calls, rfl, _, hp⟩
  · refine ⟨_, ?_, List.Perm.refl _⟩
    show elemBlock f 0 n = _
    rw [elemBlock, hrow _ (fun i hi => by simpa using hi), List.range_eq_range']
  · refine ⟨(calls.map fun b => (blockRows n chunk b).map fun i => (i, g i)).flatten, ?_,
      blocks_perm (fun l => l.map fun i => (i, g i)) (by simp) rfl hp⟩
    show (calls.mapM fun b => elemBlock f (chunk * b)
      (blockLen n chunk (blockLastGeneric n chunk) b)).map List.flatten = _
    rw [mapM_some _ (fun b => (blockRows n chunk b).map fun i => (i, g i)) calls]
    · rfl
    · intro b hb
      have hb' : b < blockLastGeneric n chunk := by
        have := hp.mem_iff.1 hb; simpa using this
      show elemBlock f _ _ = _
      have : ∀ i ∈ blockRows n chunk b, i < n := by
        intro i hi
        have hc := blocks_cover n
        have : i ∈ (List.range (blockLastGeneric n chunk)).flatMap (blockRows n chunk) :=
          List.mem_flatMap.2 ⟨b, by simpa using hb', hi⟩
        rw [hc] at this
        simpa using this
      exact hrow _ this

/-- If every row is defined, every schedule writes the same complete output. -/
theorem elemWork_exact {α : Type} (f : Nat → Option α) (g : Nat → α) {n : Nat}
    (hf : ∀ i, i < n → f i = some (g i)) {workers : Nat} {nt : Bool} {par : Option (List Nat)}
    (h : ChunkSched workers n nt par) :
    (elemWork f n par).bind (runWrites n) = some (((List.range n).map g).map some) := by
  obtain ⟨ws, h1, h2⟩ := elemWork_perm f g hf h
  have hn : ((List.range n).map g).length = n := by simp
  have := runWrites_perm (l := (List.range n).map g) (ws := ws) (by rw [← range_zipIdx_swap]; exact h2)
  rw [hn] at this
  rw [h1, Option.bind_some, this]

end Riptide.Work
