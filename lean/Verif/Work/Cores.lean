import Verif.Work.Elem
/-! Which core processes which block: per-core call lists. -/
namespace Riptide.Work

/-- The blocks processed by each of `cores` cores, in order, when the blocks complete in the order
`calls` and block `b` is taken by core `who b`.  Every run of the pool has this form because no block
is taken twice (`no_item_started_twice`). -/
def perCore (calls : List Nat) (who : Nat → Nat) (cores : Nat) : List (List Nat) :=
  (List.range cores).map fun c => calls.filter fun b => who b == c

theorem perCore_flatten_perm {calls : List Nat} {who : Nat → Nat} {cores : Nat}
    (h : ∀ b ∈ calls, who b < cores) : (perCore calls who cores).flatten.Perm calls := by
  induction cores generalizing calls with
  | zero =>
    cases calls with
    | nil => exact List.Perm.refl _
    | cons a l => exact absurd (h a (by simp)) (by omega)
  | succ n ih =>
    unfold perCore
    rw [List.range_succ, List.map_append, List.flatten_append]
    simp only [List.map_cons, List.map_nil, List.flatten_cons, List.flatten_nil, List.append_nil]
    have e : (List.range n).map (fun c => calls.filter fun b => who b == c) =
        perCore (calls.filter fun b => !(who b == n)) who n := by
      unfold perCore
      apply List.map_congr_left
      intro c hc
      rw [List.filter_filter]
      apply List.filter_congr
      intro b _
      have : c < n := by simpa using hc
      by_cases h1 : who b = c
      · simp [h1]; omega
      · simp [h1]
    rw [e]
    refine List.Perm.trans (List.Perm.append_right _ (ih ?_)) ?_
    · intro b hb
      rw [List.mem_filter] at hb
      have h1 := h b hb.1
      have h2 : who b ≠ n := by simpa using hb.2
      omega
    · refine List.Perm.trans List.perm_append_comm ?_
      exact List.filter_append_perm (fun b => who b == n) calls

/-- Runs of a scatter/gather operation (`WorkScatterGatherCall`, `src/Reduce.cpp:420-562`;
`GroupBySingleOpMultithreaded`): directly on the calling thread, or every core processing its own
list of blocks.  `WorkerThreadCount + 1` cores. -/
inductive CoreSched (workers len : Nat) (noThreading : Bool) : Option (List (List Nat)) → Prop where
  | direct (h : len < big ∨ noThreading = true) : CoreSched workers len noThreading none
  | pool (calls : List Nat) (who : Nat → Nat) (h1 : ¬ (len < big ∨ noThreading = true))
      (h2 : PoolRun workers (blockLastGeneric len chunk) calls) (h3 : ∀ b, who b < workers + 1) :
      CoreSched workers len noThreading (some (perCore calls who (workers + 1)))

theorem CoreSched.cases {workers len : Nat} {nt : Bool} {o : Option (List (List Nat))}
    (h : CoreSched workers len nt o) :
    (o = none ∧ (len < big ∨ nt = true)) ∨
    ∃ cores, o = some cores ∧ ¬ (len < big ∨ nt = true) ∧
      cores.flatten.Perm (List.range (blockLastGeneric len chunk)) := by
  cases h with
  | direct h => exact .inl ⟨rfl, h⟩
  | pool calls who h1 h2 h3 =>
    exact .inr ⟨_, rfl, h1, (perCore_flatten_perm fun b _ => h3 b).trans h2.perm⟩

/-- The elements of block `b` (`pDataIn + BlockSize * workBlock * itemSize`, `lenX` elements). -/
def blockElems {α : Type} (xs : List α) (b : Nat) : List α :=
  (xs.drop (chunk * b)).take (blockLen xs.length chunk (blockLastGeneric xs.length chunk) b)

theorem range'_filterMap_getElem? {α : Type} (xs : List α) (s k : Nat) :
    (List.range' s k).filterMap (fun i => xs[i]?) = (xs.drop s).take k := by
  induction k generalizing s with
  | zero => simp
  | succ k ih =>
    rw [List.range'_succ, List.filterMap_cons, ih]
    by_cases h : s < xs.length
    · rw [List.getElem?_eq_getElem h, List.drop_eq_getElem_cons h, List.take_succ_cons]
    · rw [List.getElem?_eq_none (by omega), List.drop_eq_nil_of_le (by omega),
        List.drop_eq_nil_of_le (by omega)]
      simp

theorem blockElems_cover {α : Type} (xs : List α) :
    ((List.range (blockLastGeneric xs.length chunk)).map (blockElems xs)).flatten = xs := by
  have h1 : ∀ l : List Nat, (l.map (blockElems xs)).flatten =
      (l.flatMap (blockRows xs.length chunk)).filterMap (fun i => xs[i]?) := by
    intro l
    induction l with
    | nil => rfl
    | cons b l ih =>
      rw [List.map_cons, List.flatten_cons, ih, List.flatMap_cons, List.filterMap_append]
      congr 1
      exact (range'_filterMap_getElem? xs _ _).symm
  rw [h1, blocks_cover, List.range_eq_range', range'_filterMap_getElem?]
  simp

theorem blockElems_ne_nil {α : Type} (xs : List α) {b : Nat}
    (hb : b < blockLastGeneric xs.length chunk) : blockElems xs b ≠ [] := by
  intro h
  have hl := congrArg List.length h
  unfold blockElems at hl
  rw [List.length_take, List.length_drop, List.length_nil] at hl
  have hlen : 0 < blockLen xs.length chunk (blockLastGeneric xs.length chunk) b := by
    unfold blockLen
    have hc : 0 < chunk := by decide
    split
    · split <;> omega
    · exact hc
  have : chunk * b < xs.length := by
    unfold blockLastGeneric at hb
    have hc : chunk = 16384 := rfl
    rw [hc] at hb ⊢
    omega
  omega

/-- Splitting the elements over the cores neither loses nor duplicates any. -/
theorem cores_perm {α : Type} (xs : List α) {cores : List (List Nat)}
    (h : cores.flatten.Perm (List.range (blockLastGeneric xs.length chunk))) :
    ((cores.map fun bs => (bs.map (blockElems xs)).flatten).flatten).Perm xs := by
  have e : (cores.map fun bs => (bs.map (blockElems xs)).flatten).flatten =
      (cores.flatten.map (blockElems xs)).flatten := by
    clear h
    induction cores with
    | nil => rfl
    | cons c cs ih => simp only [List.map_cons, List.flatten_cons, ih, List.map_append,
        List.flatten_append]
  rw [e]
  have := (h.map (blockElems xs)).flatten
  rwa [blockElems_cover] at this

end Riptide.Work
