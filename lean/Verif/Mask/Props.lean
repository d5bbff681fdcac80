import Verif.Mask.Lemmas
import Verif.Common.Writes
/-! # Boolean masks: property theorems (C04, C05, C06) -/
namespace Riptide.Mask
open Riptide.Work Riptide.Mask.Spec

/-! ## C04: counting True -/

/-- C04.  The vectorised counting kernel returns the number of True entries of a mask of any length
and stride, whatever non-zero byte values encode True. -/
theorem count_true_exact (m : Mem) (len : Nat) (stride : Int) :
    sumBooleanMask m len stride = numTrue (view m stride len) := by
  rw [sumBooleanMask_eq, numTrue_view]

/-- C04.  The parallel count returns the number of True entries, for every schedule of the worker
pool, and reads no uninitialised per-chunk counter. -/
theorem parallel_count_true_exact (m : Mem) (len : Nat) (stride : Int) {workers : Nat} {nt : Bool}
    {par : Option (List Nat)} (h : ChunkSched workers len nt par) :
    booleanSum m len stride par = some (numTrue (view m stride len)) := by
  unfold booleanSum
  rw [numTrue_view]
  rcases counts_cases m len stride h with ⟨_, hc⟩ | ⟨calls, _, hb, _, hc⟩
  · rw [hc, sumChunks_map]; simp
  · rw [hc, sumChunks_map, sum_blockCount]

example : numTrue (view (fun a => if a % 3 = 0 then 7#8 else 0#8) 2 5) = 2 := by decide
/-- A non-trivial run: 300 bytes, all True, exercises the vector loop and the tail. -/
example : sumBooleanMask (fun _ => 2#8) 300 1 = 300 := by decide +kernel

/-! ## C05: boolean mask indexing -/

theorem trueRows_view (m : Mem) (sb : Int) (len : Nat) :
    trueRows (view m sb len) = (List.range len).filter (tr m sb) := by
  rw [trueRows, view_eq, List.length_map, List.length_range]
  apply List.filter_congr
  intro i hi
  simp [List.mem_range.1 hi]

theorem falseRows_view (m : Mem) (sb : Int) (len : Nat) :
    falseRows (view m sb len) = (List.range len).filter fun i => !tr m sb i := by
  rw [falseRows, view_eq, List.length_map, List.length_range]
  apply List.filter_congr
  intro i hi
  simp [List.mem_range.1 hi]

theorem rank_eq_length (m : Mem) (sb : Int) (r : Nat) :
    rank m sb r = ((List.range r).filter (tr m sb)).length := by
  rw [rank, trueIn, ← List.range_eq_range', List.countP_eq_length_filter]

theorem rank_pairs (m : Mem) (sb : Int) (len : Nat) :
    ((List.range len).filter (tr m sb)).map (fun r => (rank m sb r, r)) =
      ((List.range len).filter (tr m sb)).zipIdx.map Prod.swap := by
  induction len with
  | zero => rfl
  | succ n ih =>
    rw [List.range_succ, List.filter_append, List.map_append, ih, List.zipIdx_append,
      List.map_append]
    congr 1
    by_cases h : tr m sb n
    · simp [h, rank_eq_length]
    · simp [h]

/-- Execute item copies `(dst byte offset, src byte offset)` on a fresh output of `n` items of size
`itemSize`; the source has `len` items at byte offsets `r * sv`, read through `vals`.
A copy that does not start on an output item, or outside the output, or whose source is not an
item of the source array, is undefined behaviour. -/
def execCopies {α : Type} (vals : Int → α) (len : Nat) (itemSize sv : Int) (n : Nat)
    (copies : List Copy) : Option (List (Option α)) :=
  (copies.mapM fun (c : Copy) =>
    if 0 ≤ c.1 ∧ c.1 % itemSize = 0 ∧ (List.range len).any (fun (r : Nat) => c.2 == (r : Int) * sv)
    then some ((c.1 / itemSize).toNat, vals c.2) else none).bind (runWrites n)

theorem select_view {α : Type} (m : Mem) (sb : Int) (len : Nat) (f : Nat → α) :
    select ((List.range len).map f) (view m sb len) = (trueRows (view m sb len)).map f := by
  rw [trueRows_view, view_eq, select]
  generalize List.range len = l
  induction l with
  | nil => rfl
  | cons a l ih =>
    simp only [List.map_cons, List.zip_cons_cons, List.filterMap_cons, List.filter_cons]
    by_cases h : tr m sb a
    · simp [h, ih]
    · simp [h, ih]

/-- C05 (partial: guarded).  Boolean mask indexing returns exactly the items whose mask entry is
True, in row order, for every schedule of both parallel passes, any item size, any mask stride and
any value stride, provided that
* the mask is strided, or
* the item size is 1, 2, 4 or 8, or
* the values are contiguous (`sv = itemSize`).
Every output slot is written, no write falls outside the output and no read outside the source.
What is missing: contiguous mask, other item size, strided values; the code is wrong there
(`boolean_index_strided_odd_item_writes_out_of_bounds`). -/
theorem boolean_index_exact_partial {α : Type} (m : Mem) (vals : Int → α) (len : Nat)
    (sb itemSize sv : Int) (hsize : 0 < itemSize)
    (hguard : sb = 1 → itemSize = 1 ∨ itemSize = 2 ∨ itemSize = 4 ∨ itemSize = 8 ∨ sv = itemSize)
    {workers : Nat} {nt : Bool} {par1 par2 : Option (List Nat)}
    (h1 : ChunkSched workers len nt par1) (h2 : ChunkSched workers len nt par2) :
    ∃ copies, booleanIndex m len sb itemSize sv par1 par2 =
        some (numTrue (view m sb len), copies) ∧
      execCopies vals len itemSize sv (numTrue (view m sb len)) copies =
        some ((select ((List.range len).map fun (r : Nat) => vals (r * sv)) (view m sb len)).map
          some) := by
  have hinc : sb = 1 → tailInc itemSize sv = itemSize := by
    intro h
    unfold tailInc
    split
    · rfl
    · have := hguard h
      rename_i hn
      omega
  obtain ⟨copies, hc, hp⟩ := booleanIndex_perm m len sb itemSize sv h1 h2 hinc
  refine ⟨copies, by rw [hc, numTrue_view], ?_⟩
  unfold execCopies
  have hm : copies.mapM (fun (c : Copy) =>
      if 0 ≤ c.1 ∧ c.1 % itemSize = 0 ∧
        (List.range len).any (fun (r : Nat) => c.2 == (r : Int) * sv)
      then some ((c.1 / itemSize).toNat, vals c.2) else none) =
      some (copies.map fun c => ((c.1 / itemSize).toNat, vals c.2)) := by
    apply mapM_some
    intro c hcm
    have := hp.mem_iff.1 hcm
    simp only [rowCopies, List.mem_map, List.mem_filter, List.mem_range] at this
    obtain ⟨r, ⟨hr, _⟩, rfl⟩ := this
    rw [if_pos]
    refine ⟨Int.mul_nonneg (by omega) (by omega), Int.mul_emod_left _ _, ?_⟩
    rw [List.any_eq_true]
    exact ⟨r, List.mem_range.2 hr, by simp⟩
  rw [hm, Option.bind_some, select_view, trueRows_view]
  have hlen : numTrue (view m sb len) =
      (((List.range len).filter (tr m sb)).map fun (r : Nat) => vals (r * sv)).length := by
    rw [numTrue_view, List.length_map, ← rank_eq_length]; rfl
  rw [hlen]
  apply runWrites_perm
  refine (hp.map _).trans ?_
  have e : (rowCopies m sb itemSize sv (List.range len)).map
        (fun c => ((c.1 / itemSize).toNat, vals c.2)) =
      (((List.range len).filter (tr m sb)).map (fun r => (rank m sb r, r))).map
        fun (p : Nat × Nat) => (p.1, vals ((p.2 : Int) * sv)) := by
    rw [rowCopies, List.map_map, List.map_map]
    apply List.map_congr_left
    intro r _
    simp only [Function.comp]
    rw [Int.mul_ediv_cancel _ (by omega)]
    simp
  rw [e, rank_pairs, List.zipIdx_map, List.map_map, List.map_map]
  apply List.Perm.of_eq
  apply List.map_congr_left
  intro p _
  rfl

/-- The hypotheses are met by a strided source and a strided mask. -/
example : ∃ copies, booleanIndex (fun a => if a % 4 = 0 then 1#8 else 0#8) 4 2 3 6 none none =
      some (2, copies) ∧
    execCopies (fun a => a) 4 3 6 2 copies = some [some 0, some 12] :=
  ⟨[(0, 0), (3, 12)], by decide, by decide⟩

/-- C05 fails for a contiguous mask over strided values whose item size is not 1, 2, 4 or 8
(`src/Merge.cpp:586` advances the output by the value stride): two 3-byte items at stride 6 with
both mask entries True.  The second copy goes to byte 6 of a 6-byte output. -/
theorem boolean_index_strided_odd_item_writes_out_of_bounds :
    ∃ copies, booleanIndex (fun _ => 1#8) 2 1 3 6 none none = some (2, copies) ∧
      (6, 6) ∈ copies ∧
      execCopies (fun a => a) 2 3 6 2 copies = none :=
  ⟨[(0, 0), (6, 6)], by decide +kernel, by decide, by decide⟩

/-! ## C06: boolean mask to fancy index -/

theorem bothPos_pairs_perm (m : Mem) (len : Nat) :
    ((List.range len).map fun r => (bothPos m (trueIn m 1 0 len) r, r)).Perm
      (((List.range len).filter (tr m 1) ++
        (List.range len).filter fun i => !tr m 1 i).zipIdx.map Prod.swap) := by
  have hfalse : ∀ n total, ((List.range n).filter fun i => !tr m 1 i).map
      (fun r => (bothPos m total r, r)) =
      (((List.range n).filter fun i => !tr m 1 i).zipIdx total).map Prod.swap := by
    intro n total
    induction n with
    | zero => rfl
    | succ n ih =>
      rw [List.range_succ, List.filter_append, List.map_append, ih, List.zipIdx_append,
        List.map_append]
      congr 1
      by_cases h : tr m 1 n
      · simp [h]
      · have hl := List.length_eq_countP_add_countP (tr m 1) (l := List.range n)
        have hr := rank_eq_length m 1 n
        rw [List.countP_eq_length_filter, List.countP_eq_length_filter, List.length_range,
          ← hr] at hl
        have e : (List.filter (fun i => !tr m 1 i) (List.range n)).length = n - rank m 1 n := by
          have : (fun a => decide ¬tr m 1 a = true) = fun i => !tr m 1 i := by
            funext a; cases tr m 1 a <;> rfl
          rw [this] at hl
          omega
        simp [h, bothPos, e]
  have htrue : ((List.range len).filter (tr m 1)).map
      (fun r => (bothPos m (trueIn m 1 0 len) r, r)) =
      ((List.range len).filter (tr m 1)).zipIdx.map Prod.swap := by
    rw [← rank_pairs]
    apply List.map_congr_left
    intro r hr
    simp [bothPos, (List.mem_filter.1 hr).2]
  rw [List.zipIdx_append, List.map_append, ← htrue]
  have hlen : trueIn m 1 0 len = 0 + ((List.range len).filter (tr m 1)).length := by
    rw [Nat.zero_add, ← rank_eq_length]; rfl
  rw [← hlen, ← hfalse len (trueIn m 1 0 len), ← List.map_append]
  exact (List.filter_append_perm _ _).symm.map _

/-- C06 (partial: contiguous masks).  For every schedule, the fancy index produced from a
contiguous mask is the increasing list of True rows; in `both` mode it is the True rows followed by
the False rows.  All output slots are written and no write is out of bounds.
What is missing: strided masks, for which the code ignores the stride
(`fancy_index_ignores_stride`). -/
theorem boolean_to_fancy_exact_partial (m : Mem) (len : Nat) {workers : Nat} {nt : Bool}
    {par1 par2 : Option (List Nat)}
    (h1 : ChunkSched workers len nt par1) (h2 : ChunkSched workers len nt par2) :
    (∃ w, booleanToFancy m len 1 false par1 par2 = some (numTrue (view m 1 len), w) ∧
      runWrites (numTrue (view m 1 len)) w = some ((trueRows (view m 1 len)).map some)) ∧
    (∃ w, booleanToFancy m len 1 true par1 par2 = some (numTrue (view m 1 len), w) ∧
      runWrites len w =
        some ((trueRows (view m 1 len) ++ falseRows (view m 1 len)).map some)) := by
  obtain ⟨⟨w1, e1, p1⟩, ⟨w2, e2, p2⟩⟩ := booleanToFancy_perm m len h1 h2
  rw [numTrue_view, trueRows_view, falseRows_view]
  refine ⟨⟨w1, e1, ?_⟩, ⟨w2, e2, ?_⟩⟩
  · have : trueIn m 1 0 len = ((List.range len).filter (tr m 1)).length := by
      rw [← rank_eq_length]; rfl
    rw [this]
    apply runWrites_perm
    rw [← rank_pairs]; exact p1
  · have hp := p2.trans (bothPos_pairs_perm m len)
    have hl := hp.length_eq
    have hw : w2.length = len := by simpa using p2.length_eq
    have := runWrites_perm hp
    rw [List.length_map, List.length_zipIdx, hw] at hl
    rwa [← hl] at this

/-- C06 fails for strided masks: the mask `[True, False]` stored with stride 2 as bytes `1 1 0`
produces two indices where one is expected; the write for the second is out of bounds. -/
theorem fancy_index_ignores_stride :
    ∃ m : Mem, view m 2 2 = [true, false] ∧
      ∃ w, booleanToFancy m 2 2 false none none = some (1, w) ∧ runWrites 1 w = none :=
  ⟨fun a => if a = 2 then 0#8 else 1#8, by decide, [(0, 0), (1, 1)], by decide, by decide⟩

/-- A concrete mask in both modes. -/
example : (booleanToFancy (fun a => if a % 2 = 0 then 0#8 else 3#8) 5 1 true none none).bind
    (fun r => runWrites 5 r.2) = some [some 1, some 3, some 0, some 2, some 4] := by
  decide +kernel

end Riptide.Mask
