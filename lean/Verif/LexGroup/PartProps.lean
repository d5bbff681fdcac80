import Verif.LexGroup.Props
/-! Property C60 with cutoffs, and the witnesses. -/
namespace Riptide.LexGroup

theorem zipIdx_range_map {α : Type} (g : Nat → α) (n : Nat) :
    ((List.range n).map g).zipIdx = (List.range n).map fun t => (g t, t) := by
  apply List.ext_getElem?
  intro t
  rw [List.getElem?_zipIdx, List.getElem?_map, List.getElem?_map]
  by_cases h : t < n
  · rw [List.getElem?_range h]; simp
  · rw [List.getElem?_eq_none (by simpa using h)]; rfl

/-- Writes of different partitions, each to its own part of the array, go to different slots. -/
theorem moved_nodup (cuts : List Nat) (n : Nat) (sel : Nat → List (Nat × Nat))
    (hdis : ∀ t u, t < u → u < n → lo cuts t + len cuts t ≤ lo cuts u)
    (hin : ∀ t, t < n → ∀ w ∈ sel t, w.1 < len cuts t) (hnd : ∀ t, t < n → ((sel t).map Prod.fst).Nodup) :
    (((List.range n).flatMap fun t => moved (lo cuts t) (sel t)).map Prod.fst).Nodup := by
  rw [List.map_flatMap]
  unfold List.Nodup
  rw [List.pairwise_flatMap]
  constructor
  · intro t ht
    have ht' : t < n := by simpa using ht
    unfold moved
    rw [List.map_map, List.pairwise_map]
    have := hnd t ht'
    unfold List.Nodup at this
    rw [List.pairwise_map] at this
    refine this.imp ?_
    intro a b hab e
    simp only [Function.comp_apply] at e
    exact hab (by omega)
  · rw [List.pairwise_iff_getElem]
    intro i j hi hj hij
    simp only [List.length_range] at hi hj
    simp only [List.getElem_range]
    intro x hx y hy e
    unfold moved at hx hy
    rw [List.map_map] at hx hy
    obtain ⟨w, hw, rfl⟩ := List.mem_map.1 hx
    obtain ⟨v, hv, rfl⟩ := List.mem_map.1 hy
    have h1 := hin i hi w hw
    have h2 := hdis i j hij hj
    simp only [Function.comp_apply] at e
    omega

theorem foldl_fixKeys (ws : List GW) (cuts : List Nat) (n : Nat)
    (hdis : ∀ t u, t < u → u < n → lo cuts t + len cuts t ≤ lo cuts u) :
    ∀ (ts : List Nat) (k : List (Option Nat)), ts.Nodup → (∀ t ∈ ts, t < n) →
      (ts.foldl (fixKeys ws cuts) k).length = k.length ∧
      ∀ (t p : Nat), t < n → lo cuts t ≤ p → p < lo cuts t + len cuts t →
        (ts.foldl (fixKeys ws cuts) k)[p]? =
          if t ∈ ts then k[p]?.map (fun o => o.map fun g => g + (before ws t + 1)) else k[p]?
  | [], k, _, _ => ⟨rfl, fun t p _ _ _ => by simp⟩
  | u :: ts, k, hnd, hb => by
    obtain ⟨hu, hnd'⟩ := List.nodup_cons.1 hnd
    obtain ⟨h1, h2⟩ := foldl_fixKeys ws cuts n hdis ts (fixKeys ws cuts k u) hnd' (fun t ht => hb t (List.mem_cons_of_mem _ ht))
    have hlen : (fixKeys ws cuts k u).length = k.length := by unfold fixKeys; simp
    refine ⟨by rw [List.foldl_cons, h1, hlen], ?_⟩
    intro t p ht hlo hhi
    rw [List.foldl_cons, h2 t p ht hlo hhi]
    have hun := hb u (List.mem_cons_self ..)
    by_cases htu : t = u
    · subst htu
      rw [if_neg hu, if_pos (List.mem_cons_self ..)]
      unfold fixKeys
      rw [List.getElem?_mapIdx]
      cases k[p]? with
      | none => rfl
      | some o => simp only [Option.map_some]; rw [if_pos ⟨hlo, hhi⟩]
    · have hout : ¬ (lo cuts u ≤ p ∧ p < lo cuts u + len cuts u) := by
        rintro ⟨g1, g2⟩
        rcases Nat.lt_or_gt_of_ne htu with h | h
        · have := hdis t u h hun; omega
        · have := hdis u t h ht; omega
      have e : (fixKeys ws cuts k u)[p]? = k[p]? := by
        unfold fixKeys
        rw [List.getElem?_mapIdx]
        cases k[p]? with
        | none => rfl
        | some o => simp only [Option.map_some]; rw [if_neg hout]
      rw [e]
      by_cases hm : t ∈ ts
      · rw [if_pos hm, if_pos (List.mem_cons_of_mem _ hm)]
      · rw [if_neg hm, if_neg (by rw [List.mem_cons]; exact fun h => h.elim htu hm)]

/-- **C60, with cutoffs.** For values compared as numbers (`cslot = 0`) and ascending cutoffs, under every interleaving of
the work items: each partition is grouped on its own, its groups are numbered after those of the partitions
before it, starting at 1; first rows are given in the numbering of the whole array, counts with 0 for the zero bin
first, and the running number of groups per partition. -/
theorem group_parts_partial {α : Type} (diff : α → α → Bool) (vals : List α) (d : α) (index cuts : List Nat)
    (hm : cuts.Pairwise (· ≤ ·)) (hl : cuts.getLast? = some index.length) (hvi : index.length ≤ vals.length)
    (hin : ∀ t, t < cuts.length → ∀ i ∈ (index.drop (lo cuts t)).take (len cuts t), i < len cuts t)
    (hnd : ∀ t, t < cuts.length → ((index.drop (lo cuts t)).take (len cuts t)).Nodup)
    (hd : ∀ i j, diff (vals.getD i d) (vals.getD j d) = false ↔ vals.getD i d = vals.getD j d)
    (r : Option POut) (h : GroupParts diff 0 vals index cuts r) :
    ∃ (L : Nat → List (List Nat)) (out : POut), r = some out ∧
      (∀ t, t < cuts.length → IsRuns (fun i => vals.getD (lo cuts t + i) d)
        ((index.drop (lo cuts t)).take (len cuts t)) (L t)) ∧
      out.keys.length = vals.length ∧
      (∀ t, t < cuts.length → ∀ (k : Nat) l, (L t)[k]? = some l → ∀ i ∈ l,
        out.keys[lo cuts t + i]? = some (some (((List.range t).map fun u => (L u).length).sum + k + 1))) ∧
      out.firsts = (List.range cuts.length).flatMap (fun t => (L t).map fun l => some (l.headD 0 + lo cuts t)) ∧
      out.counts = some 0 :: (List.range cuts.length).flatMap (fun t => (L t).map fun l => some l.length) ∧
      out.uniques = (List.range cuts.length).map fun t => ((List.range (t + 1)).map fun u => (L u).length).sum := by
  -- cutoffs
  have hcut : ∀ t u, t ≤ u → u < cuts.length → cuts.getD t 0 ≤ cuts.getD u 0 := by
    intro t u h hu
    rw [List.getD_eq_getElem?_getD, List.getD_eq_getElem?_getD, List.getElem?_eq_getElem hu, List.getElem?_eq_getElem (by omega)]
    rcases Nat.eq_or_lt_of_le h with rfl | h
    · exact Nat.le_refl _
    · exact List.pairwise_iff_getElem.mp hm t u (by omega) hu h
  have hlo : ∀ t, t < cuts.length → lo cuts t ≤ cuts.getD t 0 := by
    intro t ht; unfold lo; split
    · omega
    · exact hcut _ _ (by omega) ht
  have hend : ∀ t, t < cuts.length → lo cuts t + len cuts t = cuts.getD t 0 := by
    intro t ht; have := hlo t ht; unfold len; omega
  have hle : ∀ t, t < cuts.length → cuts.getD t 0 ≤ index.length := by
    intro t ht
    have h1 : cuts.getD (cuts.length - 1) 0 = index.length := by
      rw [List.getD_eq_getElem?_getD, ← List.getLast?_eq_getElem?, hl]; rfl
    rw [← h1]; exact hcut _ _ (by omega) (by omega)
  have hdis : ∀ t u, t < u → u < cuts.length → lo cuts t + len cuts t ≤ lo cuts u := by
    intro t u h hu
    rw [hend t (by omega)]
    show _ ≤ (if u = 0 then 0 else cuts.getD (u - 1) 0)
    rw [if_neg (by omega)]
    exact hcut _ _ (by omega) (by omega)
  -- the runs
  have hgd : ∀ s i, (vals.drop s).getD i d = vals.getD (s + i) d := by
    intro s i; rw [List.getD_eq_getElem?_getD, List.getElem?_drop, ← List.getD_eq_getElem?_getD]
  have each : ∀ t, ∃ L, t < cuts.length → IsRuns (fun i => vals.getD (lo cuts t + i) d)
      ((index.drop (lo cuts t)).take (len cuts t)) L ∧
      partIndex diff 0 vals index cuts t = some ⟨keyW 0 L, firstW 0 L, countW 0 L, L.length⟩ := by
    intro t
    by_cases ht : t < cuts.length
    · obtain ⟨L, h1, h2⟩ := groupIndex_runs diff (vals.drop (lo cuts t)) d 0 0
        ((index.drop (lo cuts t)).take (len cuts t))
        (fun i hi => by
          have a1 := hin t ht i hi
          have a2 := hend t ht
          have a3 := hle t ht
          rw [List.length_drop]; omega)
        (by
          refine List.pairwise_of_forall ?_
          intro i j
          rw [hgd, hgd]; exact hd _ _)
      refine ⟨L, fun _ => ⟨?_, ?_⟩⟩
      · simp only [hgd] at h1; exact h1
      · unfold partIndex
        rw [h2]
        congr 2
        split
        · rename_i he
          have hlz := h1.length_le
          rw [he] at hlz
          have : L = [] := List.length_eq_zero_iff.1 (by simpa using hlz)
          rw [this]; rfl
        · rw [if_neg (by decide)]; rfl
    · exact ⟨[], fun h => absurd h ht⟩
  let L : Nat → List (List Nat) := fun t => (each t).choose
  have hLr : ∀ t, t < cuts.length → IsRuns (fun i => vals.getD (lo cuts t + i) d)
      ((index.drop (lo cuts t)).take (len cuts t)) (L t) := fun t ht => ((each t).choose_spec ht).1
  have hLp : ∀ t, t < cuts.length → partIndex diff 0 vals index cuts t =
      some ⟨keyW 0 (L t), firstW 0 (L t), countW 0 (L t), (L t).length⟩ := fun t ht => ((each t).choose_spec ht).2
  clear_value L
  have hall : allParts diff 0 vals index cuts =
      some ((List.range cuts.length).map fun t => ⟨keyW 0 (L t), firstW 0 (L t), countW 0 (L t), (L t).length⟩) := by
    unfold allParts
    exact mapM_some _ _ _ fun t ht => hLp t (by simpa using ht)
  have hplen : ∀ t, t < cuts.length → (L t).length ≤ len cuts t := by
    intro t ht
    have := (hLr t ht).length_le
    rw [List.length_take] at this; omega
  cases h with
  | oob h => rw [hall] at h; cases h
  | run ws kw fw cw order h hk hf hc ho =>
    rw [hall] at h
    injection h with h
    have hwt : ∀ t, t < cuts.length → (ws[t]?.map GW.n).getD 0 = (L t).length := by
      intro t ht
      rw [← h, List.getElem?_map, List.getElem?_range ht]; rfl
    have hbef : ∀ t, t ≤ cuts.length → before ws t = ((List.range t).map fun u => (L u).length).sum := by
      intro t ht
      unfold before
      rw [← h, ← List.map_take, List.take_range, Nat.min_eq_left ht, List.map_map]; rfl
    have hwr : ∀ sel : GW → List (Nat × Nat), writesOf sel cuts ws = (List.range cuts.length).flatMap fun t =>
        moved (lo cuts t) (sel ⟨keyW 0 (L t), firstW 0 (L t), countW 0 (L t), (L t).length⟩) := by
      intro sel
      unfold writesOf
      rw [← h, zipIdx_range_map, List.flatMap_map]
    rw [hwr] at hk hf hc
    -- the three buffers
    have hkin : ∀ t, t < cuts.length → ∀ w ∈ keyW 0 (L t), w.1 < len cuts t := by
      intro t ht w hw
      have : w.1 ∈ (keyW 0 (L t)).map Prod.fst := List.mem_map_of_mem hw
      rw [keyW_fst, (hLr t ht).flat] at this
      exact hin t ht _ this
    have hfin : ∀ t, t < cuts.length → ∀ w ∈ firstW 0 (L t), w.1 < len cuts t := by
      intro t ht w hw
      have : w.1 ∈ (firstW 0 (L t)).map Prod.fst := List.mem_map_of_mem hw
      rw [firstW_fst, List.mem_range'_1] at this
      have := hplen t ht; omega
    have hcin : ∀ t, t < cuts.length → ∀ w ∈ countW 0 (L t), w.1 < len cuts t := by
      intro t ht w hw
      have : w.1 ∈ (countW 0 (L t)).map Prod.fst := List.mem_map_of_mem hw
      rw [countW_fst, List.mem_range'_1] at this
      have := hplen t ht; omega
    have bound : ∀ (sel : Nat → List (Nat × Nat)), (∀ t, t < cuts.length → ∀ w ∈ sel t, w.1 < len cuts t) →
        ∀ w ∈ (List.range cuts.length).flatMap (fun t => moved (lo cuts t) (sel t)), w.1 < index.length := by
      intro sel hs w hw
      obtain ⟨t, ht, hw⟩ := List.mem_flatMap.1 hw
      have ht' : t < cuts.length := by simpa using ht
      obtain ⟨v, hv, rfl⟩ := List.mem_map.1 hw
      have h1 := hs t ht' v hv
      have h2 := hend t ht'
      have h3 := hle t ht'
      show lo cuts t + v.1 < _
      omega
    obtain ⟨k, ek, kl, kw', -⟩ := runWrites_nodup (n := vals.length) (ws := kw)
      (fun w hw => Nat.lt_of_lt_of_le (bound _ hkin w (hk.mem_iff.1 hw)) hvi)
      ((hk.map Prod.fst).nodup_iff.2 (moved_nodup cuts cuts.length _ hdis hkin fun t ht => by
        rw [keyW_fst, (hLr t ht).flat]; exact hnd t ht))
    obtain ⟨f, ef, fl, fw', -⟩ := runWrites_nodup (n := index.length) (ws := fw)
      (fun w hw => bound _ hfin w (hf.mem_iff.1 hw))
      ((hf.map Prod.fst).nodup_iff.2 (moved_nodup cuts cuts.length _ hdis hfin fun t ht => by
        rw [firstW_fst]; exact List.nodup_range' (step := 1)))
    obtain ⟨c, ec, cl, cw', -⟩ := runWrites_nodup (n := index.length + 1 + cuts.length) (ws := cw)
      (fun w hw => by have := bound _ hcin w (hc.mem_iff.1 hw); omega)
      ((hc.map Prod.fst).nodup_iff.2 (moved_nodup cuts cuts.length _ hdis hcin fun t ht => by
        rw [countW_fst]; exact List.nodup_range' (step := 1)))
    have getw : ∀ (buf : List (Option Nat)) (bw : List (Nat × Nat)) (sel : Nat → List (Nat × Nat)),
        bw.Perm ((List.range cuts.length).flatMap fun t => moved (lo cuts t) (sel t)) →
        (∀ w ∈ bw, buf[w.1]? = some (some w.2)) → ∀ t, t < cuts.length → ∀ s x, (s, x) ∈ sel t →
        buf[lo cuts t + s]? = some (some x) := by
      intro buf bw sel hp hb t ht s x hsx
      refine hb (lo cuts t + s, x) (hp.mem_iff.2 ?_)
      refine List.mem_flatMap.2 ⟨t, by simpa using ht, ?_⟩
      exact List.mem_map.2 ⟨(s, x), hsx, rfl⟩
    have hond : order.Nodup := ho.nodup_iff.2 List.nodup_range
    obtain ⟨hol, hok⟩ := foldl_fixKeys ws cuts cuts.length hdis order k hond
      (fun t ht => by simpa using ho.mem_iff.1 ht)
    refine ⟨L, _, by unfold finish; rw [ek, ef, ec]; rfl, hLr, ?_, ?_, ?_, ?_, ?_⟩
    · show (order.foldl (fixKeys ws cuts) k).length = _
      rw [hol, kl]
    · intro t ht q l hq i hi
      show (order.foldl (fixKeys ws cuts) k)[lo cuts t + i]? = _
      have hil : i < len cuts t := by
        refine hin t ht i ?_
        rw [← (hLr t ht).flat]
        exact List.mem_flatten.2 ⟨l, List.mem_of_getElem? hq, hi⟩
      rw [hok t _ ht (by omega) (by omega), if_pos (ho.mem_iff.2 (by simpa using ht)),
        getw k kw _ hk kw' t ht i (0 + q) (keyW_mem (L t) 0 q l hq i hi), hbef t (by omega)]
      simp only [Option.map_some]
      congr 2; omega
    · show (List.range cuts.length).flatMap (fixFirsts ws cuts f) = _
      rw [List.flatMap_def, List.flatMap_def]
      congr 1
      apply List.map_congr_left
      intro t ht
      have ht' : t < cuts.length := by simpa using ht
      unfold fixFirsts
      rw [hwt t ht']
      have := window_eq (buf := f) (xs := (L t).map fun l => l.headD 0) (s := lo cuts t) (by
        intro j x hx
        rw [List.getElem?_map] at hx
        cases hlj : (L t)[j]? with
        | none => rw [hlj] at hx; cases hx
        | some l =>
          rw [hlj] at hx
          injection hx with hx
          subst hx
          have := getw f fw _ hf fw' t ht' (0 + j) _ (firstW_mem (L t) 0 j l hlj)
          rw [Nat.zero_add] at this
          exact this)
      rw [List.length_map] at this
      rw [this, List.map_map, List.map_map]; rfl
    · show some 0 :: (List.range cuts.length).flatMap (fixCounts ws cuts c) = _
      congr 1
      rw [List.flatMap_def, List.flatMap_def]
      congr 1
      apply List.map_congr_left
      intro t ht
      have ht' : t < cuts.length := by simpa using ht
      unfold fixCounts
      rw [hwt t ht']
      have := window_eq (buf := c) (xs := (L t).map List.length) (s := lo cuts t) (by
        intro j x hx
        rw [List.getElem?_map] at hx
        cases hlj : (L t)[j]? with
        | none => rw [hlj] at hx; cases hx
        | some l =>
          rw [hlj] at hx
          injection hx with hx
          subst hx
          have := getw c cw _ hc cw' t ht' (0 + j) _ (countW_mem (L t) 0 j l hlj)
          rw [Nat.zero_add] at this
          exact this)
      rw [List.length_map] at this
      rw [this, List.map_map]; rfl
    · show (List.range cuts.length).map (fun t => before ws (t + 1)) = _
      apply List.map_congr_left
      intro t ht
      exact hbef (t + 1) (by have := List.mem_range.1 ht; omega)

/-! ### Examples and witnesses -/

/-- Five rows of width 1. -/
def exVals : List (List Nat) := [[5], [3], [5], [3], [9]]

example : groupFrom 1 1 exVals [1, 3, 0, 2, 4] =
    some ⟨[some 2, some 1, some 2, some 1, some 3], [some 1, some 0, some 4], [some 0, some 2, some 2, some 1]⟩ := by
  decide +kernel

/-- A filtered order: rows 2 and 4 are left uninitialised. -/
example : groupFrom 1 1 exVals [1, 3, 0] =
    some ⟨[some 2, some 1, none, some 1, none], [some 1, some 0], [some 0, some 2, some 1]⟩ := by decide +kernel

/-- With base 0 and numbers, the last count is not initialised. -/
theorem base_zero_uninitialised : groupFrom 1 0 exVals [1, 3, 0, 2, 4] =
    some ⟨[some 1, some 0, some 1, some 0, some 2], [some 1, some 0, some 4], [some 2, some 2, some 1, none]⟩ := by
  decide +kernel

/-- With base 0 and strings of other widths, the counts stand one place further than for numbers. -/
theorem base_zero_strings_shifted : groupFrom 3 0 [[5, 0, 0], [3, 0, 0], [5, 0, 0]] [1, 0, 2] =
    some ⟨[some 1, some 0, some 1], [some 1, some 0], [some 0, some 1, some 2]⟩ := by decide +kernel

/-- No rows: the count of the zero bin is not initialised. -/
theorem no_rows_uninitialised : groupFrom 4 1 [] [] = some ⟨[], [], [none]⟩ := by decide +kernel

/-- Width 7: two different values of which only the last byte goes down are put into one group; a record of an
`int32`, an `int16` and an `int8` sorted ascending with -1 before 1 in the last field is such a case. -/
theorem width_seven_merged : groupFrom 7 1 [[0, 0, 0, 0, 0, 0, 255], [0, 0, 0, 0, 0, 0, 1]] [0, 1] =
    some ⟨[some 1, some 1], [some 0], [some 0, some 2]⟩ := by decide +kernel

/-- Values which the sort takes for equal but whose bytes differ split the groups: 0.0, -0.0, 0.0 in sorted order make
three groups, two of them of the same bytes. -/
theorem zeros_split : groupFrom 8 1
    [[0, 0, 0, 0, 0, 0, 0, 0], [0, 0, 0, 0, 0, 0, 0, 128], [0, 0, 0, 0, 0, 0, 0, 0]] [0, 1, 2] =
    some ⟨[some 1, some 2, some 3], [some 0, some 1, some 2], [some 0, some 1, some 1, some 1]⟩ := by decide +kernel

/-- Two partitions of numbers. -/
example : (allParts (differ 1) 0 exVals [1, 0, 0, 1, 2] [2, 5]).bind (fun ws =>
    finish 5 5 [2, 5] ws (writesOf GW.keys [2, 5] ws) (writesOf GW.firsts [2, 5] ws) (writesOf GW.counts [2, 5] ws) [1, 0]) =
    some ⟨[some 2, some 1, some 3, some 4, some 5], [some 1, some 0, some 2, some 3, some 4],
      [some 0, some 1, some 1, some 1, some 1, some 1], [2, 5]⟩ := by decide +kernel

/-- Two partitions of strings of width 3, `ab | cc`. -/
def exStr : List (List Nat) := [[97, 0, 0], [98, 0, 0], [99, 0, 0], [99, 0, 0]]

/-- The result when the writes of the counts of partition `a` come before those of `b`. -/
def strRun (a b : Nat) : Option POut :=
  (allParts (differ 3) 1 exStr [0, 1, 0, 1] [2, 4]).bind fun ws =>
    finish 4 4 [2, 4] ws (writesOf GW.keys [2, 4] ws) (writesOf GW.firsts [2, 4] ws)
      (([a, b].filterMap fun t => ws[t]?.map fun w => moved (lo [2, 4] t) w.counts).flatten) [0, 1]

/-- With cutoffs and strings the counts are wrong: those of `a` and `b` are 1 and 1 and that of `cc` is 2, but 0, 1
and 0 are returned. Partition 0 also writes into the first count of partition 1, so that the result depends on
which is faster. -/
theorem strings_with_cutoffs_wrong :
    (strRun 0 1).map POut.counts = some [some 0, some 0, some 1, some 0] ∧
    (strRun 1 0).map POut.counts = some [some 0, some 0, some 1, some 1] := by decide +kernel

end Riptide.LexGroup
