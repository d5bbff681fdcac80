import Verif.LexGroup.CallProps
import Verif.Pack.CallWrong
/-! Where the call `GroupFromLexSort` goes wrong (C152), and examples for what it answers. -/
namespace Riptide.LexGroup.Call
open Riptide.Nums Riptide.Pack.Call Riptide.Quick.Call Riptide.LexGroup.Call.Spec Riptide.Quick.Call.Spec

deriving instance DecidableEq for Ready
deriving instance DecidableEq for Except

/-- Memory for everything. -/
def ample : Room := ⟨true, true⟩

/-- No keywords. -/
def bare : Extra := ⟨none, none, none⟩

theorem direct_only {room : Room} {idx vals : Arr} {im vm : Mem} {ex : Extra} {q : Ready} (h : prepare room idx im vals vm ex = .ok q)
    (hc : q.cuts = none) (r : Outcome) : GroupCall room idx im vals vm ex r ↔ r = whole room ex vals.lay.item q := by
  constructor
  · intro hh
    cases hh with
    | early r h' => rw [h] at h'; cases h'
    | direct q' h' _ => rw [h] at h'; cases h'; rfl
    | unordered q' l h' hc' _ => rw [h] at h'; cases h'; rw [hc] at hc'; cases hc'
    | split q' l _ _ _ h' hc' _ _ _ => rw [h] at h'; cases h'; rw [hc] at hc'; cases hc'
  · rintro rfl; exact .direct _ h hc

/-! ## Examples -/

theorem ex_index : Index (line 5 4 3) .i32 (intMem .i32 0 [1, 3, 0]) [1, 3, 0] :=
  ⟨by decide, by decide, by decide +kernel, by decide +kernel⟩
/-- `int16` in the other order of bytes. -/
theorem ex_values : Values ⟨3, ⟨[5], [2], 2⟩, true⟩ (bitMem 1 0 [0, 5, 0, 3, 0, 5, 0, 3, 1, 3]) [[0, 5], [0, 3], [0, 5], [0, 3], [1, 3]] :=
  ⟨by decide, by decide +kernel, by decide +kernel⟩
example : IT.i32.InRange ((3 : Nat) : Int) ∧ (∀ i ∈ [1, 3, 0], i < 5) ∧ [1, 3, 0].Nodup ∧ FilterFits 3 bare.filter :=
  ⟨by decide, by decide, by decide, by intro a h; cases h⟩
example (r : Outcome) : GroupCall ample (line 5 4 3) (intMem .i32 0 [1, 3, 0]) ⟨3, ⟨[5], [2], 2⟩, true⟩ (bitMem 1 0 [0, 5, 0, 3, 0, 5, 0, 3, 1, 3]) bare r ↔
    r = .groups ⟨[some 2, some 1, none, some 1, none], [some 1, some 0], [some 0, some 2, some 1]⟩ :=
  direct_only (q := ⟨.i32, [1, 3, 0], [[0, 5], [0, 3], [0, 5], [0, 3], [1, 3]], none⟩) (by decide +kernel) rfl r
example : IsRuns (fun i => [[0, 5], [0, 3], [0, 5], [0, 3], [1, 3]].getD i []) [1, 3, 0] [[1, 3], [0]] :=
  ⟨rfl, by decide, by decide, by
    intro k l l' h h'
    match k with
    | 0 => cases h; cases h'; decide
    | k + 1 => simp at h'⟩
/-- Base 7 is base 1; base 0 with numbers and with items of three bytes. -/
example (r : Outcome) : GroupCall ample (line 7 8 2) (intMem .i64 0 [1, 0]) (line 1 1 2) (intMem .i8 0 [5, 3]) ⟨none, none, some 7⟩ r ↔
    r = .groups ⟨[some 2, some 1], [some 1, some 0], [some 0, some 1, some 1]⟩ :=
  direct_only (q := ⟨.i64, [1, 0], [[5], [3]], none⟩) (by decide +kernel) rfl r
example (r : Outcome) : GroupCall ample (line 7 8 2) (intMem .i64 0 [1, 0]) (line 1 1 2) (intMem .i8 0 [5, 3]) ⟨none, none, some 0⟩ r ↔
    r = .groups ⟨[some 1, some 0], [some 1, some 0], [some 1, some 1, none]⟩ :=
  direct_only (q := ⟨.i64, [1, 0], [[5], [3]], none⟩) (by decide +kernel) rfl r
example (r : Outcome) : GroupCall ample (line 7 8 1) (intMem .i64 0 [0]) (line 18 3 1) (bitMem 1 0 [97, 98, 0]) ⟨none, none, some 0⟩ r ↔
    r = .groups ⟨[some 0], [some 0], [some 0, some 1]⟩ :=
  direct_only (q := ⟨.i64, [0], [[97, 98, 0]], none⟩) (by decide +kernel) rfl r

/-- Two partitions: rows `1, 0` and `0, 1`, the latter two equal. -/
theorem ex_cuts : Cuts (line 7 8 2) (intMem .i64 0 [2, 4]) [2, 4] := ⟨by decide, by decide, by decide +kernel, by decide +kernel⟩
example : Index (line 5 4 4) .i32 (intMem .i32 0 [1, 0, 0, 1]) [1, 0, 0, 1] ∧ Values (line 1 1 4) (intMem .i8 0 [5, 3, 9, 9]) [[5], [3], [9], [9]] ∧
    NumberWidth 1 ∧ (∀ p, p < 2 → ∀ i ∈ part [2, 4] [1, 0, 0, 1] p, i < [2, 4].getD p 0 - first [2, 4] p) ∧
    (∀ p, p < 2 → (part [2, 4] [1, 0, 0, 1] p).Nodup) :=
  ⟨⟨by decide, by decide, by decide +kernel, by decide +kernel⟩, ⟨by decide, by decide +kernel, by decide +kernel⟩, by decide, by decide, by decide⟩

theorem run_in_turn {α : Type} {diff : α → α → Bool} {cslot : Nat} {vals : List α} {index cuts : List Nat} {o : POut} (ws : List GW)
    (h : allParts diff cslot vals index cuts = some ws)
    (e : finish vals.length index.length cuts ws (writesOf GW.keys cuts ws) (writesOf GW.firsts cuts ws) (writesOf GW.counts cuts ws)
      (List.range cuts.length) = some o) : GroupParts diff cslot vals index cuts (some o) :=
  e ▸ .run ws _ _ _ _ h (List.Perm.refl _) (List.Perm.refl _) (List.Perm.refl _) (List.Perm.refl _)

/-- What the two work items write. -/
def exWork : List GW := [⟨[(1, 0), (0, 1)], [(0, 1), (1, 0)], [(0, 1), (1, 1)], 2⟩, ⟨[(0, 0), (1, 0)], [(0, 0)], [(0, 2)], 1⟩]

/-- **The index which is passed in is overwritten**: `1, 0, 0, 1` becomes `1, 0, 2, 3`. -/
theorem index_overwritten : ∃ o, GroupCall ample (line 5 4 4) (intMem .i32 0 [1, 0, 0, 1]) (line 1 1 4) (intMem .i8 0 [5, 3, 9, 9])
      ⟨some (line 7 8 2, intMem .i64 0 [2, 4]), none, none⟩ (.parts o [1, 0, 2, 3]) ∧
    o = ⟨[some 2, some 1, some 3, some 3], [some 1, some 0, some 2], [some 0, some 1, some 1, some 2], [2, 3]⟩ := by
  refine ⟨_, ?_, rfl⟩
  have hg : GroupParts (differ 1) (cslotOf 1 0) [[5], [3], [9], [9]] [1, 0, 0, 1] [2, 4]
      (some ⟨[some 2, some 1, some 3, some 3], [some 1, some 0, some 2], [some 0, some 1, some 1, some 2], [2, 3]⟩) := by
    exact run_in_turn exWork (by decide +kernel) (by decide +kernel)
  have hp : prepare ample (line 5 4 4) (intMem .i32 0 [1, 0, 0, 1]) (line 1 1 4) (intMem .i8 0 [5, 3, 9, 9])
      ⟨some (line 7 8 2, intMem .i64 0 [2, 4]), none, none⟩ = .ok ⟨.i32, [1, 0, 0, 1], [[5], [3], [9], [9]], some [2, 4]⟩ := by decide +kernel
  have hs := GroupCall.split _ [2, 4] [1, 0, 0, 1] [2, 4] _ hp rfl (by decide +kernel) (by decide +kernel) hg
  have e : ∀ ex, ex.base = none → ∀ o, partsOut ample ex .i32 [2, 4] [1, 0, 0, 1] (some o) = .parts o [1, 0, 2, 3] := by
    intro ex hb o
    unfold partsOut given
    rw [hb, show indexAfter .i32 [2, 4] [1, 0, 0, 1] = [1, 0, 2, 3] by decide +kernel]
    rfl
  rw [e _ rfl] at hs
  exact hs

example (r : Outcome) : GroupCall ample (line 5 4 3) (intMem .i32 0 [0, 1, 0]) (line 1 1 2) (intMem .i8 0 [5, 3]) bare r ↔ r = .lengths :=
  longer_refused (by decide) r
example (r : Outcome) : GroupCall ample (line 6 4 2) (intMem .u32 0 [0, 1]) (line 1 1 2) (intMem .i8 0 [5, 3]) bare r ↔ r = .typeRefused :=
  type_refused (by decide) (by decide) r
example (r : Outcome) : GroupCall ample (line 5 4 2) (intMem .i32 0 [0, 1]) (line 1 1 2) (intMem .i8 0 [5, 3])
    ⟨some (line 5 4 1, intMem .i32 0 [2]), none, none⟩ r ↔ r = .cutType := cutoffs_type_refused (by decide) (by decide) rfl (by decide) r
example (r : Outcome) : GroupCall ample (line 5 4 3) (intMem .i32 0 [0, 1, 2]) (line 1 1 4) (intMem .i8 0 [5, 3, 9, 9])
    ⟨some (line 7 8 2, intMem .i64 0 [2, 4]), none, none⟩ r ↔ r = .cutLast :=
  cutoffs_last_refused (c := 4) (by decide) (by decide) rfl ex_cuts rfl (by decide) r
example (r : Outcome) : GroupCall ample (line 5 4 2) (intMem .i32 0 [0, 1]) (line 1 1 2) (intMem .i8 0 [5, 3]) ⟨none, some (line 0 1 3), none⟩ r ↔
    r = .filterLength := filter_length_refused (f := line 0 1 3) (by decide) (by decide) rfl rfl rfl (by decide) r
example (r : Outcome) : GroupCall ⟨false, true⟩ (line 5 4 2) (intMem .i32 0 [0, 1]) (line 1 1 2) (intMem .i8 0 [5, 3]) ⟨none, some (line 0 1 2), none⟩ r ↔
    r = .memory := memory_refused (by decide) (by decide) rfl (by intro a h _; cases h; decide) rfl r

/-! ## Where it goes wrong -/

/-- **The filter is not applied**: one of the right length, or an array of another type, gives the same answers as none. -/
theorem filter_ignored {room : Room} {idx vals : Arr} {im vm : Mem} {cuts : Option (Arr × Mem)} {base : Option Int} {f : Arr}
    (h : f.type = 0 → f.lay.len = idx.lay.len) (r : Outcome) :
    GroupCall room idx im vals vm ⟨cuts, some f, base⟩ r ↔ GroupCall room idx im vals vm ⟨cuts, none, base⟩ r := by
  have hp : prepare room idx im vals vm ⟨cuts, some f, base⟩ = prepare room idx im vals vm ⟨cuts, none, base⟩ := by
    unfold prepare
    rw [show filterBad idx.lay.len (some f) = filterBad idx.lay.len none from filter_fits (fun a ha h0 => by cases ha; exact h h0)]
  constructor <;> intro hh <;> cases hh with
  | early r h => exact .early _ (by first | rw [← hp]; exact h | rw [hp]; exact h)
  | direct q h hc => exact GroupCall.direct q (by first | rw [← hp]; exact h | rw [hp]; exact h) hc
  | unordered q l h hc hn => exact .unordered q l (by first | rw [← hp]; exact h | rw [hp]; exact h) hc hn
  | split q l rows cuts o h hc hi hl hr => exact GroupCall.split q l rows cuts o (by first | rw [← hp]; exact h | rw [hp]; exact h) hc hi hl hr

example (r : Outcome) : GroupCall ample (line 5 4 2) (intMem .i32 0 [0, 1]) (line 1 1 2) (intMem .i8 0 [5, 3]) ⟨none, some (line 0 1 2), none⟩ r ↔
    GroupCall ample (line 5 4 2) (intMem .i32 0 [0, 1]) (line 1 1 2) (intMem .i8 0 [5, 3]) ⟨none, none, none⟩ r := filter_ignored (f := line 0 1 2) (fun _ => by decide) r

/-- **Cutoffs without items**: the number before the first one is read. -/
theorem empty_cutoffs_undefined {room : Room} {idx vals ca : Arr} {im vm cm : Mem} {ex : Extra} (hl : idx.lay.len ≤ vals.lay.len)
    (ht : idx.type ∈ [5, 7, 9]) (hc : ex.cuts = some (ca, cm)) (hty : ca.type = 7 ∨ ca.type = 9) (h : ca.lay.len = 0) (r : Outcome) :
    GroupCall room idx im vals vm ex r ↔ r = .undefined := by
  apply early_only
  obtain ⟨t, e⟩ := indexType_in ht
  unfold prepare; rw [if_neg (by omega), e]
  simp only [hc, cutsBad]
  rw [if_pos hty, if_pos h]

example (r : Outcome) : GroupCall ample (line 5 4 2) (intMem .i32 0 [0, 1]) (line 1 1 2) (intMem .i8 0 [5, 3])
    ⟨some (line 7 8 0, fun _ => none), none, none⟩ r ↔ r = .undefined := empty_cutoffs_undefined (by decide) (by decide) rfl (by decide) (by decide) r

/-- **The later arrays are not checked**: a null pointer is used when there is no memory for them. -/
theorem later_memory_unchecked {room : Room} {idx vals : Arr} {im vm : Mem} {ex : Extra} {t : IT} {order : List Nat} {rs : List (List Nat)}
    (hi : Index idx t im order) (hv : Values vals vm rs) (hle : order.length ≤ rs.length) (hc : ex.cuts = none) (hf : FilterFits order.length ex.filter)
    (h1 : room.arrays = true) (h2 : room.later = false) (r : Outcome) :
    GroupCall room idx im vals vm ex r ↔ r = .undefined := by
  rw [call_none hi hv hle hc hf h1]
  have : ∀ q, whole room ex vals.lay.item q = .undefined := by
    intro q
    unfold whole
    split
    · rfl
    · rw [if_pos h2]
  rw [this]

example (r : Outcome) : GroupCall ⟨true, false⟩ (line 5 4 3) (intMem .i32 0 [1, 3, 0]) ⟨3, ⟨[5], [2], 2⟩, true⟩
    (bitMem 1 0 [0, 5, 0, 3, 0, 5, 0, 3, 1, 3]) bare r ↔ r = .undefined :=
  later_memory_unchecked ex_index ex_values (by decide) rfl (by intro a h; cases h) rfl rfl r

/-- The same with cutoffs. -/
theorem later_memory_unchecked_cutoffs {room : Room} {idx vals ca : Arr} {im vm cm : Mem} {ex : Extra} {t : IT} {order cuts : List Nat} {rs : List (List Nat)}
    (hi : Index idx t im order) (hv : Values vals vm rs) (hle : order.length ≤ rs.length) (hc : ex.cuts = some (ca, cm)) (hcu : Cuts ca cm cuts)
    (hl : cuts.getLast? = some order.length) (hm : cuts.Pairwise (· ≤ ·)) (hn : t.InRange (order.length : Int)) (hf : FilterFits order.length ex.filter)
    (h1 : room.arrays = true) (h2 : room.later = false) (r : Outcome) (hr : GroupCall room idx im vals vm ex r) : r = .undefined := by
  obtain ⟨o, -, rfl⟩ := (call_some hi hv hle hc hcu hl hm hn hf h1 r).1 hr
  unfold partsOut
  split
  · rfl
  · rw [if_pos h2]

example (r : Outcome) (hr : GroupCall ⟨true, false⟩ (line 5 4 4) (intMem .i32 0 [1, 0, 0, 1]) (line 1 1 4) (intMem .i8 0 [5, 3, 9, 9])
    ⟨some (line 7 8 2, intMem .i64 0 [2, 4]), none, none⟩ r) : r = .undefined :=
  later_memory_unchecked_cutoffs (t := .i32) (order := [1, 0, 0, 1]) (rs := [[5], [3], [9], [9]])
    ⟨by decide, by decide, by decide +kernel, by decide +kernel⟩ ⟨by decide, by decide +kernel, by decide +kernel⟩ (by decide) rfl ex_cuts rfl (by decide)
    (by decide) (by intro a h; cases h) rfl rfl r hr

/-- **A `base_index` beyond `int64`**: the groups are returned while an exception is set. -/
theorem base_too_large_spoiled {room : Room} {idx vals : Arr} {im vm : Mem} {ex : Extra} {v : Int} (hv : ex.base = some v) (h : ¬ IT.i64.InRange v) (r : Outcome)
    (hr : GroupCall room idx im vals vm ex r) : (∀ o, r ≠ .groups o) ∧ ∀ o l, r ≠ .parts o l := by
  have hra : raised ex.base = true := by rw [hv]; exact decide_eq_true h
  cases hr with
  | early r h' =>
    have hcb : ∀ x, cutsBad idx.lay.len ex.cuts = some x → x = .undefined ∨ x = .cutLast ∨ x = .cutType := by
      intro x hx
      unfold cutsBad at hx
      repeat' split at hx
      all_goals simp_all
    unfold prepare at h'
    constructor <;> intros <;> rintro rfl <;> (repeat' split at h') <;> simp_all
  | direct q h' _ =>
    unfold whole given
    rw [hra]
    constructor <;> intros <;> split <;> (try split) <;> simp
  | unordered q l h' _ _ => simp
  | split q l rows cuts o h' _ _ _ _ =>
    unfold partsOut given
    rw [hra]
    constructor <;> intros <;> split <;> (try split) <;> simp

theorem base_spoiled (r : Outcome) : GroupCall ample (line 5 4 1) (intMem .i32 0 [0]) (line 1 1 1) (intMem .i8 0 [5]) ⟨none, none, some (2 ^ 63)⟩ r ↔
    r = .spoiled :=
  direct_only (q := ⟨.i32, [0], [[5]], none⟩) (by decide +kernel) rfl r

/-- **No rows**: the count of the zero bin is never set. -/
theorem no_rows_count_unset (r : Outcome) : GroupCall ample (line 7 8 0) (fun _ => none) (line 1 1 2) (intMem .i8 0 [5, 3]) bare r ↔
    r = .groups ⟨[none, none], [], [none]⟩ := direct_only (q := ⟨.i64, [], [[5], [3]], none⟩) (by decide +kernel) rfl r

/-- **Every second item of an index**: rows 0 and 2 are meant, rows 0 and 1 are taken. -/
theorem strided_index_wrong : Ints .i32 ⟨5, ⟨[2], [8], 4⟩, false⟩ (intMem .i32 0 [0, 1, 2, 3]) [0, 2] ∧
    ∀ r, GroupCall ample ⟨5, ⟨[2], [8], 4⟩, false⟩ (intMem .i32 0 [0, 1, 2, 3]) (line 1 1 3) (intMem .i8 0 [5, 6, 5]) bare r ↔
      r = .groups ⟨[some 1, some 2, none], [some 0, some 1], [some 0, some 1, some 1]⟩ :=
  ⟨by decide +kernel, direct_only (q := ⟨.i32, [0, 1], [[5], [6], [5]], none⟩) (by decide +kernel) rfl⟩

/-- **An index in the other order of bytes**: reads outside of the values. -/
theorem swapped_index_undefined : Ints .i32 ⟨5, ⟨[2], [4], 4⟩, true⟩ (bitMem 1 0 [0, 0, 0, 0, 0, 0, 0, 1]) [0, 1] ∧
    ∀ r, GroupCall ample ⟨5, ⟨[2], [4], 4⟩, true⟩ (bitMem 1 0 [0, 0, 0, 0, 0, 0, 0, 1]) (line 1 1 2) (intMem .i8 0 [5, 5]) bare r ↔ r = .undefined :=
  ⟨by decide +kernel, fun r => by
    have := direct_only (room := ample) (idx := ⟨5, ⟨[2], [4], 4⟩, true⟩) (im := bitMem 1 0 [0, 0, 0, 0, 0, 0, 0, 1]) (vals := line 1 1 2)
      (vm := intMem .i8 0 [5, 5]) (ex := bare) (q := ⟨.i32, [0, 16777216], [[5], [5]], none⟩) (by decide +kernel) rfl r
    rwa [show whole ample bare (line 1 1 2).lay.item ⟨.i32, [0, 16777216], [[5], [5]], none⟩ = .undefined by
      unfold whole; simp only
      rw [show (nats (seen IT.i32 [0, 16777216])).bind (group (differ (line 1 1 2).lay.item) (cslotOf (line 1 1 2).lay.item (baseOf bare.base))
        (baseOf bare.base) [[5], [5]]) = none by decide +kernel]] at this⟩

/-- **Every second item of the values**: 5 and 5 are meant, 5 and 6 are compared. -/
theorem strided_values_wrong : Rows 1 1 ⟨1, ⟨[2], [2], 1⟩, false⟩ (intMem .i8 0 [5, 6, 5]) [[5], [5]] ∧
    ∀ r, GroupCall ample (line 5 4 2) (intMem .i32 0 [0, 1]) ⟨1, ⟨[2], [2], 1⟩, false⟩ (intMem .i8 0 [5, 6, 5]) bare r ↔
      r = .groups ⟨[some 1, some 2], [some 0, some 1], [some 0, some 1, some 1]⟩ :=
  ⟨by decide +kernel, direct_only (q := ⟨.i32, [0, 1], [[5], [6]], none⟩) (by decide +kernel) rfl⟩

theorem mapM_none' {α β : Type} (f : α → Option β) (l : List α) {a : α} (ha : a ∈ l) (h : f a = none) : l.mapM f = none := by
  induction l with
  | nil => cases ha
  | cons x l ih =>
    rw [List.mapM_cons]
    rcases List.mem_cons.1 ha with rfl | ha
    · rw [h]; rfl
    · cases f x with
      | none => rfl
      | some y => rw [ih ha]; rfl

/-- **A negative row**, as `-1` for rows which were filtered out, reads before the values. -/
theorem negative_row_undefined {room : Room} {idx vals : Arr} {im vm : Mem} {ex : Extra} {q : Ready} {x : Int} (h : prepare room idx im vals vm ex = .ok q)
    (hc : q.cuts = none) (hx : x ∈ seen q.type q.index) (hn : x < 0) (r : Outcome) : GroupCall room idx im vals vm ex r ↔ r = .undefined := by
  rw [direct_only h hc]
  have : nats (seen q.type q.index) = none := by
    unfold nats
    exact mapM_none' _ _ hx (if_neg (by omega))
  unfold whole
  rw [this]
  rfl

example (r : Outcome) : GroupCall ample (line 5 4 2) (intMem .i32 0 [0, -1]) (line 1 1 2) (intMem .i8 0 [5, 3]) bare r ↔ r = .undefined :=
  negative_row_undefined (q := ⟨.i32, [0, -1], [[5], [3]], none⟩) (x := -1) (by decide +kernel) rfl (by decide) (by decide) r

/-- **2^32 rows with an index of `int32`**: their number is cut to 0, and there are no groups. -/
theorem rows_cut_to_none {room : Room} {idx vals : Arr} {im vm : Mem} {ex : Extra} {q : Ready} (h : prepare room idx im vals vm ex = .ok q)
    (hc : q.cuts = none) (ht : q.type = .i32) (hn : q.index.length = 2 ^ 32) (r : Outcome) (hr : GroupCall room idx im vals vm ex r) (o : GOut)
    (ho : r = .groups o) : o.firsts = [] ∧ o.keys = List.replicate q.vals.length none := by
  subst ho
  have := (direct_only h hc _).1 hr
  have hs : seen q.type q.index = [] := by
    unfold seen
    rw [ht, hn, if_pos (by decide +kernel)]
  have hg : ∀ c b, group (differ vals.lay.item) c b q.vals [] = some ⟨List.replicate q.vals.length none, [], [none]⟩ := fun c b => rfl
  unfold whole given at this
  rw [hs, show nats [] = some [] from rfl, Option.bind_some, hg] at this
  simp only at this
  split at this
  · cases this
  · split at this
    · cases this
    · cases this; exact ⟨rfl, rfl⟩

/-- **2^31 rows with an index of `int32`**: their number becomes negative, and only the first row is grouped. -/
theorem rows_cut_to_one {room : Room} {idx vals : Arr} {im vm : Mem} {ex : Extra} {q : Ready} {x : Nat} (h : prepare room idx im vals vm ex = .ok q)
    (hc : q.cuts = none) (ht : q.type = .i32) (hn : q.index.length = 2 ^ 31) (hx : q.index[0]? = some (x : Int)) (r : Outcome)
    (hr : GroupCall room idx im vals vm ex r) (o : GOut) (ho : r = .groups o) : o.firsts = [some x] := by
  subst ho
  have := (direct_only h hc _).1 hr
  have hs : seen q.type q.index = [(x : Int)] := by
    unfold seen
    rw [ht, hn, if_neg (by decide +kernel), show max 1 (IT.i32.wrap ((2 ^ 31 : Nat) : Int)).toNat = 1 by decide +kernel]
    cases hq : q.index with
    | nil => rw [hq] at hx; cases hx
    | cons y l => rw [hq] at hx; simp only [List.getElem?_cons_zero, Option.some.injEq] at hx; rw [hx]; rfl
  unfold whole given at this
  rw [hs, show nats [(x : Int)] = some [x] from nats_of [x], Option.bind_some] at this
  cases hg : group (differ vals.lay.item) (cslotOf vals.lay.item (baseOf ex.base)) (baseOf ex.base) q.vals [x] with
  | none => rw [hg] at this; cases this
  | some o' =>
    rw [hg] at this
    simp only at this
    split at this
    · cases this
    · split at this
      · cases this
      · cases this
        unfold group groupIndex at hg
        simp only at hg
        cases hv : q.vals[x]? with
        | none => rw [hv] at hg; cases hg
        | some v =>
          rw [hv] at hg
          simp only [Option.bind_some, loop, Option.map_some] at hg
          rw [Option.bind_eq_some_iff] at hg
          obtain ⟨k, -, hg⟩ := hg
          rw [show runWrites [x].length [(0, x)] = some [some x] from rfl, Option.bind_some, Option.map_eq_some_iff] at hg
          obtain ⟨c, -, rfl⟩ := hg
          rfl

theorem load_zeros : ∀ (w : Nat) (o : Int), load (fun _ => some 0) o w = some 0
  | 0, _ => rfl
  | w + 1, o => by rw [load, Option.bind_some, load_zeros w]; rfl

theorem prepare_zeros (n : Nat) : prepare ample (line 5 4 n) (fun _ => some 0) (line 1 1 n) (fun _ => some 0) bare =
    .ok ⟨.i32, (List.range n).map fun _ => 0, (List.range n).map fun _ => [0], none⟩ := by
  have h1 : items .i32 (fun _ => some 0) n = some ((List.range n).map fun _ => 0) := by
    unfold items
    apply Riptide.Binary.mapM_some_range
    intro i _
    unfold item loadInt
    rw [load_zeros]
    rfl
  have h2 : rows 1 1 1 n (fun _ => some 0) = some ((List.range n).map fun _ => [0]) := by
    unfold rows
    apply Riptide.Binary.mapM_some_range
    intro i _
    unfold units
    simp only [load_zeros]
    rfl
  have hl : ∀ ty it, (line ty it n).lay.len = n := by intro ty it; simp [line, Riptide.Binary.Lay.len, Riptide.Binary.prod]
  unfold prepare
  rw [hl, hl, if_neg (by omega), show indexType (line 5 4 n).type = some .i32 from rfl, show (line 1 1 n).lay.item = 1 from rfl]
  simp only [h1, h2]
  rfl

/-- Such rows: memory full of zeros. -/
example : ∃ q, prepare ample (line 5 4 (2 ^ 32)) (fun _ => some 0) (line 1 1 (2 ^ 32)) (fun _ => some 0) bare = .ok q ∧ q.cuts = none ∧ q.type = .i32 ∧
    q.index.length = 2 ^ 32 := ⟨_, prepare_zeros _, rfl, rfl, by simp⟩
example : ∃ q, prepare ample (line 5 4 (2 ^ 31)) (fun _ => some 0) (line 1 1 (2 ^ 31)) (fun _ => some 0) bare = .ok q ∧ q.cuts = none ∧ q.type = .i32 ∧
    q.index.length = 2 ^ 31 ∧ q.index[0]? = some ((0 : Nat) : Int) := ⟨_, prepare_zeros _, rfl, rfl, by simp, by simp⟩

end Riptide.LexGroup.Call
