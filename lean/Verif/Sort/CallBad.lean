import Verif.Sort.CallCuts
/-! # Where lexsort calls go wrong (C136) -/
namespace Riptide.Sort.Call
open Riptide.Sort.Spec Riptide.Sort.Call.Spec Riptide.Hash Riptide.Work

/-! ## Undefined behaviour -/

theorem plan_undef {workers : Nat} {nt : Bool} {bits : Nat} {a : Args} {r : Reply} (hp : plan bits a = .undef) (h : LexCall workers nt bits a r) :
    r = .undef := by
  unfold LexCall at h
  rw [hp] at h
  cases h; rfl

/-- C136: an index without items and no cutoffs: a new array is made for all rows, but never filled, so that what happens to be in its memory is sorted. -/
theorem empty_index_undefined (workers : Nat) (nt : Bool) (bits n : Nat) (ks : List Col) (asc : Asc) (dirs : List Bool) (hne : ks ≠ [])
    (hk : ∀ c ∈ ks, c.Good n) (hm : Means ks.length asc dirs) (hn : n ≠ 0) (x : IdxArg) (hb : x.bits ≠ none) (h0 : x.len = 0) (r : Reply)
    (h : LexCall workers nt bits ⟨ks.map Col.key, none, asc, some x⟩ r) : r = .undef := by
  refine plan_undef ?_ h
  obtain ⟨f1, f2⟩ := means_flags hm
  have hl : (infos ks).length = ks.length := by simp [infos]
  have hs : startOf bits n (some x) = some none := by
    unfold startOf
    simp only
    rw [if_neg hb, if_pos h0]
  rw [plan_good bits hne hk]
  unfold body
  simp only [cutsOf, hs, hl, f2, f1]
  rw [if_neg (by simp), if_neg (fun h => head_infos h.2), if_pos (by simp [hn])]

theorem body_indexPlan {bits n : Nat} {ks : List Col} {asc : Asc} {dirs : List Bool} (hm : Means ks.length asc dirs) {x : IdxArg}
    (hb : x.bits = some bits) (h0 : 0 < x.len) (hle : x.len ≤ n) :
    body bits (infos ks) n ⟨ks.map Col.key, none, asc, some x⟩ = indexPlan bits (colsOf (infos ks) dirs) n x := by
  obtain ⟨f1, f2⟩ := means_flags hm
  have hl : (infos ks).length = ks.length := by simp [infos]
  unfold body
  simp only [cutsOf, start_ok hb h0 hle, hl, f2, f1]
  rw [if_neg (by simp), if_neg (by simp)]

/-- C136: a row number outside of the arrays (also a negative one) among two or more is used to read the arrays as it is. -/
theorem index_out_of_range_undefined (workers : Nat) (nt : Bool) (bits n : Nat) (ks : List Col) (asc : Asc) (dirs : List Bool) (hne : ks ≠ [])
    (hk : ∀ c ∈ ks, c.Good n) (hm : Means ks.length asc dirs) (x : IdxArg) (hb : x.bits = some bits) (h2 : 2 ≤ x.len) (hle : x.len ≤ n)
    (v : Int) (hv : v ∈ x.mem.take x.len) (hbad : v < 0 ∨ (n : Int) ≤ v) (r : Reply)
    (h : LexCall workers nt bits ⟨ks.map Col.key, none, asc, some x⟩ r) : r = .undef := by
  refine plan_undef ?_ h
  rw [plan_good bits hne hk, body_indexPlan hm hb (by omega) hle]
  have hc := cols_ne (means_len hm) hk hne
  unfold indexPlan
  rw [if_neg (by rintro (h | h); omega; exact hc h)]
  split
  · rfl
  · rw [if_neg]
    intro ha
    have := List.all_eq_true.1 ha v hv
    simp only [decide_eq_true_eq] at this
    omega

/-- C136: a single row number is returned as it is, whatever it is. -/
theorem one_row_number_kept (workers : Nat) (nt : Bool) (bits n : Nat) (ks : List Col) (asc : Asc) (dirs : List Bool) (hne : ks ≠ [])
    (hk : ∀ c ∈ ks, c.Good n) (hm : Means ks.length asc dirs) (hn : 0 < n) (mem : List Int) (r : Reply)
    (h : LexCall workers nt bits ⟨ks.map Col.key, none, asc, some ⟨some bits, 1, mem⟩⟩ r) : r = .index mem := by
  unfold LexCall at h
  rw [plan_good bits hne hk, body_indexPlan (x := ⟨some bits, 1, mem⟩) hm rfl (Nat.le_refl 1) hn] at h
  unfold indexPlan at h
  rw [if_pos (.inl (Nat.le_refl 1))] at h
  cases h; rfl

/-- C136: cutoffs without items are undefined: the item before the first is read. -/
theorem empty_cutoffs_undefined (workers : Nat) (nt : Bool) (bits n : Nat) (ks : List Col) (asc : Asc) (index : Option IdxArg) (hne : ks ≠ [])
    (hk : ∀ c ∈ ks, c.Good n) (c : CutArg) (hi : c.isI64 = true) (h0 : c.len = 0) (r : Reply)
    (h : LexCall workers nt bits ⟨ks.map Col.key, some c, asc, index⟩ r) : r = .undef := by
  refine plan_undef ?_ h
  rw [plan_good bits hne hk]
  unfold body
  have e : cutsOf n (some c) = .undef := by simp [cutsOf, hi, h0]
  simp only [e]

theorem not_rising : ∀ (l : List Int) (s : Int), risingFrom s l = true → (s :: l).Pairwise (· ≤ ·)
  | [], _, _ => by simp
  | c :: cs, s, h => by
    simp only [risingFrom, Bool.and_eq_true, decide_eq_true_eq] at h
    have ih := not_rising cs c h.2
    refine List.pairwise_cons.2 ⟨?_, ih⟩
    intro a ha
    rcases List.mem_cons.1 ha with rfl | ha
    · exact h.1
    · have := List.rel_of_pairwise_cons ih ha
      omega

/-- C136: cutoffs which fall or are negative somewhere and end with the number of rows are undefined. -/
theorem falling_cutoffs_undefined (workers : Nat) (nt : Bool) (bits n : Nat) (ks : List Col) (asc : Asc) (dirs : List Bool) (hne : ks ≠ [])
    (hk : ∀ c ∈ ks, c.Good n) (hm : Means ks.length asc dirs) (l : List Int) (hl : l.getLast? = some (n : Int)) (hf : ¬ ((0 : Int) :: l).Pairwise (· ≤ ·))
    (r : Reply) (h : LexCall workers nt bits ⟨ks.map Col.key, some ⟨true, l.length, 1, l⟩, asc, none⟩ r) : r = .undef := by
  refine plan_undef ?_ h
  obtain ⟨f1, f2⟩ := means_flags hm
  have hlen : (infos ks).length = ks.length := by simp [infos]
  have hne' : l.length ≠ 0 := by
    intro h
    rw [List.length_eq_zero_iff.1 h] at hl
    cases hl
  have e1 : (List.range l.length).mapM (fun (i : Nat) => l[i]?) = some l := by
    have e1 : (List.range l.length).mapM (fun (i : Nat) => l[i]?) = some ((List.range l.length).map fun (i : Nat) => l.getD i 0) := mapM_some _ _ _ (by
      intro i hi
      have : i < l.length := List.mem_range.1 hi
      simp [List.getD, this])
    rw [e1]
    congr 1
    apply List.ext_getElem
    · simp
    · intro i h1 h2
      simp [List.getD, h2]
  have e : cutsOf n (some ⟨true, l.length, 1, l⟩) = .are l := by
    unfold cutsOf
    simp only [Bool.not_true, Bool.false_eq_true, if_false, e1]
    rw [if_neg hne', if_pos hl]
  rw [plan_good bits hne hk]
  unfold body
  simp only [e, startOf, hlen, f2, f1]
  rw [if_neg (by simp), if_neg (fun h => head_infos h.2)]
  unfold cutPlan
  rw [if_pos]
  simp only [Bool.not_eq_true']
  cases hr : risingFrom 0 l with
  | false => rfl
  | true => exact absurd (not_rising l 0 hr) hf

/-- C136: a call without arrays reads the first one all the same. -/
theorem no_keys_undefined (workers : Nat) (nt : Bool) (bits : Nat) (cuts : Option CutArg) (asc : Asc) (index : Option IdxArg) (r : Reply)
    (h : LexCall workers nt bits ⟨[], cuts, asc, index⟩ r) : r = .undef := plan_undef rfl h

/-- C136: `None` for an array counts as an array without rows; as the only one, the new array is allocated like an array which is not there. -/
theorem none_key_undefined (workers : Nat) (nt : Bool) (bits : Nat) (r : Reply) (h : LexCall workers nt bits ⟨[.pyNone], none, .absent, none⟩ r) :
    r = .undef := plan_undef rfl h

/-- C136: an array without dimensions has its first stride read. -/
theorem zero_dim_undefined (workers : Nat) (nt : Bool) (bits ty : Nat) (hty : ty ≤ 20) (odd : Bool) (d : Data) (ks : List Key) (cuts : Option CutArg)
    (asc : Asc) (index : Option IdxArg) (r : Reply) (h : LexCall workers nt bits ⟨.array ty 0 odd d :: ks, cuts, asc, index⟩ r) : r = .undef := by
  refine plan_undef ?_ h
  have e : keyInfo (.array ty 0 odd d) = .error .undef := by
    show (if 20 < ty then Except.error Fault.raised else if 0 = 0 then Except.error Fault.undef else _) = _
    rw [if_neg (by omega), if_pos rfl]
  unfold plan prepare
  simp only [List.mapM_cons, e]
  rfl

/-! ## Wrong answers -/

/-- C136: a keyword `ascending` which is neither a bool nor an array (a list, a number) is passed over. -/
theorem ascending_other_ignored (workers : Nat) (nt : Bool) (bits : Nat) (keys : List Key) (cuts : Option CutArg) (index : Option IdxArg) (r : Reply) :
    LexCall workers nt bits ⟨keys, cuts, .other, index⟩ r ↔ LexCall workers nt bits ⟨keys, cuts, .absent, index⟩ r := Iff.rfl

/-- C136: `ascending=np.array([1, 1])` for two arrays, eight bytes for each number, sorts by the second array in descending order: its direction is the second
byte of the first number. -/
theorem ascending_numbers_misread (workers : Nat) (nt : Bool) (bits n : Nat) (a b : Col) (ha : a.Good n) (hb : b.Good n) (hn : n < 2 ^ (bits - 1)) (r : Reply)
    (h : LexCall workers nt bits ⟨[a.key, b.key], none, .array 2 [1, 0, 0, 0, 0, 0, 0, 0, 1, 0, 0, 0, 0, 0, 0, 0], none⟩ r) :
    ∃ out, r = .fresh bits out ∧ StableSort (lexLt (orders [a, b] [true, false])) (List.range n) out :=
  (lexsort_call_orders_rows workers nt bits n [a, b] _ [true, false] (by simp) (by simp [ha, hb])
    (.array (k := 2) [true, false] [0, 0, 0, 0, 0, 0, 1, 0, 0, 0, 0, 0, 0, 0] rfl) hn).2 r h

/-- C136: and `ascending=np.array([2])`, whose first byte is not a `bool`, is undefined. -/
theorem ascending_two_undefined (workers : Nat) (nt : Bool) (bits n : Nat) (a : Col) (ha : a.Good n) (r : Reply)
    (h : LexCall workers nt bits ⟨[a.key], none, .array 1 [2, 0, 0, 0, 0, 0, 0, 0], none⟩ r) : r = .undef := by
  refine plan_undef ?_ h
  have hp := plan_good (n := n) bits (ks := [a]) (by simp) (by simpa using ha) (cuts := none) (asc := .array 1 [2, 0, 0, 0, 0, 0, 0, 0]) (index := none)
  refine hp.trans ?_
  unfold body
  have hw : Asc.wrongLen (infos [a]).length (.array 1 [2, 0, 0, 0, 0, 0, 0, 0]) = false := rfl
  have hf : Asc.flags (infos [a]).length (.array 1 [2, 0, 0, 0, 0, 0, 0, 0]) = none := by
    show Asc.flags 1 _ = none
    decide +kernel
  simp only [cutsOf, startOf, hw, hf]
  rw [if_neg (by simp), if_neg (fun h => head_infos h.2)]

theorem lexRun_nil {a : List Nat} {r : Option (List Nat)} (h : LexRun [] a r) : r = some a := by
  cases h; rfl

/-- C136: an array of complex numbers or objects is passed over: alone, it leaves the rows in their order, whatever is in it. -/
theorem unknown_type_unsorted (workers : Nat) (nt : Bool) (bits ty : Nat) (v : List Int) (hty : 14 ≤ ty ∧ ty ≤ 17) (hn : v.length < 2 ^ (bits - 1)) (r : Reply)
    (h : LexCall workers nt bits ⟨[.array ty 1 false (.nums v)], none, .absent, none⟩ r) : r = .fresh bits (List.range v.length) := by
  have e : keyInfo (.array ty 1 false (.nums v)) = .ok ⟨true, ty, .nums v⟩ := by
    have h20 : ¬ 20 < ty := by omega
    simp [keyInfo, h20]
  have hc : colOf true ⟨true, ty, .nums v⟩ = none := by
    have h1 : ¬ ty ≤ 10 := by omega
    have h2 : ty ≠ 11 := by omega
    have h3 : ty ≠ 12 := by omega
    unfold colOf
    simp [h1, h2, h3]
  have hp : plan bits ⟨[.array ty 1 false (.nums v)], none, .absent, none⟩ = .fresh [] v.length := by
    unfold plan prepare
    simp only [List.mapM_cons, List.mapM_nil, e]
    show body bits [⟨true, ty, .nums v⟩] v.length _ = _
    unfold body
    have hcols : colsOf [⟨true, ty, .nums v⟩] [true] = [] := by simp [colsOf, hc]
    have h3 : ¬ maxIdx bits < v.length := by unfold maxIdx; omega
    simp [cutsOf, startOf, Asc.wrongLen, Asc.flags, hcols, h3]
  unfold LexCall at h
  rw [hp] at h
  cases h with
  | fresh _ _ r hr => rw [lexRun_nil hr]; rfl

theorem two_stable {lt : Nat → Nat → Bool} {out : List Nat} (h : StableSort lt [1, 0] out) (h1 : lt 0 1 = true) : out = [0, 1] := by
  obtain ⟨hp, hs, _⟩ := h
  have hl : out.length = 2 := hp.length_eq
  match out, hl with
  | [a, b], _ =>
    have ha : a ∈ [1, 0] := hp.mem_iff.1 (by simp)
    have hb : b ∈ [1, 0] := hp.mem_iff.1 (by simp)
    have hnd : [a, b].Nodup := hp.nodup_iff.2 (by decide)
    simp only [List.mem_cons, List.not_mem_nil, or_false] at ha hb
    rcases ha with rfl | rfl <;> rcases hb with rfl | rfl
    · simp at hnd
    · exact absurd h1 (by have := List.rel_of_pairwise_cons hs (List.mem_singleton.2 rfl); simp [this])
    · rfl
    · simp at hnd

/-- C136: an index with gaps between its items (`base[::2]` of `[1, 0, 0]`, the row numbers 1 and 0) is read and written without the gaps: afterwards it
holds the row 0 twice. -/
theorem strided_index_corrupted (workers : Nat) (nt : Bool) (r : Reply)
    (h : LexCall workers nt 64 ⟨[.array 7 1 false (.nums [10, 20])], none, .absent, some ⟨some 64, 2, [1, 0, 0]⟩⟩ r) :
    ∃ mem : List Int, r = .index mem ∧ [mem.getD 0 0, mem.getD 2 0] = [0, 0] := by
  obtain ⟨out, rfl, hs⟩ := (lexsort_call_index_partial workers nt 64 2 [⟨7, .nums [10, 20]⟩] .absent [true] (by simp) (by simp [Col.Good])
    .absent [1, 0] [0] (by simp) (by simp) (by decide) (by simp)).2 r h
  have : out = [0, 1] := two_stable hs (by decide +kernel)
  subst this
  exact ⟨_, rfl, rfl⟩

/-! ## The hypotheses can be met -/

/-- A column of `int64`. -/
private def k1 : Col := ⟨7, .nums [3, 1, 2]⟩
/-- A column of `float64` with a NaN. -/
private def k2 : Col := ⟨12, .nums [0x7ff8000000000000, 0, 0]⟩
/-- A column of strings. -/
private def k3 : Col := ⟨18, .texts [[97, 98], [97, 0], [98, 0]]⟩

example : ∀ c ∈ [k1, k2, k3], c.Good 3 := by
  intro c hc
  simp only [List.mem_cons, List.not_mem_nil, or_false] at hc
  rcases hc with rfl | rfl | rfl
  · exact ⟨by decide, rfl⟩
  · exact ⟨by decide, rfl⟩
  · exact ⟨rfl, .inl ⟨.inl rfl, 2, by decide⟩⟩

example : Means 3 (.array 3 [1, 0, 1, 7]) [true, false, true] := .array (k := 3) [true, false, true] [7] rfl

example : ∃ r, LexCall 0 true 32 ⟨[k1.key], some (cutArg [1, 1, 3] []), .absent, none⟩ r := by
  have hp : plan 32 ⟨[k1.key], some (cutArg [1, 1, 3] []), .absent, none⟩ = .freshCuts [.ints true [3, 1, 2]] 3 [1, 1, 3] := by
    have e := plan_good (n := 3) 32 (ks := [k1]) (by simp) (by simp [k1, Col.Good]) (cuts := some (cutArg [1, 1, 3] [])) (asc := .absent) (index := none)
    refine e.trans ?_
    unfold body
    simp only [cutsOf_arg (n := 3) (cuts := [1, 1, 3]) [] rfl, startOf]
    rfl
  obtain ⟨s, hs, _⟩ := prepIndex_spec (n := 3) (cuts := [1, 1, 3]) (by decide) rfl
  obtain ⟨r, hr⟩ := cutRun_runs 0 true [1, 1, 3] _ (.direct rfl) [.ints true [3, 1, 2]] s
  refine ⟨ofFresh 32 r, ?_⟩
  unfold LexCall
  rw [hp]
  exact .freshCuts _ _ _ s r hs hr

example : ∀ t, t < [1, 1, 3].length → [1, 1, 3].getD t 0 - lo [1, 1, 3] t < 2 ^ (32 - 1) := by decide

example : ¬ ((0 : Int) :: [2, 1, 3]).Pairwise (· ≤ ·) ∧ ([2, 1, 3] : List Int).getLast? = some ((3 : Nat) : Int) := by decide

example : Refused 32 3 1 (some ⟨true, 2, 1, [1, 2]⟩) .absent none := .inl ⟨_, rfl, .inr (by decide)⟩

example : ¬ Refused 32 3 1 (some ⟨true, 2, 1, [1, 3]⟩) (.bool false) (some ⟨some 32, 2, [0, 1]⟩) := by
  rintro (⟨c, hc, h⟩ | ⟨len, mem, h, _⟩ | ⟨x, hx, h⟩)
  · cases hc; rcases h with h | h
    · cases h
    · exact h rfl
  · cases h
  · cases hx; rcases h with h | h | h
    · cases h
    · exact absurd h (by decide)
    · exact h.2 rfl

end Riptide.Sort.Call
