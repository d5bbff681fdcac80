import Verif.Sort.CallSpec
import Verif.Sort.Props
import Verif.Convert.CallVals
/-! # Theorems about lexsort calls (C136) -/
namespace Riptide.Sort.Call
open Riptide.Sort.Spec Riptide.Sort.Call.Spec Riptide.Hash Riptide.Work

/-! ## Columns and orders -/

theorem lexLt_congr {α : Type} {P : α → Prop} : ∀ (l l' : List (α → α → Bool)), l.length = l'.length →
    (∀ p ∈ l.zip l', ∀ x y, P x → P y → p.1 x y = p.2 x y) → ∀ x y, P x → P y → lexLt l x y = lexLt l' x y
  | [], [], _, _, _, _, _, _ => rfl
  | [], _ :: _, h, _, _, _, _, _ => by simp at h
  | _ :: _, [], h, _, _, _, _, _ => by simp at h
  | a :: l, b :: l', h, H, x, y, hx, hy => by
    have ih := lexLt_congr (P := P) l l' (by simpa using h) (fun p hp => H p (by simp [hp]))
    have h0 : ∀ x y, P x → P y → a x y = b x y := H (a, b) (by simp)
    simp only [lexLt]
    rw [ih x y hx hy, ih y x hy hx, h0 x y hx hy]

theorem stable_congr {α : Type} {lt lt' : α → α → Bool} {xs out : List α} (h : ∀ x ∈ xs, ∀ y ∈ xs, lt x y = lt' x y)
    (hs : StableSort lt xs out) : StableSort lt' xs out := by
  have ht : ∀ z ∈ xs, ∀ x ∈ xs, tie lt z x = tie lt' z x := by
    intro z hz x hx; simp only [tie]; rw [h z hz x hx, h x hx z hz]
  refine ⟨hs.perm, ?_, ?_⟩
  · refine List.Pairwise.imp_of_mem ?_ hs.sorted
    intro x y hx hy hxy
    rw [← h y (hs.mem.1 hy) x (hs.mem.1 hx)]; exact hxy
  · intro z hz
    have e1 : out.filter (tie lt z) = out.filter (tie lt' z) := List.filter_congr fun x hx => ht z hz x (hs.mem.1 hx)
    have e2 : xs.filter (tie lt z) = xs.filter (tie lt' z) := List.filter_congr fun x hx => ht z hz x hx
    rw [← e1, ← e2]; exact hs.stable z hz

/-- A good array is sorted by, and by the right order. -/
theorem colOf_good {n : Nat} {c : Col} (hc : c.Good n) (asc : Bool) :
    ∃ C, colOf asc ⟨true, c.ty, c.d⟩ = some C ∧ C.Ok ∧ C.len = n ∧ ∀ i j, i < n → j < n → C.lt i j = keyBefore c.ty asc c.d i j := by
  obtain ⟨ty, d⟩ := c
  cases d with
  | nums v =>
    obtain ⟨ht, hv⟩ := hc
    have hmap : ∀ i, (v.map Int.toNat).getD i 0 = (v.getD i 0).toNat := by
      intro i; simp only [List.getD_eq_getElem?_getD, List.getElem?_map]; cases v[i]? <;> rfl
    have hflt : ∀ f : FT, ∀ x y, floatLt f asc x y = fltBefore f asc x y := by
      intro f x y
      have := floatLt_iff f asc x y
      rw [Bool.eq_iff_iff, this]
      unfold fltBefore
      cases asc <;> simp
    simp only [colOf]
    by_cases h10 : ty ≤ 10
    · rw [if_pos h10]
      refine ⟨_, rfl, trivial, hv, fun i j _ _ => ?_⟩
      show intLt asc _ _ = numBefore ty asc _ _
      have h11 : ty ≠ 11 := by omega
      have h12 : ty ≠ 12 := by omega
      unfold numBefore
      rw [if_neg h11, if_neg h12]
      rfl
    · rw [if_neg h10]
      by_cases h11 : ty = 11
      · rw [if_pos h11]
        refine ⟨_, rfl, trivial, by simpa [Column.len] using hv, fun i j _ _ => ?_⟩
        show floatLt .f32 asc _ _ = numBefore ty asc _ _
        unfold numBefore
        rw [if_pos h11, hmap, hmap, hflt]
      · have h12 : ty = 12 := by simp only at ht; omega
        rw [if_neg h11, if_pos h12]
        refine ⟨_, rfl, trivial, by simpa [Column.len] using hv, fun i j _ _ => ?_⟩
        show floatLt .f64 asc _ _ = numBefore ty asc _ _
        unfold numBefore
        rw [if_neg h11, if_pos h12, hmap, hmap, hflt]
  | texts v =>
    obtain ⟨hv, h⟩ := hc
    simp only at h
    simp only [colOf]
    rcases h with ⟨ht, w, hw⟩ | ⟨ht, hw⟩
    · rw [if_pos ht]
      refine ⟨_, rfl, ⟨w, hw⟩, hv, fun i j hi hj => ?_⟩
      show Str.sortLt asc _ _ = textBefore ty asc _ _
      unfold textBefore
      rw [if_neg (by omega), Bool.eq_iff_iff, (Str.sort_compare_total w asc).2 _ _ (hw _ (getD_mem v i [] (by omega))) (hw _ (getD_mem v j [] (by omega)))]
      cases asc <;> simp [Str.Spec.Before]
    · rw [if_neg (by omega), if_pos ht]
      refine ⟨_, rfl, hw, hv, fun i j hi hj => ?_⟩
      show Str.voidLt asc _ _ = textBefore ty asc _ _
      unfold textBefore
      rw [if_pos ht]

/-- The information kept of good arrays. -/
def infos (ks : List Col) : List Info := ks.map fun c => ⟨true, c.ty, c.d⟩

theorem cols_good (n : Nat) : ∀ (ks : List Col) (dirs : List Bool), dirs.length = ks.length → (∀ c ∈ ks, c.Good n) →
    (colsOf (infos ks) dirs).length = ks.length ∧ (∀ C ∈ colsOf (infos ks) dirs, C.Ok ∧ C.len = n) ∧
      ∀ p ∈ ((colsOf (infos ks) dirs).map Column.lt).zip (orders ks dirs), ∀ i j, i < n → j < n → p.1 i j = p.2 i j
  | [], [], _, _ => by simp [colsOf, infos, orders]
  | [], _ :: _, h, _ => by simp at h
  | _ :: _, [], h, _ => by simp at h
  | c :: ks, b :: dirs, hl, hk => by
    obtain ⟨C, h1, h2, h3, h4⟩ := colOf_good (hk c (by simp)) b
    obtain ⟨i1, i2, i3⟩ := cols_good n ks dirs (by simpa using hl) (fun c hc => hk c (by simp [hc]))
    have e : colsOf (infos (c :: ks)) (b :: dirs) = C :: colsOf (infos ks) dirs := by
      unfold colsOf infos
      simp only [List.map_cons, List.zip_cons_cons, List.filterMap_cons, h1]
    have e2 : orders (c :: ks) (b :: dirs) = keyBefore c.ty b c.d :: orders ks dirs := rfl
    rw [e, e2]
    refine ⟨by simp [i1], ?_, ?_⟩
    · intro D hD
      rcases List.mem_cons.1 hD with rfl | hD
      · exact ⟨h2, h3⟩
      · exact i2 D hD
    · intro p hp
      simp only [List.map_cons, List.zip_cons_cons] at hp
      rcases List.mem_cons.1 hp with rfl | hp
      · exact h4
      · exact i3 p hp

theorem good_lex {n : Nat} {ks : List Col} {dirs : List Bool} (hd : dirs.length = ks.length) (hk : ∀ c ∈ ks, c.Good n) :
    ∀ i j, i < n → j < n → lexLt ((colsOf (infos ks) dirs).map Column.lt) i j = lexLt (orders ks dirs) i j := by
  obtain ⟨h1, _, h3⟩ := cols_good n ks dirs hd hk
  exact lexLt_congr (P := fun i => i < n) _ _ (by simp [h1, orders, hd]) h3

theorem cols_ne {n : Nat} {ks : List Col} {dirs : List Bool} (hd : dirs.length = ks.length) (hk : ∀ c ∈ ks, c.Good n) (hne : ks ≠ []) :
    colsOf (infos ks) dirs ≠ [] := by
  intro h
  have := (cols_good n ks dirs hd hk).1
  rw [h] at this
  exact hne (List.length_eq_zero_iff.1 this.symm)

/-! ## The preparation -/

theorem Good.len {n : Nat} {c : Col} (h : c.Good n) : c.d.len = n := by
  obtain ⟨ty, d⟩ := c
  cases d with
  | nums v => exact h.2
  | texts v => exact h.1

theorem Good.ty_le {n : Nat} {c : Col} (h : c.Good n) : c.ty ≤ 20 := by
  obtain ⟨ty, d⟩ := c
  cases d with
  | nums v => have := h.1; simp only at this ⊢; omega
  | texts v =>
    have := h.2
    simp only at this ⊢
    rcases this with ⟨h, _⟩ | ⟨h, _⟩ <;> omega

theorem keyInfo_key {c : Col} (h : c.ty ≤ 20) : keyInfo c.key = .ok ⟨true, c.ty, c.d⟩ := by
  unfold keyInfo Col.key
  simp [Nat.not_lt.2 h]

theorem mapM_infos : ∀ {ks : List Col}, (∀ c ∈ ks, c.ty ≤ 20) → (ks.map Col.key).mapM keyInfo = .ok (infos ks)
  | [], _ => rfl
  | c :: ks, h => by
    rw [List.map_cons, List.mapM_cons, keyInfo_key (h c (by simp)), mapM_infos fun c hc => h c (by simp [hc])]
    rfl

theorem prepare_cols {n : Nat} {ks : List Col} (hne : ks ≠ []) (ht : ∀ c ∈ ks, c.ty ≤ 20) (hl : ∀ c ∈ ks, c.d.len = n) :
    prepare (ks.map Col.key) = .ok (infos ks, n) := by
  unfold prepare
  rw [mapM_infos ht]
  cases ks with
  | nil => exact absurd rfl hne
  | cons c ks =>
    show (if (infos ks).all (fun j => decide (j.d.len = c.d.len)) then _ else _) = _
    have h0 := hl c (by simp)
    rw [if_pos]
    · show Except.ok (infos (c :: ks), c.d.len) = _
      rw [h0]
    · rw [List.all_eq_true]
      intro j hj
      obtain ⟨d, hd, rfl⟩ := List.mem_map.1 hj
      simp [h0, hl d (by simp [hd])]

theorem prepare_good {n : Nat} {ks : List Col} (hne : ks ≠ []) (hk : ∀ c ∈ ks, c.Good n) : prepare (ks.map Col.key) = .ok (infos ks, n) :=
  prepare_cols hne (fun c hc => Good.ty_le (hk c hc)) fun c hc => Good.len (hk c hc)

theorem plan_good (bits : Nat) {n : Nat} {ks : List Col} (hne : ks ≠ []) (hk : ∀ c ∈ ks, c.Good n) (cuts : Option CutArg) (asc : Asc)
    (index : Option IdxArg) : plan bits ⟨ks.map Col.key, cuts, asc, index⟩ = body bits (infos ks) n ⟨ks.map Col.key, cuts, asc, index⟩ := by
  unfold plan
  simp only [prepare_good hne hk]

theorem head_infos {ks : List Col} : ((infos ks).head?.map (·.there)) ≠ some false := by
  cases ks <;> simp [infos]

theorem means_len {k : Nat} {asc : Asc} {dirs : List Bool} (h : Means k asc dirs) : dirs.length = k := by
  cases h <;> simp_all

theorem boolOf_bool (b : Bool) : boolOf (if b then 1 else 0) = some b := by cases b <;> decide

theorem means_flags {k : Nat} {asc : Asc} {dirs : List Bool} (h : Means k asc dirs) : asc.flags k = some dirs ∧ asc.wrongLen k = false := by
  cases h with
  | absent => exact ⟨rfl, rfl⟩
  | bool b => exact ⟨rfl, rfl⟩
  | array dirs rest hl =>
    refine ⟨?_, by simp [Asc.wrongLen]⟩
    unfold Asc.flags
    have e : (List.range k).mapM (fun (i : Nat) => ((dirs.map (fun b => if b then (1 : UInt8) else 0) ++ rest)[i]?).bind boolOf) =
        some ((List.range k).map fun i => dirs.getD i false) := by
      apply mapM_some
      intro i hi
      have hi' : i < dirs.length := by rw [hl]; exact List.mem_range.1 hi
      rw [List.getElem?_append_left (by simpa using hi'), List.getElem?_map, List.getElem?_eq_getElem hi']
      simp only [Option.map_some, Option.bind_some, boolOf_bool]
      simp [List.getD, hi']
    refine e.trans ?_
    congr 1
    apply List.ext_getElem
    · simp [hl]
    · intro i h1 h2
      simp [List.getD, h2]

/-! ## Calls without cutoffs -/

theorem two_pow_pos (bits : Nat) : 0 < 2 ^ (bits - 1) := Nat.two_pow_pos _

theorem body_plain {bits n : Nat} {ks : List Col} {asc : Asc} {dirs : List Bool} (hm : Means ks.length asc dirs) (hn : n < 2 ^ (bits - 1)) :
    body bits (infos ks) n ⟨ks.map Col.key, none, asc, none⟩ = .fresh (colsOf (infos ks) dirs) n := by
  obtain ⟨h1, h2⟩ := means_flags hm
  have hl : (infos ks).length = ks.length := by simp [infos]
  unfold body
  simp only [cutsOf, startOf, hl, h2, h1]
  have h3 : ¬ maxIdx bits < n := by unfold maxIdx; omega
  rw [if_neg (by simp), if_neg (fun h => head_infos h.2), if_neg (by simp), if_neg h3]

/-- C136: `LexSort32` and `LexSort64` of arrays with as many rows as the index type can number return a new array: the rows in lexicographic order by all
arrays, each in its direction, the last array first, NaNs at the end and equal rows in their order — in every way the call can be executed. -/
theorem lexsort_call_orders_rows (workers : Nat) (nt : Bool) (bits n : Nat) (ks : List Col) (asc : Asc) (dirs : List Bool) (hne : ks ≠ [])
    (hk : ∀ c ∈ ks, c.Good n) (hm : Means ks.length asc dirs) (hn : n < 2 ^ (bits - 1)) :
    (∃ r, LexCall workers nt bits ⟨ks.map Col.key, none, asc, none⟩ r) ∧
    ∀ r, LexCall workers nt bits ⟨ks.map Col.key, none, asc, none⟩ r →
      ∃ out, r = .fresh bits out ∧ StableSort (lexLt (orders ks dirs)) (List.range n) out := by
  have hp : plan bits ⟨ks.map Col.key, none, asc, none⟩ = .fresh (colsOf (infos ks) dirs) n := by
    rw [plan_good bits hne hk, body_plain hm hn]
  have hd := means_len hm
  unfold LexCall
  rw [hp]
  constructor
  · obtain ⟨r, hr⟩ := lexRun_runs (colsOf (infos ks) dirs) (List.range n)
    exact ⟨_, .fresh _ _ r hr⟩
  · intro r h
    cases h with
    | fresh _ _ r hr =>
      obtain ⟨out, rfl, hs⟩ := lexsort_stable n _ _ r (cols_good n ks dirs hd hk).2.1 (by simp) hr
      refine ⟨out, rfl, stable_congr ?_ hs⟩
      intro x hx y hy
      exact good_lex hd hk x y (by simpa using hx) (by simpa using hy)

theorem take_idx (bits : Nat) (items : List Nat) (rest : List Int) :
    (idxArg bits items rest).mem.take (idxArg bits items rest).len = items.map (fun (i : Nat) => (i : Int)) ∧
    (idxArg bits items rest).mem.drop (idxArg bits items rest).len = rest := by
  unfold idxArg
  simp

theorem body_index {bits n : Nat} {ks : List Col} {asc : Asc} {dirs : List Bool} (hne : ks ≠ []) (hk : ∀ c ∈ ks, c.Good n)
    (hm : Means ks.length asc dirs) (items : List Nat) (rest : List Int) (h2 : 2 ≤ items.length) (hle : items.length ≤ n)
    (hb : items.length < 2 ^ (bits - 1)) (hi : ∀ i ∈ items, i < n) :
    body bits (infos ks) n ⟨ks.map Col.key, none, asc, some (idxArg bits items rest)⟩ =
      .index (colsOf (infos ks) dirs) items rest := by
  obtain ⟨f1, f2⟩ := means_flags hm
  have hl : (infos ks).length = ks.length := by simp [infos]
  have hs : startOf bits n (some (idxArg bits items rest)) = some (some (idxArg bits items rest)) := by
    show (if (some bits : Option Nat) = none then none else if items.length = 0 then some none else if n < items.length then none
      else if decide ((some bits : Option Nat) = some bits) = true then some (some (idxArg bits items rest)) else none) = _
    rw [if_neg (by simp), if_neg (by omega), if_neg (by omega), if_pos (by simp)]
  unfold body
  simp only [cutsOf, hs, hl, f2, f1]
  rw [if_neg (by simp), if_neg (by simp)]
  show indexPlan bits (colsOf (infos ks) dirs) n (idxArg bits items rest) = _
  obtain ⟨t1, t2⟩ := take_idx bits items rest
  have hc := cols_ne (means_len hm) hk hne
  have h3 : ¬ maxIdx bits < items.length := by unfold maxIdx; omega
  unfold indexPlan
  rw [t1, t2]
  show (if items.length ≤ 1 ∨ colsOf (infos ks) dirs = [] then _
    else if (items.map (fun (i : Nat) => (i : Int)) ++ rest).length < items.length ∨ maxIdx bits < items.length then _ else _) = _
  rw [if_neg (by rintro (h | h); omega; exact hc h), if_neg (by rintro (h | h); simp at h; omega; exact h3 h), if_pos]
  · congr 1
    rw [List.map_map]
    exact (List.map_congr_left fun i _ => by simp).trans (List.map_id items)
  · rw [List.all_eq_true]
    intro v hv
    obtain ⟨i, h, rfl⟩ := List.mem_map.1 hv
    have := hi i h
    simp; omega

/-- C136: with row numbers in an array of the right type, item after item in memory and at least two, the call sorts them in that array and returns it: the same row
numbers, in the lexicographic order, equal rows in the order they were given; the memory behind them is left alone. -/
theorem lexsort_call_index_partial (workers : Nat) (nt : Bool) (bits n : Nat) (ks : List Col) (asc : Asc) (dirs : List Bool) (hne : ks ≠ [])
    (hk : ∀ c ∈ ks, c.Good n) (hm : Means ks.length asc dirs) (items : List Nat) (rest : List Int) (h2 : 2 ≤ items.length) (hle : items.length ≤ n)
    (hb : items.length < 2 ^ (bits - 1)) (hi : ∀ i ∈ items, i < n) :
    (∃ r, LexCall workers nt bits ⟨ks.map Col.key, none, asc, some (idxArg bits items rest)⟩ r) ∧
    ∀ r, LexCall workers nt bits ⟨ks.map Col.key, none, asc, some (idxArg bits items rest)⟩ r →
      ∃ out, r = .index (out.map (fun (i : Nat) => (i : Int)) ++ rest) ∧ StableSort (lexLt (orders ks dirs)) items out := by
  have hp : plan bits ⟨ks.map Col.key, none, asc, some (idxArg bits items rest)⟩ = .index (colsOf (infos ks) dirs) items rest := by
    rw [plan_good bits hne hk, body_index hne hk hm items rest h2 hle hb hi]
  have hd := means_len hm
  unfold LexCall
  rw [hp]
  constructor
  · obtain ⟨r, hr⟩ := lexRun_runs (colsOf (infos ks) dirs) items
    exact ⟨_, .index _ _ _ r hr⟩
  · intro r h
    cases h with
    | index _ _ _ r hr =>
      obtain ⟨out, rfl, hs⟩ := lexsort_stable n _ _ r (cols_good n ks dirs hd hk).2.1 hi hr
      refine ⟨out, rfl, stable_congr ?_ hs⟩
      intro x hx y hy
      exact good_lex hd hk x y (hi x hx) (hi y hy)

end Riptide.Sort.Call
