import Verif.Arrays.UpcastProps
import Verif.Work.Props
/-! Stacking, C67, and conversion to a common type, C71. -/
namespace Riptide.Arrays
open Spec Riptide.Work

theorem offset_succ (lens : List Nat) (t : Nat) (h : t < lens.length) : offset lens (t + 1) = offset lens t + lens.getD t 0 := by
  unfold offset
  rw [List.take_add_one, List.getElem?_eq_getElem h, List.getD_eq_getElem?_getD, List.getElem?_eq_getElem h, List.sum_append]
  simp only [Option.toList_some, List.sum_cons, List.sum_nil, Option.getD_some]; omega

/-- The writes of all arrays in order are the rows of the result with their numbers. -/
theorem pieces_eq {α : Type} (g : Nat → Nat → α) (lens : List Nat) (k : Nat) (hk : k ≤ lens.length) :
    ((List.range k).flatMap fun t => (List.range (lens.getD t 0)).map (g t)).length = offset lens k ∧
    ((List.range k).flatMap fun t => (List.range (lens.getD t 0)).map fun i => (offset lens t + i, g t i)) =
      ((List.range k).flatMap fun t => (List.range (lens.getD t 0)).map (g t)).zipIdx.map Prod.swap := by
  induction k with
  | zero => exact ⟨rfl, rfl⟩
  | succ k ih =>
    obtain ⟨h1, h2⟩ := ih (by omega)
    refine ⟨?_, ?_⟩
    · rw [List.range_succ, List.flatMap_append, List.length_append, h1, offset_succ lens k (by omega)]
      simp
    · rw [List.range_succ, List.flatMap_append, List.flatMap_append, h2, List.zipIdx_append, List.map_append, h1]
      congr 1
      rw [List.flatMap_singleton, List.flatMap_singleton]
      apply List.ext_getElem?
      intro i
      by_cases hi : i < lens.getD k 0
      · rw [List.getElem?_map, List.getElem?_range hi, List.getElem?_map, List.getElem?_zipIdx, List.getElem?_map, List.getElem?_range hi]
        simp
      · rw [List.getElem?_eq_none (by simp at hi ⊢; omega), List.getElem?_eq_none (by simp at hi ⊢; omega)]

theorem StackSched.perm {workers : Nat} {nt : Bool} {lens calls : List Nat} (h : StackSched workers nt lens calls) :
    calls.Perm (List.range lens.length) := by
  cases h with
  | serial _ => exact List.Perm.refl _
  | pool _ _ hw => exact hw.perm

/-- C67: whatever the order in which the arrays are done, the result is the arrays one after the other. -/
theorem hstack_rows {α : Type} (f : Nat → Nat → Option α) (g : Nat → Nat → α) (lens calls : List Nat) (workers : Nat) (nt : Bool)
    (hf : ∀ (t i : Nat), t < lens.length → i < lens.getD t 0 → f t i = some (g t i)) (h : StackSched workers nt lens calls) :
    hstack f lens calls =
      some (((List.range lens.length).flatMap fun t => (List.range (lens.getD t 0)).map (g t)).map some) := by
  have hp := h.perm
  have hm : calls.mapM (stackPiece f lens) =
      some (calls.map fun t => (List.range (lens.getD t 0)).map fun i => (offset lens t + i, g t i)) := by
    apply mapM_some
    intro t ht
    have ht' : t < lens.length := List.mem_range.1 (hp.mem_iff.1 ht)
    apply mapM_some
    intro i hi
    rw [hf t i ht' (List.mem_range.1 hi)]; rfl
  unfold hstack
  rw [hm, Option.bind_some, ← List.flatMap_def]
  obtain ⟨h1, h2⟩ := pieces_eq g lens lens.length (Nat.le_refl _)
  have h3 : offset lens lens.length = lens.sum := by unfold offset; rw [List.take_length]
  rw [h3] at h1
  have := runWrites_perm (l := (List.range lens.length).flatMap fun t => (List.range (lens.getD t 0)).map (g t))
    (ws := calls.flatMap fun t => (List.range (lens.getD t 0)).map fun i => (offset lens t + i, g t i))
    (by rw [← h2]; exact hp.flatMap_right _)
  rw [h1] at this
  exact this

theorem range_flatMap_getD {α β : Type} (as : List α) (ln : α → Nat) (g : α → Nat → β) (d : α) :
    ((List.range (as.map ln).length).flatMap fun t => (List.range ((as.map ln).getD t 0)).map (g (as.getD t d))) =
      as.flatMap fun a => (List.range (ln a)).map (g a) := by
  induction as with
  | nil => rfl
  | cons a as ih =>
    rw [List.map_cons, List.length_cons, List.range_succ_eq_map, List.flatMap_cons, List.flatMap_map]
    show _ ++ _ = _
    rw [List.flatMap_cons]
    congr 1

/-- What is needed of the types for a conversion of `d` to `r`. -/
def typesOk (d r : Int) : Bool :=
  match intType d, intType r, bounds d, sentinel r with
  | some a, some b, some p, some s =>
    decide (b.lo ≤ p.1 ∧ p.2 ≤ b.hi ∧ 0 < b.bits ∧ b.inv = s ∧ (if d = 0 then a.inv < 0 else sentinel d = some a.inv) ∧
      (p.1 ≤ s → s ≤ p.2 → sentinel d = some s))
  | _, _, _, _ => false

theorem types_ok : ∀ d ∈ [0, 1, 2, 3, 4, 5, 6, 7, 8, 9, 10], ∀ r ∈ [0, 1, 2, 3, 4, 5, 6, 7, 8, 9, 10],
    holds d r = true → d ≠ r → typesOk d r = true := by decide +kernel

theorem mem_ints {d : Int} (h : 0 ≤ d ∧ d ≤ 10) : d ∈ ([0, 1, 2, 3, 4, 5, 6, 7, 8, 9, 10] : List Int) := by
  simp only [List.mem_cons, List.not_mem_nil, or_false]; omega

theorem types_facts {d r : Int} (hd : 0 ≤ d ∧ d ≤ 10) (hr : 0 ≤ r ∧ r ≤ 10) (hh : holds d r = true) (hne : d ≠ r) :
    ∃ a b p s, intType d = some a ∧ intType r = some b ∧ bounds d = some p ∧ sentinel r = some s ∧ b.lo ≤ p.1 ∧ p.2 ≤ b.hi ∧
      0 < b.bits ∧ b.inv = s ∧ (if d = 0 then a.inv < 0 else sentinel d = some a.inv) ∧
      (p.1 ≤ s → s ≤ p.2 → sentinel d = some s) := by
  have ht := types_ok d (mem_ints hd) r (mem_ints hr) hh hne
  unfold typesOk at ht
  rcases ha : intType d with _ | a
  · rw [ha] at ht; exact absurd ht (by simp)
  rcases hb : intType r with _ | b
  · rw [ha, hb] at ht; exact absurd ht (by simp)
  rcases hp : bounds d with _ | p
  · rw [ha, hb, hp] at ht; exact absurd ht (by simp)
  rcases hs : sentinel r with _ | s
  · rw [ha, hb, hp, hs] at ht; exact absurd ht (by simp)
  rw [ha, hb, hp, hs] at ht
  exact ⟨a, b, p, s, rfl, rfl, rfl, rfl, of_decide_eq_true ht⟩

theorem carry_self (d x : Int) : carry d d x = x := by
  unfold carry
  split
  · rename_i h; rw [h]; rfl
  · rfl

/-- One row is carried over. -/
theorem convInt_carry {d r x : Int} (hd : 0 ≤ d ∧ d ≤ 10) (hr : 0 ≤ r ∧ r ≤ 10) (hh : holds d r = true) (hx : ValueOf d x) :
    convInt d r x = some (carry d r x) := by
  by_cases hne : d = r
  · subst hne; unfold convInt; rw [if_pos rfl, carry_self]
  obtain ⟨a, b, p, s, ha, hb, hp, hs, h1, h2, h3, h4, h5, _⟩ := types_facts hd hr hh hne
  obtain ⟨p', hp', hx1, hx2⟩ := hx
  rw [hp] at hp'
  have : p = p' := by simpa using hp'
  subst this
  unfold convInt carry
  rw [if_neg hne, ha, hb, Option.bind_some, Option.map_some]
  unfold Convert.safeInt
  have hin : b.InRange x := ⟨by omega, by omega⟩
  rw [IT.wrap_of_inRange b h3 hin, hs, h4]
  by_cases hd0 : d = 0
  · rw [if_pos hd0] at h5
    subst hd0
    have hp0 : p = (0, 1) := by simpa [bounds] using hp.symm
    subst hp0
    have hx1' : (0 : Int) ≤ x := hx1
    rw [if_pos (by omega : x ≠ a.inv), if_neg (by simp [sentinel])]
  · rw [if_neg hd0] at h5
    rw [h5]
    by_cases hxa : x = a.inv
    · rw [if_neg (by simp [hxa]), if_pos (by rw [hxa])]; rfl
    · rw [if_pos hxa, if_neg (by intro h; exact hxa (by simpa using h.symm))]

/-- After the conversion the rows that were invalid are invalid, and no others. -/
theorem carry_invalid_iff {d r x : Int} (hd : 0 ≤ d ∧ d ≤ 10) (hr : 0 ≤ r ∧ r ≤ 10) (hh : holds d r = true) (hx : ValueOf d x) :
    sentinel r = some (carry d r x) ↔ sentinel d = some x := by
  by_cases hne : d = r
  · subst hne; rw [carry_self]
  obtain ⟨a, b, p, s, _, _, hp, hs, _, _, _, _, _, h6⟩ := types_facts hd hr hh hne
  obtain ⟨p', hp', hx1, hx2⟩ := hx
  rw [hp] at hp'
  have : p = p' := by simpa using hp'
  subst this
  unfold carry
  rw [hs]
  constructor
  · intro h
    split at h
    · assumption
    · have : s = x := by simpa using h
      subst this
      exact h6 hx1 hx2
  · intro h
    rw [if_pos h]; rfl

/-- C67 for integers and booleans: when the common type is an integer type that holds the values of all arrays, the result is the
arrays one after the other, every value unchanged and every invalid value invalid. -/
theorem hstack_ints_partial (arrays : List (Int × List Int)) (calls : List Nat) (workers : Nat) (nt : Bool)
    (hr : 0 ≤ upcast (arrays.map Prod.fst) ∧ upcast (arrays.map Prod.fst) ≤ 10)
    (ha : ∀ a ∈ arrays, (0 ≤ a.1 ∧ a.1 ≤ 10) ∧ holds a.1 (upcast (arrays.map Prod.fst)) = true ∧ ∀ x ∈ a.2, ValueOf a.1 x)
    (h : StackSched workers nt (arrays.map fun a => a.2.length) calls) :
    hstackInts arrays calls =
      some ((arrays.flatMap fun a => a.2.map (carry a.1 (upcast (arrays.map Prod.fst)))).map some) := by
  unfold hstackInts hstackIntsTo
  generalize upcast (arrays.map Prod.fst) = r at hr ha
  rw [hstack_rows _ (fun t i => (carry (arrays.getD t (0, [])).1 r ((arrays.getD t (0, [])).2.getD i 0))) _ calls workers nt ?_ h]
  · rw [range_flatMap_getD arrays (fun a => a.2.length) (fun a i => carry a.1 r (a.2.getD i 0)) (0, [])]
    congr 3
    funext a
    apply List.ext_getElem?
    intro i
    by_cases hi : i < a.2.length
    · simp [hi]
    · rw [List.getElem?_eq_none (by simp; omega), List.getElem?_eq_none (by simp; omega)]
  · intro t i ht hi
    have ht' : t < arrays.length := by simpa using ht
    have hi' : i < arrays[t].2.length := by
      rw [List.getD_eq_getElem?_getD, List.getElem?_map, List.getElem?_eq_getElem ht'] at hi
      exact hi
    have hx := ha arrays[t] (List.getElem_mem _)
    rw [List.getElem?_eq_getElem ht', Option.bind_some, List.getElem?_eq_getElem hi', Option.bind_some,
      List.getD_eq_getElem?_getD, List.getElem?_eq_getElem ht', Option.getD_some, List.getD_eq_getElem?_getD,
      List.getElem?_eq_getElem hi', Option.getD_some]
    exact convInt_carry hx.1 hr hx.2.1 (hx.2.2 _ (List.getElem_mem _))

/-- The guard is needed: a row of an unsigned 64-bit array becomes negative beside a signed one. -/
theorem hstack_unsigned_wraps :
    hstackInts [(9, [1]), (8, [18446744073709551614])] [0, 1] = some [some 1, some (-2)] := by decide +kernel

example : hstackInts [(1, [5, -128]), (2, [255, 7]), (0, [1, 0])] [0, 1, 2] =
    some [some 5, some (-32768), some (-32768), some 7, some 1, some 0] := by decide +kernel
example : upcast [1, 2, 0] = 3 ∧ holds 1 3 = true ∧ holds 2 3 = true ∧ holds 0 3 = true := by decide
example : StackSched 3 false [2, 2, 2] [0, 1, 2] := .serial (.inr (by decide))

theorem foldl_max_le (ws : List Nat) (m : Nat) : m ≤ ws.foldl (fun m a => if a > m then a else m) m ∧
    (∀ w ∈ ws, w ≤ ws.foldl (fun m a => if a > m then a else m) m) ∧
    (ws.foldl (fun m a => if a > m then a else m) m = m ∨ ws.foldl (fun m a => if a > m then a else m) m ∈ ws) := by
  induction ws generalizing m with
  | nil => exact ⟨Nat.le_refl _, by simp, .inl rfl⟩
  | cons w ws ih =>
    rw [List.foldl_cons]
    obtain ⟨h1, h2, h3⟩ := ih (if w > m then w else m)
    generalize ws.foldl (fun m a => if a > m then a else m) (if w > m then w else m) = M at h1 h2 h3
    refine ⟨?_, ?_, ?_⟩
    · split at h1 <;> omega
    · intro v hv
      rcases List.mem_cons.1 hv with rfl | hv
      · split at h1 <;> omega
      · exact h2 v hv
    · rcases h3 with h3 | h3
      · split at h3
        · right; rw [h3]; simp
        · left; exact h3
      · right; simp [h3]

/-- C67 for strings: every item is kept and filled up with zeros to the width of the widest array. -/
theorem hstack_strings (arrays : List (Nat × List (List Nat))) (calls : List Nat) (workers : Nat) (nt : Bool)
    (hw : ∀ a ∈ arrays, ∀ x ∈ a.2, x.length = a.1)
    (h : StackSched workers nt (arrays.map fun a => a.2.length) calls) :
    ∃ w, (∀ a ∈ arrays, a.1 ≤ w) ∧ (arrays = [] ∨ w = 0 ∨ ∃ a ∈ arrays, a.1 = w) ∧
      hstackStrs arrays calls =
        some ((arrays.flatMap fun a => a.2.map fun x => x ++ List.replicate (w - a.1) 0).map some) := by
  have hfold : arrays.foldl (fun m a => if a.1 > m then a.1 else m) 0 =
      (arrays.map Prod.fst).foldl (fun m a => if a > m then a else m) 0 := by
    rw [List.foldl_map]
  obtain ⟨_, h2, h3⟩ := foldl_max_le (arrays.map Prod.fst) 0
  refine ⟨arrays.foldl (fun m a => if a.1 > m then a.1 else m) 0, ?_, ?_, ?_⟩
  · intro a ha
    rw [hfold]; exact h2 a.1 (List.mem_map_of_mem ha)
  · rw [hfold]
    rcases h3 with h3 | h3
    · right; left; exact h3
    · obtain ⟨a, ha, he⟩ := List.mem_map.1 h3
      right; right; exact ⟨a, ha, he⟩
  · have hle : ∀ a ∈ arrays, a.1 ≤ arrays.foldl (fun m a => if a.1 > m then a.1 else m) 0 := by
      intro a ha
      rw [hfold]; exact h2 a.1 (List.mem_map_of_mem ha)
    unfold hstackStrs
    generalize arrays.foldl (fun m a => if a.1 > m then a.1 else m) 0 = w at hle
    dsimp only
    rw [hstack_rows _ (fun t i => ((arrays.getD t (0, [])).2.getD i [] ++
      List.replicate (w - (arrays.getD t (0, [])).1) 0)) _ calls workers nt ?_ h]
    · rw [range_flatMap_getD arrays (fun a => a.2.length) (fun a i => a.2.getD i [] ++ List.replicate (w - a.1) 0) (0, [])]
      congr 3
      funext a
      apply List.ext_getElem?
      intro i
      by_cases hi : i < a.2.length
      · simp [hi]
      · rw [List.getElem?_eq_none (by simp; omega), List.getElem?_eq_none (by simp; omega)]
    · intro t i ht hi
      have ht' : t < arrays.length := by simpa using ht
      have hi' : i < arrays[t].2.length := by
        rw [List.getD_eq_getElem?_getD, List.getElem?_map, List.getElem?_eq_getElem ht'] at hi
        exact hi
      have hx := hw arrays[t] (List.getElem_mem _) arrays[t].2[i] (List.getElem_mem _)
      have hl := hle arrays[t] (List.getElem_mem _)
      have hg : arrays.getD t (0, []) = arrays[t] := by
        rw [List.getD_eq_getElem?_getD, List.getElem?_eq_getElem ht', Option.getD_some]
      rw [hg, List.getElem?_eq_getElem ht', Option.bind_some, List.getElem?_eq_getElem hi', Option.map_some,
        List.getD_eq_getElem?_getD, List.getElem?_eq_getElem hi', Option.getD_some]
      unfold padItem
      rw [hx]
      split
      · rfl
      · rw [List.take_of_length_le (by omega), show w - arrays[t].1 = 0 by omega]; simp

example : hstackStrs [(1, [[97]]), (3, [[98, 0, 0], [99, 100, 101]])] [0, 1] =
    some [some [97, 0, 0], some [98, 0, 0], some [99, 100, 101]] := by decide +kernel

/-! ### HomogenizeArrays -/

theorem convDefault_carry {d r x : Int} (hd : 0 ≤ d ∧ d ≤ 10) (hr : 0 ≤ r ∧ r ≤ 10) (hh : holds d r = true) (hx : ValueOf d x)
    (hb : d ≠ 0 ∨ r = 0) : convDefault d r x = some (carry d r x) := by
  by_cases hne : d = r
  · subst hne; unfold convDefault; rw [if_pos rfl, carry_self]
  have hd0 : d ≠ 0 := by
    intro h; rcases hb with hb | hb
    · exact hb h
    · exact hne (by rw [h, hb])
  rw [← convInt_carry hd hr hh hx]
  unfold convDefault convInt defaultFor
  rw [if_neg hne, if_neg hne, if_neg hd0]
  obtain ⟨a, b, p, s, ha, hb', _⟩ := types_facts hd hr hh hne
  rw [ha, hb']
  rfl

/-- C71, the part that is true: integer arrays without a boolean one among them keep every value and every invalid value. -/
theorem homogenize_ints_partial (arrays : List (Int × List Int))
    (hr : 0 ≤ upcast (arrays.map Prod.fst) ∧ upcast (arrays.map Prod.fst) ≤ 10)
    (ha : ∀ a ∈ arrays, (0 ≤ a.1 ∧ a.1 ≤ 10) ∧ holds a.1 (upcast (arrays.map Prod.fst)) = true ∧ ∀ x ∈ a.2, ValueOf a.1 x)
    (hb : (∀ a ∈ arrays, a.1 ≠ 0) ∨ upcast (arrays.map Prod.fst) = 0) :
    homogenize arrays = some (arrays.map fun a => a.2.map (carry a.1 (upcast (arrays.map Prod.fst)))) := by
  unfold homogenize
  dsimp only
  generalize upcast (arrays.map Prod.fst) = r at hr ha hb
  apply mapM_some
  intro a h
  apply mapM_some
  intro x hx
  obtain ⟨h1, h2, h3⟩ := ha a h
  exact convDefault_carry h1 hr h2 (h3 x hx) (hb.imp (fun q => q a h) id)

/-- C71 is false of the code: beside an integer array the false entries of a boolean array become invalid. -/
theorem homogenize_false_becomes_invalid :
    homogenize [(0, [0, 1]), (5, [7])] = some [[-2147483648, 1], [7]] ∧ sentinel 5 = some (-2147483648) := by decide +kernel

/-- In general: every false entry. -/
theorem homogenize_false (r : Int) (hr : 1 ≤ r ∧ r ≤ 10) : (convDefault 0 r 0).map some = some (sentinel r) := by
  have hm : r ∈ ([1, 2, 3, 4, 5, 6, 7, 8, 9, 10] : List Int) := by
    simp only [List.mem_cons, List.not_mem_nil, or_false]; omega
  have : ∀ r ∈ ([1, 2, 3, 4, 5, 6, 7, 8, 9, 10] : List Int), (convDefault 0 r 0).map some = some (sentinel r) := by decide +kernel
  exact this r hm

example : homogenize [(1, [5, -128]), (5, [7])] = some [[5, -2147483648], [7]] := by decide +kernel

/-- C71 is false of the code: for a number and a string array a null function is called, and objects, even alone, throw a C++ exception. -/
theorem homogenize_mixed_undefined : homogenizeUb [5, 18] = true ∧ homogenizeUb [18, 17] = true ∧ homogenizeUb [17] = true ∧ homogenizeUb [18, 19] = false := by
  decide

/-- Numeric arrays are safe. -/
theorem homogenize_numeric_safe (ds : List Int) (hd : ∀ d ∈ ds, 0 ≤ d ∧ d ≤ 13) : homogenizeUb ds = false := by
  have hk := mxOk_fold ds hd
  have hle : upcast ds ≤ 13 := by
    unfold upcast
    generalize ds.foldl mxStep ⟨-1, -1, -1, -1, -1, 0⟩ = m at hk
    obtain ⟨f, i, u, s, o, a⟩ := m
    obtain ⟨hs, ho, ha, hf, hi, hu, -⟩ := hk
    dsimp only at hs ho ha hf hi hu
    subst hs ho ha
    have : ∀ f ∈ [-1, 11, 12, 13], ∀ i ∈ [-1, 0, 1, 3, 5, 7, 9], ∀ u ∈ [-1, 2, 4, 6, 8, 10],
      mxResult ⟨f, i, u, -1, -1, 0⟩ ≤ 13 := by decide +kernel
    exact this f hf i hi u hu
  unfold homogenizeUb
  rw [decide_eq_false (by omega), decide_eq_false (by omega)]
  rfl

end Riptide.Arrays
