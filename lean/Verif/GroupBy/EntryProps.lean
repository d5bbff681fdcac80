import Verif.GroupBy.EntrySpec
/-! # Which group function is called for which types, with which arrays, and which calls stay inside of them -/
namespace Riptide.GroupBy.Entry

/-! ## The tables -/

theorem ctOf_isSome (ty : Nat) : (ctOf ty).isSome = decide (ty ≤ 13) := by
  match ty with
  | 0 | 1 | 2 | 3 | 4 | 5 | 6 | 7 | 8 | 9 | 10 | 11 | 12 | 13 => rfl
  | n + 14 => simp [ctOf]

theorem ctOf_none {ty : Nat} (h : 13 < ty) : ctOf ty = none := by
  have := ctOf_isSome ty
  rw [decide_eq_false (by omega)] at this
  simpa using this

theorem inOf_none {ty : Nat} (h : 13 < ty) : inOf ty = none := by
  rw [inOf, if_neg (by omega), ctOf_none h]

theorem two_none_of_type {func : Int} {ty : Nat} (h : 13 < ty) : twoFunc func ty = none := by
  simp only [twoFunc, addFunc, extFunc, avgFunc, inOf_none h, Option.map_none, ite_self]

theorem two_none_of_func {func : Int} {ty : Nat} (h : func ∉ columnFuncs) : twoFunc func ty = none := by
  simp only [columnFuncs, List.mem_cons, List.not_mem_nil, or_false, not_or] at h
  obtain ⟨h0, h1, h2, h3, h4, h5, h6, h7, h8, h9, h10, h11⟩ := h
  simp only [twoFunc, h0, h1, h2, h3, h4, h5, h6, h7, h8, h9, h10, h11, if_false]

theorem two_table : ∀ func ∈ columnFuncs, ∀ ty < 14, (twoFunc func ty).isSome = true ∧ (twoFunc func ty).all (fun f =>
    fits f.T ty && fits f.U f.out && (npy f.out == resultItems func ty) && (!f.name.usesCounts || f.counts) &&
      (!f.name.usesTmp f.T || f.tmp == some 12) && (freshItem f.out == f.U.size) && (f.tmp.isNone || f.T == .f32)) = true := by
  decide +kernel

theorem two_domain {func : Int} {ty : Nat} {f : Two} (h : twoFunc func ty = some f) : func ∈ columnFuncs ∧ ty < 14 := by
  constructor
  · by_cases hf : func ∈ columnFuncs
    · exact hf
    · rw [two_none_of_func hf] at h; cases h
  · by_cases ht : ty < 14
    · exact ht
    · rw [two_none_of_type (by omega)] at h; cases h

/-- The functions of columns are exactly the twelve ones, for exactly the numeric types. -/
theorem column_functions (func : Int) (ty : Nat) : (twoFunc func ty).isSome = true ↔ func ∈ columnFuncs ∧ ty ≤ 13 := by
  constructor
  · intro h
    obtain ⟨f, hf⟩ := Option.isSome_iff_exists.mp h
    have := two_domain hf
    exact ⟨this.1, by omega⟩
  · rintro ⟨h1, h2⟩
    exact (two_table func h1 ty (by omega)).1

theorem two_facts {func : Int} {ty : Nat} {f : Two} (h : twoFunc func ty = some f) :
    fits f.T ty = true ∧ fits f.U f.out = true ∧ npy f.out = resultItems func ty ∧ (f.name.usesCounts = true → f.counts = true) ∧
      (f.name.usesTmp f.T = true → f.tmp = some 12) ∧ freshItem f.out = f.U.size ∧ (f.tmp.isSome = true → f.T = .f32) := by
  obtain ⟨h1, h2⟩ := two_domain h
  have := (two_table func h1 ty h2).2
  rw [h] at this
  simp only [Option.all_some, Bool.and_eq_true, beq_iff_eq, Bool.or_eq_true, Bool.not_eq_true'] at this
  obtain ⟨⟨⟨⟨⟨⟨a, b⟩, c⟩, d⟩, e⟩, g⟩, i⟩ := this
  refine ⟨a, b, c, ?_, ?_, g, ?_⟩
  · intro hu; rcases d with d | d
    · rw [hu] at d; cases d
    · exact d
  · intro hu; rcases e with e | e
    · rw [hu] at e; cases e
    · exact e
  · intro hu
    rcases i with i | i
    · cases ht : f.tmp <;> simp_all
    · exact i

/-- The function reads its column with the type of the column and writes its result with the type of the result. -/
theorem column_function_types {func : Int} {ty : Nat} {f : Two} (h : twoFunc func ty = some f) :
    fits f.T ty = true ∧ fits f.U f.out = true ∧ freshItem f.out = f.U.size :=
  ⟨(two_facts h).1, (two_facts h).2.1, (two_facts h).2.2.2.2.2.1⟩

/-- The type of the result is the one of the documentation of each function. -/
theorem column_result_type {func : Int} {ty : Nat} {f : Two} (h : twoFunc func ty = some f) : npy f.out = resultItems func ty :=
  (two_facts h).2.2.1

/-- A function which counts is given counts, and one which adds in float64 is given an array of float64. -/
theorem column_function_buffers {func : Int} {ty : Nat} {f : Two} (h : twoFunc func ty = some f) :
    (f.name.usesCounts = true → f.counts = true) ∧ (f.name.usesTmp f.T = true → f.tmp = some 12) :=
  ⟨(two_facts h).2.2.2.1, (two_facts h).2.2.2.2.1⟩

example : (twoFunc 0 4).isSome = true := (column_functions 0 4).mpr ⟨by decide, by decide⟩
example : npy 8 = resultItems 0 4 := column_result_type (f := ⟨.sum, .u16, .u64, 8, none, true⟩) rfl
example : resultItems 51 11 = some (.float, 4) ∧ resultItems 4 9 = some (.float, 8) ∧ resultItems 52 0 = some (.bool, 1) := by
  decide +kernel
example := column_function_buffers (f := ⟨.nanSumFloat, .f32, .f32, 11, some 12, false⟩) (func := 50) (ty := 11) rfl

theorem gather_table : ∀ func ∈ columnFuncs, ∀ ty < 14, scatterable func = true → (twoFunc func ty).all (fun f =>
    (gatherFunc func f.out).any fun g => g.2 == f.U && (!g.1.usesCounts || f.counts)) = true := by decide +kernel

/-- For every function which is divided over the rows there is a function which puts the parts together; it has the type of the
parts, and if it reads counts there are counts. -/
theorem gather_matches {func : Int} {ty : Nat} {f : Two} (h : twoFunc func ty = some f) (hs : scatterable func = true) :
    ∃ g, gatherFunc func f.out = some (g, f.U) ∧ (g.usesCounts = true → f.counts = true) := by
  obtain ⟨h1, h2⟩ := two_domain h
  have := gather_table func h1 ty h2 hs
  rw [h] at this
  simp only [Option.all_some] at this
  cases hg : gatherFunc func f.out with
  | none => rw [hg] at this; simp at this
  | some g =>
    rw [hg] at this
    simp only [Option.any_some, Bool.and_eq_true, beq_iff_eq, Bool.or_eq_true, Bool.not_eq_true'] at this
    obtain ⟨a, b⟩ := this
    refine ⟨g.1, ?_, ?_⟩
    · rw [← a]
    · intro hu; rcases b with b | b
      · rw [hu] at b; cases b
      · exact b

example := gather_matches (func := 52) (ty := 0) (f := ⟨.min, .i8, .i8, 0, none, true⟩) rfl rfl

/-! ## The functions of groups and rows -/

theorem flexible_iff (ty : Nat) : flexible ty = true ↔ ty = 18 ∨ ty = 19 ∨ ty = 20 := by
  simp [flexible, or_assoc]

theorem x_none_of_type {func : Int} {ty : Nat} (h : 13 < ty) (hf : flexible ty = false) : xFunc func ty = none := by
  simp only [xFunc, xTrim, xQuant, xCount, xDiff, xShift, xRoll, xPlain, ctOf_none h, hf, Option.map_none, Option.bind_none]
  have : (xFunc2 func).bind (fun _ => (none : Option XFun)) = none := by cases xFunc2 func <;> rfl
  have : (xFunc1 func).bind (fun _ => (none : Option XFun)) = none := by cases xFunc1 func <;> rfl
  simp_all

theorem x_none_of_func {func : Int} {ty : Nat} (h : func ∉ groupFuncs ++ rowFuncs) : xFunc func ty = none := by
  simp only [groupFuncs, rowFuncs, List.cons_append, List.nil_append, List.mem_cons, List.not_mem_nil, or_false, not_or] at h
  obtain ⟨h0, h1, h2, h3, h4, h5, h6, h7, h8, h9, h10, h11, h12, h13, h14⟩ := h
  simp only [xFunc, xRoll, xPlain, xFunc2, xFunc1, xFuncStr, h0, h1, h2, h3, h4, h5, h6, h7, h8, h9, h10, h11, h12, h13, h14,
    if_false, Option.bind_none, Option.map_none, ite_self]

theorem x_table : ∀ func ∈ groupFuncs ++ rowFuncs, ∀ ty ∈ List.range 14 ++ [18, 19, 20],
    (xFunc func ty).isSome = !refused func ty ∧ (xFunc func ty).all (fun x =>
      if flexible ty then x.U == .raw && x.T == .raw && x.out == ty
      else fits x.T ty && fits x.U x.out && x.U != .raw && freshItem x.out == x.U.size && decide (x.out < 14)
        && npy x.out == groupResult func ty) = true := by
  decide +kernel

theorem x_domain {func : Int} {ty : Nat} {x : XFun} (h : xFunc func ty = some x) :
    func ∈ groupFuncs ++ rowFuncs ∧ ty ∈ List.range 14 ++ [18, 19, 20] := by
  constructor
  · by_cases hf : func ∈ groupFuncs ++ rowFuncs
    · exact hf
    · rw [x_none_of_func hf] at h; cases h
  · by_cases ht : ty ≤ 13
    · simp; omega
    · by_cases hf : flexible ty = true
      · rw [flexible_iff] at hf; simp; omega
      · rw [x_none_of_type (by omega) (by simpa using hf)] at h; cases h

/-- Which functions of groups and rows exist for which types. -/
theorem group_functions (func : Int) (ty : Nat) : (xFunc func ty).isSome = true ↔
    (func ∈ groupFuncs ++ rowFuncs ∧ (ty ≤ 13 ∨ 18 ≤ ty ∧ ty ≤ 20)) ∧ refused func ty = false := by
  constructor
  · intro h
    obtain ⟨x, hx⟩ := Option.isSome_iff_exists.mp h
    have hd := x_domain hx
    have := (x_table func hd.1 ty hd.2).1
    rw [h] at this
    refine ⟨⟨hd.1, ?_⟩, by simpa using this⟩
    have := hd.2
    simp at this
    omega
  · rintro ⟨⟨h1, h2⟩, h3⟩
    have := (x_table func h1 ty (by simp; omega)).1
    rw [this, h3]; rfl

theorem x_facts {func : Int} {ty : Nat} {x : XFun} (h : xFunc func ty = some x) :
    if flexible ty = true then x.U = .raw ∧ x.T = .raw ∧ x.out = ty
    else fits x.T ty = true ∧ fits x.U x.out = true ∧ x.U ≠ .raw ∧ freshItem x.out = x.U.size ∧ x.out < 14 ∧
      npy x.out = groupResult func ty := by
  have hd := x_domain h
  have := (x_table func hd.1 ty hd.2).2
  rw [h] at this
  simp only [Option.all_some] at this
  split
  · rename_i hf
    rw [if_pos hf] at this
    simpa [and_assoc] using this
  · rename_i hf
    rw [if_neg hf] at this
    simpa [and_assoc] using this

/-- A function of groups or rows reads a numeric column with its type and writes a result of its own type, with items of the
right size. -/
theorem group_function_types {func : Int} {ty : Nat} {x : XFun} (h : xFunc func ty = some x) (hn : flexible ty = false) :
    fits x.T ty = true ∧ fits x.U x.out = true ∧ npy x.out = groupResult func ty ∧
      ∀ (item : Nat), x.width item = freshItem x.out := by
  have := x_facts h
  rw [hn] at this
  simp only [Bool.false_eq_true, if_false] at this
  exact ⟨this.1, this.2.1, this.2.2.2.2.2, fun item => by rw [XFun.width, if_neg this.2.2.1, this.2.2.2.1]⟩

example : (xFunc 204 8).isSome = false ∧ (xFunc 204 7).isSome = true ∧ (xFunc 104 18).isSome = false := by decide +kernel
example := group_function_types (func := 103) (ty := 9) (x := ⟨.median, .i64, .i64, 9⟩) rfl rfl

/-! ### Which function is run -/

theorem two_names : ∀ func ∈ columnFuncs, ∀ ty < 14, (twoFunc func ty).all (fun f => columnNames.any fun p =>
    p.1 == func && f.name == (if ty = 0 then p.2.1 else if ty = 11 then p.2.2.1 else p.2.2.2)) = true := by decide +kernel

/-- Each number runs the function it stands for. -/
theorem column_function_names {func : Int} {ty : Nat} {f : Two} (h : twoFunc func ty = some f) :
    ∃ b s o, (func, b, s, o) ∈ columnNames ∧ f.name = (if ty = 0 then b else if ty = 11 then s else o) := by
  obtain ⟨h1, h2⟩ := two_domain h
  have := two_names func h1 ty h2
  rw [h] at this
  simp only [Option.all_some, List.any_eq_true, Bool.and_eq_true, beq_iff_eq] at this
  obtain ⟨⟨fn, b, s, o⟩, hm, he, hn⟩ := this
  simp only at he hn
  subst he
  exact ⟨b, s, o, hm, hn⟩

/-- The parts of the threads are put together by the function of the same number. -/
theorem gather_function_names {func : Int} {out : Nat} {g : Gather} {t : CT} (h : gatherFunc func out = some (g, t)) :
    (func, g) ∈ gatherNames := by
  rw [gatherFunc] at h
  cases ht : inOf out with
  | none => rw [ht] at h; cases h
  | some c =>
    rw [ht] at h
    simp only [Option.bind_some] at h
    repeat' (split at h)
    all_goals first
      | (simp only [Option.some.injEq, Prod.mk.injEq] at h; obtain ⟨rfl, _⟩ := h; simp [gatherNames, *])
      | contradiction

theorem x_names : ∀ func ∈ groupFuncs ++ rowFuncs, ∀ ty ∈ List.range 14 ++ [18, 19, 20], (xFunc func ty).all (fun x =>
    groupNames.any fun p => p.1 == func && x.name == (if flexible ty then p.2.2 else p.2.1)) = true := by decide +kernel

/-- Each number runs the function of groups or rows it stands for. -/
theorem group_function_names {func : Int} {ty : Nat} {x : XFun} (h : xFunc func ty = some x) :
    ∃ a b, (func, a, b) ∈ groupNames ∧ x.name = (if 18 ≤ ty then b else a) := by
  obtain ⟨h1, h2⟩ := x_domain h
  have := x_names func h1 ty h2
  rw [h] at this
  simp only [Option.all_some, List.any_eq_true, Bool.and_eq_true, beq_iff_eq] at this
  obtain ⟨⟨fn, a, b⟩, hm, he, hn⟩ := this
  simp only at he hn
  subst he
  refine ⟨a, b, hm, ?_⟩
  have hf : flexible ty = decide (18 ≤ ty) := by
    have : ∀ t ∈ List.range 14 ++ [18, 19, 20], flexible t = decide (18 ≤ t) := by decide +kernel
    exact this ty h2
  rw [hn, hf]
  by_cases hb : 18 ≤ ty <;> simp [hb]

example := column_function_names (f := ⟨.nanSumFloat, .f32, .f32, 11, some 12, false⟩) (func := 50) (ty := 11) rfl
example : gatherFunc 53 11 = some (.nanMax, .f32) := rfl
example := group_function_names (x := ⟨.lastStr, .raw, .raw, 18⟩) (func := 102) (ty := 18) rfl

/-- Sums of float32 go over the bins at the end only if there are fewer bins than rows: here three bins from bin 3 on, of five. -/
theorem few_rows_do_not_visit_all_bins :
    Two.inside ⟨.nanSumFloat, .f32, .f32, 11, some 12, false⟩ [3, 4] 2 3 6 5 = true ∧
    Two.inside ⟨.nanSumFloat, .f32, .f32, 11, some 12, false⟩ [3, 4, 3, 4] 4 3 6 5 = false := by decide +kernel

end Riptide.GroupBy.Entry
