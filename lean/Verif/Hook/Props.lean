import Verif.Hook.Numbers
/-! # What the operators of arrays do -/
namespace Riptide.Hook
open Riptide.Binary (Mode)
variable {V S : Type} [Inhabited V]

/-! ## The specification -/

/-- An element of an array as another type sees it: numpy's two names of 64-bit integers are one type. -/
def seenAs (m : Math V S) (from' to : Nat) (v : V) : V :=
  if from' = to ∨ (from' = 7 ∧ to = 9) ∨ (from' = 8 ∧ to = 10) then v else m.cast from' to v

/-- An array which lies in its block of memory. -/
def Obj.Inside (o : Obj) (mem : List (List V)) : Prop :=
  ∃ l, mem[o.blk]? = some l ∧ (0 < o.len → o.off + (o.len - 1) * o.step < l.length)

/-- The items are next to each other. -/
def Obj.Dense (o : Obj) : Prop := o.len ≤ 1 ∨ o.step = 1

/-- `v` multiplied by itself so that it occurs `n` times, `n` from 2 to 4, squares first. -/
def powerOf (f : V → V → V) (n : Int) (v : V) : V :=
  if n = 2 then f v v else if n = 3 then f (f v v) v else f (f v v) (f v v)

/-- The call gave back a new array: nothing that existed before has changed, and the only reference is the caller's. -/
def NewArray (w w' : World V) (r ty : Nat) (vals : List V) : Prop :=
  r = w.objs.length ∧ w'.nones = w.nones ∧
    ∃ o, w'.objs = w.objs ++ [o] ∧ w'.mem = w.mem ++ [vals] ∧ o.ty = ty ∧ o.refs = 1 ∧ o.fast = true ∧ valsOf w' o = vals

/-- The elements of an array which lies in its block are the items at its step, from its first item on. -/
theorem elements_of_an_array (w : World V) (o : Obj) (l : List V) (h : w.mem[o.blk]? = some l) (k : Nat) (hk : k < o.len) (v : V)
    (hv : l[o.off + k * o.step]? = some v) : (valsOf w o)[k]? = some v := by
  simp [valsOf, List.getD, h, hk, hv]

example := elements_of_an_array (V := Int) ⟨[], [[1, 2, 3, 4]], 0, []⟩ { ty := 5, blk := 0, off := 0, len := 2, step := 2 } _ rfl 1
  (by decide) 3 rfl

/-! ## Lemmas -/

theorem strided_false {o : Obj} : strided o = false ↔ o.Dense := by
  simp only [strided, Obj.Dense, Bool.and_eq_false_iff, decide_eq_false_iff_not]; omega

theorem valsOf_length (w : World V) (o : Obj) : (valsOf w o).length = o.len := by simp [valsOf]

omit [Inhabited V] in
theorem allocArr_ok (w : World V) (ty : Nat) (vals : List V) (h : w.oom = []) :
    allocArr w ty vals = (⟨w.objs ++ [{ ty := ty, blk := w.mem.length, off := 0, len := vals.length }], w.mem ++ [vals], w.nones, []⟩,
      some w.objs.length) := by
  simp [allocArr, h]

theorem range_getD (l : List V) : (List.range l.length).map (fun k => l.getD k default) = l := by
  apply List.ext_getElem
  · simp
  · intro i h1 h2; simp [List.getD, h2]

theorem valsOf_new (objs : List Obj) (mem : List (List V)) (l : List V) (ty refs nones : Nat) (oom : List Bool) :
    valsOf { objs := objs, mem := mem ++ [l], nones := nones, oom := oom }
      { ty := ty, blk := mem.length, off := 0, len := l.length, refs := refs } = l := by
  simp only [valsOf]
  have : ((mem ++ [l]).getD mem.length [] : List V) = l := by simp [List.getD]
  rw [this]
  simpa using range_getD l

theorem valsOf_old (objs : List Obj) (mem : List (List V)) (l : List V) (nones : Nat) (oom : List Bool) (w : World V) (o : Obj)
    (hw : w.mem = mem) (h : o.Inside mem) : valsOf { objs := objs, mem := mem ++ [l], nones := nones, oom := oom } o = valsOf w o := by
  obtain ⟨b, hb, h2⟩ := h
  have hlt : o.blk < mem.length := by
    rcases Nat.lt_or_ge o.blk mem.length with h | h
    · exact h
    · rw [List.getElem?_eq_none h] at hb; cases hb
  simp only [valsOf, hw]
  have : ((mem ++ [l]).getD o.blk [] : List V) = mem.getD o.blk [] := by
    simp [List.getD, List.getElem?_append_left hlt]
  rw [this]

/-- Every operator that is not in place: what it gives back is a new array with the elements of the calculation. -/
theorem intoNew_ok (w : World V) (t : Nat) (f : V → V → V) (x y : Inp V) (h : w.oom = []) :
    ∃ w', intoNew w t f x y = (w', .obj w.objs.length) ∧ NewArray w w' w.objs.length t (results f x y) ∧ w'.oom = [] := by
  refine ⟨⟨w.objs ++ [{ ty := t, blk := w.mem.length, off := 0, len := (results f x y).length }], w.mem ++ [results f x y], w.nones, []⟩,
    ?_, ⟨rfl, rfl, _, rfl, rfl, rfl, rfl, rfl, ?_⟩, rfl⟩
  · simp only [intoNew]; rw [allocArr_ok w t _ h]
  · exact valsOf_new ..

theorem toCommon_vals (m : Math V S) (w : World V) (o : Obj) (t : Nat) :
    (toCommon m (fill w o) t).vals = (valsOf w o).map (seenAs m o.ty t) ∧ (toCommon m (fill w o) t).ty = t ∧
      (toCommon m (fill w o) t).len = o.len := by
  unfold toCommon convert fill seenAs Binary.unamb
  dsimp only
  by_cases h7 : o.ty = 7
  · by_cases h : t = 9
    · subst h; simp [h7]
    · by_cases h2 : t = 7
      · subst h2; simp [h7]
      · have : ¬ (7:Nat) = t := fun e => h2 e.symm
        simp [h7, h, this, Ne.symm h]
  · by_cases h8 : o.ty = 8
    · by_cases h : t = 10
      · subst h; simp [h8]
      · by_cases h2 : t = 8
        · subst h2; simp [h8]
        · have : ¬ (8:Nat) = t := fun e => h2 e.symm
          simp [h8, h, this, Ne.symm h]
    · by_cases h : o.ty = t
      · simp [h]
      · simp [h7, h8, h]

theorem convert_vals (m : Math V S) (w : World V) (o : Obj) (t : Nat) :
    (convert m (fill w o) t).vals = (valsOf w o).map (fun v => if o.ty = t then v else m.cast o.ty t v) ∧
      (convert m (fill w o) t).ty = t ∧ (convert m (fill w o) t).len = o.len := by
  unfold convert fill
  dsimp only
  by_cases h : o.ty = t
  · simp [h]
  · simp [h]

theorem getD_map_range {β : Type} [Inhabited β] (n k : Nat) (g : Nat → β) (h : k < n) : ((List.range n).map g).getD k default = g k := by
  simp [List.getD, h]

theorem getD_map {β γ : Type} [Inhabited β] [Inhabited γ] (l : List β) (g : β → γ) (k : Nat) (h : k < l.length) :
    (l.map g).getD k default = g (l.getD k default) := by
  simp [List.getD, h]

/-- The results for two arrays of one length. -/
theorem results_two (f : V → V → V) (x y : Inp V) (n : Nat) (hx : x.len = n) (hy : y.len = n) (hxv : x.vals.length = n)
    (hyv : y.vals.length = n) : results f x y = List.zipWith f x.vals y.vals := by
  apply List.ext_getElem
  · simp [results, hx, hy, hxv, hyv]
  · intro k h1 h2
    have hk : k < n := by simpa [results, hx, hy] using h1
    have h0 : n ≠ 0 := by omega
    simp [results, Inp.at, hx, hy, h0, List.getD, hxv, hyv, hk]

/-- The results for an array and a scalar. -/
theorem results_right (f : V → V → V) (x : Inp V) (n t : Nat) (v : V) (hx : x.len = n) (hxv : x.vals.length = n) :
    results f x (scalInp t v) = x.vals.map fun a => f a v := by
  apply List.ext_getElem
  · simp [results, scalInp, hx, hxv]
  · intro k h1 h2
    have hk : k < n := by simpa [results, hx, scalInp] using h1
    have h0 : n ≠ 0 := by omega
    simp [results, Inp.at, hx, h0, List.getD, hxv, scalInp, hk]

theorem results_left (f : V → V → V) (x : Inp V) (n t : Nat) (v : V) (hx : x.len = n) (hxv : x.vals.length = n) :
    results f (scalInp t v) x = x.vals.map fun a => f v a := by
  apply List.ext_getElem
  · simp [results, scalInp, hx, hxv]
  · intro k h1 h2
    have hk : k < n := by simpa [results, hx, scalInp] using h1
    have h0 : n ≠ 0 := by omega
    simp [results, Inp.at, hx, h0, List.getD, hxv, scalInp, hk]

theorem twoArrays_same (m : Math V S) (w : World V) (op : Op) (o1 o2 : Obj) (t1 t2 : Nat) (d1 : o1.Dense) (d2 : o2.Dense)
    (hl : o1.len = o2.len) (hp : m.pair op o1.ty o2.ty = some (t1, t2)) :
    twoArrays m w op o1 o2 = some (.none, toCommon m (fill w o1) t1, toCommon m (fill w o2) t2) := by
  simp [twoArrays, strided_false.2 d1, strided_false.2 d2, hl, hp]

/-! ## Operators which make a new array -/

/-- `x op y` for two arrays of one length is a new array, whose elements are those of the calculation with the elements of the
operands in the common type; the operands and all other arrays stay as they are, and no reference is lost. -/
theorem operator_of_two_arrays (m : Math V S) (w : World V) (op : Op) (i j : Nat) (o1 o2 : Obj) (t1 t2 t : Nat) (f : V → V → V)
    (h1 : w.objs[i]? = some o1) (h2 : w.objs[j]? = some o2) (d1 : o1.Dense) (d2 : o2.Dense) (hl : o1.len = o2.len)
    (hp : m.pair op o1.ty o2.ty = some (t1, t2)) (hk : m.kernel op .none t1 t2 = some (t, f)) (hm : w.oom = []) :
    ∃ w' r, binary m w op (.arr i) (.arr j) = (w', .obj r) ∧
      NewArray w w' r t (List.zipWith (fun a b => f (seenAs m o1.ty t1 a) (seenAs m o2.ty t2 b)) (valsOf w o1) (valsOf w o2)) := by
  have c1 := toCommon_vals m w o1 t1
  have c2 := toCommon_vals m w o2 t2
  obtain ⟨w', he, hn, -⟩ := intoNew_ok w t f (toCommon m (fill w o1) t1) (toCommon m (fill w o2) t2) hm
  refine ⟨w', w.objs.length, ?_, ?_⟩
  · simp only [binary, basicMath, checkInputs, h1, h2, twoArrays_same m w op o1 o2 t1 t2 d1 d2 hl hp, c1.2.1, c2.2.1, hk, outputs, Option.bind_none, he,
      orNumpy]
  · rw [results_two f _ _ o1.len c1.2.2 (by rw [c2.2.2, hl]) (by simp [c1.1, valsOf_length]) (by simp [c2.1, valsOf_length, hl]),
      c1.1, c2.1, List.zipWith_map_left, List.zipWith_map_right] at hn
    exact hn

example := operator_of_two_arrays numbers (sample []) .add 0 2 _ _ 12 12 12 (exactly .add) rfl rfl (Or.inr rfl) (Or.inr rfl) rfl rfl rfl rfl

/-- `x op s` for an array and a Python scalar. -/
theorem operator_with_a_scalar (m : Math V S) (w : World V) (op : Op) (i : Nat) (o : Obj) (s : S) (t : Nat) (v : V) (f : V → V → V)
    (h : w.objs[i]? = some o) (d : o.Dense) (hs : m.scal s (m.up op s o.ty) = some v)
    (hk : m.kernel op .second (m.up op s o.ty) (m.up op s o.ty) = some (t, f)) (hm : w.oom = []) :
    ∃ w' r, binary m w op (.arr i) (.scal s) = (w', .obj r) ∧
      NewArray w w' r t ((valsOf w o).map fun a => f (if o.ty = m.up op s o.ty then a else m.cast o.ty (m.up op s o.ty) a) v) := by
  have c := convert_vals m w o (m.up op s o.ty)
  obtain ⟨w', he, hn, -⟩ := intoNew_ok w t f (convert m (fill w o) (m.up op s o.ty)) (scalInp (m.up op s o.ty) v) hm
  refine ⟨w', w.objs.length, ?_, ?_⟩
  · simp only [binary, basicMath, checkInputs, h, withScal, Option.isSome, strided_false.2 d, Option.bind_some, hs, Option.map_some, Bool.false_eq_true,
      and_false, if_false, c.2.1, scalInp, hk, outputs, Option.bind_none]
    simp only [scalInp] at he
    rw [he]; rfl
  · rw [results_right f _ o.len _ v c.2.2 (by simp [c.1, valsOf_length]), c.1, List.map_map] at hn
    exact hn

example := operator_with_a_scalar numbers (sample []) .mul 0 _ 300 5 300 (exactly .mul) rfl (Or.inr rfl) rfl rfl rfl

/-- `s op x` for a Python scalar and an array: the scalar stays on the left. -/
theorem operator_with_a_scalar_on_the_left (m : Math V S) (w : World V) (op : Op) (i : Nat) (o : Obj) (s : S) (t : Nat) (v : V)
    (f : V → V → V) (h : w.objs[i]? = some o) (d : o.Dense) (hs : m.scal s (m.up op s o.ty) = some v)
    (hk : m.kernel op .first (m.up op s o.ty) (m.up op s o.ty) = some (t, f)) (hm : w.oom = []) :
    ∃ w' r, binary m w op (.scal s) (.arr i) = (w', .obj r) ∧
      NewArray w w' r t ((valsOf w o).map fun a => f v (if o.ty = m.up op s o.ty then a else m.cast o.ty (m.up op s o.ty) a)) := by
  have c := convert_vals m w o (m.up op s o.ty)
  obtain ⟨w', he, hn, -⟩ := intoNew_ok w t f (scalInp (m.up op s o.ty) v) (convert m (fill w o) (m.up op s o.ty)) hm
  refine ⟨w', w.objs.length, ?_, ?_⟩
  · simp only [binary, basicMath, checkInputs, h, withScal, Option.isSome, strided_false.2 d, Option.bind_some, hs, Option.map_some, Bool.false_eq_true,
      and_false, if_false, c.2.1, scalInp, hk, outputs, Option.bind_none]
    simp only [scalInp] at he
    rw [he]; rfl
  · rw [results_left f _ o.len _ v c.2.2 (by simp [c.1, valsOf_length]), c.1, List.map_map] at hn
    exact hn

omit [Inhabited V] in
theorem allocArr_keeps (w : World V) (ty : Nat) (vals : List V) :
    w.objs <+: (allocArr w ty vals).1.objs ∧ w.mem <+: (allocArr w ty vals).1.mem ∧ (allocArr w ty vals).1.nones = w.nones ∧
      ∀ r, (allocArr w ty vals).2 = some r → r = w.objs.length := by
  unfold allocArr
  split
  · exact ⟨List.prefix_refl _, List.prefix_refl _, rfl, nofun⟩
  · exact ⟨List.prefix_append .., List.prefix_append .., rfl, fun r h => (Option.some.inj h).symm⟩

example := operator_with_a_scalar_on_the_left numbers (sample []) .sub 0 _ 300 5 300 (exactly .sub) rfl (Or.inr rfl) rfl rfl rfl

theorem basicMath_new (m : Math V S) (w : World V) (op : Op) (a b : Arg S) :
    w.objs <+: (basicMath m w op a b none).1.objs ∧ w.mem <+: (basicMath m w op a b none).1.mem ∧
      (∀ r, (basicMath m w op a b none).2 = .obj r → r = w.objs.length ∧ (basicMath m w op a b none).1.nones = w.nones) ∧
      (basicMath m w op a b none).2 ≠ .crash ∧
      ((basicMath m w op a b none).2 = .none → (basicMath m w op a b none).1 = increfNone w) := by
  have punt : w.objs <+: (increfNone w).objs ∧ w.mem <+: (increfNone w).mem :=
    ⟨List.prefix_refl _, List.prefix_refl _⟩
  unfold basicMath
  split
  · split
    · rename_i x y _ _ t f _
      simp only [outputs, Option.bind_none, intoNew]
      have hk := allocArr_keeps w t (results f x y)
      revert hk
      generalize allocArr w t (results f x y) = q
      intro hk
      obtain ⟨q1, q2⟩ := q
      cases q2 with
      | some r => exact ⟨hk.1, hk.2.1, fun r' h => ⟨by injection h with h; rw [← h]; exact hk.2.2.2 r rfl, hk.2.2.1⟩, nofun, nofun⟩
      | none => exact ⟨hk.1, hk.2.1, nofun, nofun, nofun⟩
    · exact ⟨punt.1, punt.2, nofun, nofun, fun _ => rfl⟩
  · exact ⟨punt.1, punt.2, nofun, nofun, fun _ => rfl⟩

/-- Whatever the operands are, an operator that is not in place changes no array and no element, and an array it gives back is a
new one; a calculation left to numpy costs a reference to `None`, which is never given back. -/
theorem operators_leave_their_operands (m : Math V S) (w w' : World V) (op : Op) (a b : Arg S) (ret : Ret)
    (h : binary m w op a b = (w', ret)) :
    w.objs <+: w'.objs ∧ w.mem <+: w'.mem ∧ ret ≠ .crash ∧
      (∀ r, ret = .obj r → r = w.objs.length ∧ w'.nones = w.nones) ∧ (ret = .numpy → w' = increfNone w) := by
  have k := basicMath_new m w op a b
  unfold binary at h
  revert k h
  generalize basicMath m w op a b none = q
  obtain ⟨q1, q2⟩ := q
  intro h k
  cases q2 with
  | obj r =>
    simp only [orNumpy, Prod.mk.injEq] at h
    obtain ⟨rfl, rfl⟩ := h
    exact ⟨k.1, k.2.1, nofun, fun r' e => by injection e with e; subst e; exact k.2.2.1 r rfl, nofun⟩
  | none =>
    simp only [orNumpy, Prod.mk.injEq] at h
    obtain ⟨rfl, rfl⟩ := h
    exact ⟨k.1, k.2.1, nofun, nofun, fun _ => k.2.2.2.2 rfl⟩
  | null =>
    simp only [orNumpy, Prod.mk.injEq] at h
    obtain ⟨rfl, rfl⟩ := h
    exact ⟨k.1, k.2.1, nofun, nofun, nofun⟩
  | crash => exact absurd rfl k.2.2.2.1

example := operators_leave_their_operands numbers (sample []) _ .add (.arr 0) (.arr 2) _ rfl

end Riptide.Hook
