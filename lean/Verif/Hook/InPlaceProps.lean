import Verif.Hook.PowerProps
/-! # Operators in place, and the table of the operators -/
namespace Riptide.Hook
open Riptide.Binary (Mode)
variable {V S : Type} [Inhabited V]

/-! ## The specification -/

/-- `x op= y` changed the array itself: its elements are now `vals`, nothing else in memory has changed, the arrays are the same
ones, and there is one more reference to the array. -/
def ChangedInPlace (w w' : World V) (self : Nat) (o : Obj) (vals : List V) : Prop :=
  w'.objs = w.objs.modify self (fun o => { o with refs := o.refs + 1 }) ∧ w'.nones = w.nones ∧ valsOf w' o = vals ∧
    ∀ b k, (b ≠ o.blk ∨ k < o.off ∨ o.off + o.len ≤ k) → (w'.mem[b]?).bind (·[k]?) = (w.mem[b]?).bind (·[k]?)

/-- The array was not changed: all that existed is as it was, and the result is another array of the type `ty`, with the only
reference the caller's; one array of the calculation was freed. -/
def MadeAnother (w w' : World V) (r ty : Nat) (vals : List V) : Prop :=
  w.objs <+: w'.objs ∧ w.mem <+: w'.mem ∧ w.objs.length ≤ r ∧ w'.nones = w.nones ∧
    ∃ o, w'.objs[r]? = some o ∧ o.ty = ty ∧ o.refs = 1 ∧ valsOf w' o = vals

/-- Two arrays of one length which are the same items, or have none in common. -/
def SameOrApart (o1 o2 : Obj) : Prop := o1.blk ≠ o2.blk ∨ o1.off = o2.off ∨ o1.off + o1.len ≤ o2.off ∨ o2.off + o2.len ≤ o1.off

/-! ## Lemmas -/

theorem modify_mid {α : Type} (l r : List α) (a : α) (g : α → α) : (l ++ a :: r).modify l.length g = l ++ g a :: r := by
  induction l with
  | nil => rfl
  | cons x l ih => simp [List.modify_succ_cons, ih]

omit [Inhabited V] in
theorem patch_get (l vs : List V) (p k : Nat) (h : k < p ∨ p + vs.length ≤ k) : (patch l p vs)[k]? = l[k]? := by
  simp only [patch, List.getElem?_mapIdx]
  cases hk : l[k]? with
  | none => rfl
  | some v =>
    simp only [Option.map_some, Option.some.injEq]
    by_cases hp : p ≤ k
    · rw [if_pos hp]
      have : vs[k - p]? = none := List.getElem?_eq_none (by omega)
      simp [List.getD, this]
    · rw [if_neg hp]

omit [Inhabited V] in
theorem patch_get_in (l vs : List V) (p k : Nat) (h : k < vs.length) (hl : p + k < l.length) : (patch l p vs)[p + k]? = vs[k]? := by
  simp [patch, hl, List.getD, h]

omit [Inhabited V] in
theorem store_elsewhere (w : World V) (o : Obj) (vs : List V) (h : vs.length = o.len) (b k : Nat)
    (hb : b ≠ o.blk ∨ k < o.off ∨ o.off + o.len ≤ k) : ((store w o vs).mem[b]?).bind (·[k]?) = (w.mem[b]?).bind (·[k]?) := by
  simp only [store, List.getElem?_modify]
  by_cases e : o.blk = b
  · cases w.mem[b]? with
    | none => rfl
    | some l =>
      simp only [Option.map_eq_map, Option.map_some, Option.bind_some, if_pos e]
      exact patch_get l vs o.off k (by omega)
  · simp [e]

theorem valsOf_store (w : World V) (o : Obj) (vs : List V) (h : vs.length = o.len) (d : o.Dense) (hi : o.Inside w.mem) :
    valsOf (store w o vs) o = vs := by
  obtain ⟨l, hl, hin⟩ := hi
  have hm : (store w o vs).mem.getD o.blk [] = patch l o.off vs := by
    simp [store, List.getD, hl]
  apply List.ext_getElem
  · simp [valsOf, h]
  · intro k h1 h2
    have hk : k < o.len := by simpa [valsOf] using h1
    have hstep : k * o.step = k := by
      rcases d with d | d
      · have : k = 0 := by omega
        subst this; simp
      · rw [d, Nat.mul_one]
    have hlast : o.off + k < l.length := by
      have h0 := hin (by omega)
      rcases d with d | d
      · have : k = 0 := by omega
        have e : o.len - 1 = 0 := by omega
        subst this; rw [e] at h0; simpa using h0
      · rw [d] at h0; omega
    have := patch_get_in l vs o.off k h2 hlast
    simp only [valsOf, List.getElem_map, List.getElem_range, hm, hstep]
    simp only [List.getD, this]
    simp [h2]

theorem store_incref (w : World V) (r : Nat) (o : Obj) (vs : List V) (q : Obj) :
    valsOf (store (incref w r) o vs) q = valsOf (store w o vs) q := rfl

/-- The calculation in place when the output is used. -/
theorem intoOutput_ok (w : World V) (f : V → V → V) (x y : Inp V) (self : Nat) (o : Obj) (h : w.objs[self]? = some o) (hf : o.fast = true)
    (hx : x.len ≤ o.len) (hy : y.len ≤ o.len) (d : o.Dense) (ox : overlaps x o = false) (oy : overlaps y o = false) :
    intoOutput w f x y self o = (store (incref w self) o (results f x y), .obj self) := by
  unfold intoOutput
  rw [if_neg (by rw [strided_false.2 d]; simp; omega)]
  have hg : (store (incref w self) o (results f x y)).objs[self]? = some { o with refs := o.refs + 1 } := by
    simp [store, incref, h]
  simp only [ox, oy, Bool.false_eq_true, or_self, if_false, asFast, hg, hf, if_true]

theorem inPlace_used (m : Math V S) (w : World V) (op : Op) (self : Nat) (b : Arg S) (o : Obj) (mode : Mode) (x y : Inp V) (f : V → V → V)
    (h : w.objs[self]? = some o) (hc : checkInputs m w op true (.arr self) b = some (mode, x, y))
    (hk : m.kernel op mode x.ty y.ty = some (o.ty, f)) (hf : o.fast = true) (hx : x.len ≤ o.len) (hy : y.len ≤ o.len) (d : o.Dense)
    (ox : overlaps x o = false) (oy : overlaps y o = false) :
    inPlace m w op self b = (store (incref w self) o (results f x y), .obj self) := by
  have hg : (store (incref w self) o (results f x y)).objs[self]? = some { o with refs := o.refs + 1 } := by
    simp [store, incref, h]
  have hb : basicMath m w op (.arr self) b (some self) = (store (incref w self) o (results f x y), .obj self) := by
    simp only [basicMath, Option.isSome, hc, hk, outputs, Option.bind_some, h, Option.map_some, ne_eq, not_true, if_false]
    exact intoOutput_ok w f x y self o h hf hx hy d ox oy
  simp only [inPlace, h, hb, backToType, hg, if_true]

/-- The calculation in place when the type of the result is another one. -/
theorem inPlace_converted (m : Math V S) (w : World V) (op : Op) (self : Nat) (b : Arg S) (o : Obj) (mode : Mode) (x y : Inp V) (t : Nat)
    (f : V → V → V) (h : w.objs[self]? = some o) (hc : checkInputs m w op true (.arr self) b = some (mode, x, y))
    (hk : m.kernel op mode x.ty y.ty = some (t, f)) (ht : t ≠ o.ty) (hm : w.oom = []) :
    ∃ w' r, inPlace m w op self b = (w', .obj r) ∧ MadeAnother w w' r o.ty ((results f x y).map (m.cast t o.ty)) := by
  obtain ⟨w1, he, ⟨-, hn, q, hq, hmem, hty, hrefs, hfast, hvals⟩, hoom⟩ := intoNew_ok w t f x y hm
  have hb : basicMath m w op (.arr self) b (some self) = (w1, .obj w.objs.length) := by
    simp only [basicMath, Option.isSome, hc, hk, outputs, Option.bind_some, h, Option.map_some, ne_eq]
    rw [if_pos (fun e => ht e.symm), he]
  have hg : w1.objs[w.objs.length]? = some q := by rw [hq]; simp
  refine ⟨decref ⟨w1.objs ++ [{ ty := o.ty, blk := w1.mem.length, off := 0, len := ((results f x y).map (m.cast t o.ty)).length }],
      w1.mem ++ [(results f x y).map (m.cast t o.ty)], w1.nones, []⟩ w.objs.length, w1.objs.length, ?_, ?_, ?_, ?_, ?_, ?_⟩
  · simp only [inPlace, h, hb, backToType, hg, hty, if_neg ht, hvals, allocArr_ok w1 _ _ hoom]
  · simp only [decref, hq, List.append_assoc]
    rw [List.singleton_append, modify_mid]
    exact List.prefix_append ..
  · simp only [decref, hmem, List.append_assoc]
    exact List.prefix_append ..
  · rw [hq]; simp
  · simp [decref, hn]
  · refine ⟨{ ty := o.ty, blk := w1.mem.length, off := 0, len := ((results f x y).map (m.cast t o.ty)).length }, ?_, rfl, rfl, ?_⟩
    · simp only [decref, hq, List.append_assoc, List.singleton_append, modify_mid]
      simp
    · exact valsOf_new ..

theorem place_common (m : Math V S) (w : World V) (q : Obj) (t : Nat) :
    (toCommon m (fill w q) t).place = some (q.blk, q.off) ∨ (toCommon m (fill w q) t).place = none := by
  unfold toCommon convert fill; dsimp only
  split
  · exact Or.inl rfl
  · split
    · exact Or.inl rfl
    · exact Or.inr rfl

theorem apart (m : Math V S) (w : World V) (o1 o2 : Obj) (t : Nat) (hl : o1.len = o2.len) (h : SameOrApart o1 o2) :
    overlaps (toCommon m (fill w o2) t) o1 = false := by
  have c := (toCommon_vals m w o2 t).2.2
  unfold overlaps
  rcases place_common m w o2 t with e | e <;> rw [e]
  simp only [c]
  rcases h with h | h | h | h
  · have : ¬ o2.blk = o1.blk := fun e => h e.symm
    simp [this]
  · simp only [Bool.and_eq_false_iff, Bool.or_eq_false_iff, decide_eq_false_iff_not]; omega
  · simp only [Bool.and_eq_false_iff, Bool.or_eq_false_iff, decide_eq_false_iff_not]; omega
  · simp only [Bool.and_eq_false_iff, Bool.or_eq_false_iff, decide_eq_false_iff_not]; omega

theorem common_results (m : Math V S) (w : World V) (o1 o2 : Obj) (t1 t2 : Nat) (f : V → V → V) (hl : o1.len = o2.len) :
    results f (toCommon m (fill w o1) t1) (toCommon m (fill w o2) t2) =
      List.zipWith (fun a b => f (seenAs m o1.ty t1 a) (seenAs m o2.ty t2 b)) (valsOf w o1) (valsOf w o2) := by
  have c1 := toCommon_vals m w o1 t1
  have c2 := toCommon_vals m w o2 t2
  rw [results_two f _ _ o1.len c1.2.2 (by rw [c2.2.2, hl]) (by simp [c1.1, valsOf_length]) (by simp [c2.1, valsOf_length, hl]),
    c1.1, c2.1, List.zipWith_map_left, List.zipWith_map_right]

theorem inputs_scalar (m : Math V S) (w : World V) (op : Op) (self : Nat) (s : S) (o : Obj) (v : V) (h : w.objs[self]? = some o)
    (d : o.Dense) (hs : m.scal s o.ty = some v) :
    checkInputs m w op true (.arr self) (.scal s) = some (.second, fill w o, scalInp o.ty v) := by
  simp [checkInputs, h, withScal, strided_false.2 d, hs, convert, fill]

theorem self_apart (w : World V) (o : Obj) : overlaps (fill w o) o = false := by
  simp [overlaps, fill]

/-! ## In place -/

/-- `x op= y` for two arrays of one length changes `x` itself (so that all views of it see the change) if the calculation's type is
that of `x`, the class of `x` is `FastArray` and `y` does not cover a part of `x`. -/
theorem in_place_of_two_arrays_partial (m : Math V S) (w : World V) (op : Op) (self j : Nat) (o1 o2 : Obj) (t1 t2 : Nat) (f : V → V → V)
    (h1 : w.objs[self]? = some o1) (h2 : w.objs[j]? = some o2) (d1 : o1.Dense) (d2 : o2.Dense) (hl : o1.len = o2.len)
    (hi : o1.Inside w.mem) (hf : o1.fast = true) (ha : SameOrApart o1 o2)
    (hp : m.pair op o1.ty o2.ty = some (t1, t2)) (hk : m.kernel op .none t1 t2 = some (o1.ty, f)) :
    ∃ w', inPlace m w op self (.arr j) = (w', .obj self) ∧
      ChangedInPlace w w' self o1
        (List.zipWith (fun a b => f (seenAs m o1.ty t1 a) (seenAs m o2.ty t2 b)) (valsOf w o1) (valsOf w o2)) := by
  have c1 := toCommon_vals m w o1 t1
  have c2 := toCommon_vals m w o2 t2
  have hc : checkInputs m w op true (.arr self) (.arr j) = some (.none, toCommon m (fill w o1) t1, toCommon m (fill w o2) t2) := by
    simp only [checkInputs, h1, h2, twoArrays_same m w op o1 o2 t1 t2 d1 d2 hl hp]
  have hr := common_results m w o1 o2 t1 t2 f hl
  have hlen : (results f (toCommon m (fill w o1) t1) (toCommon m (fill w o2) t2)).length = o1.len := by
    simp [results, c1.2.2, c2.2.2, hl]
  refine ⟨_, inPlace_used m w op self (.arr j) o1 .none _ _ f h1 hc (by rw [c1.2.1, c2.2.1]; exact hk) hf (by rw [c1.2.2]; omega)
    (by rw [c2.2.2]; omega) d1 (apart m w o1 o1 t1 rfl (Or.inr (Or.inl rfl))) (apart m w o1 o2 t2 hl ha), rfl, rfl, ?_, ?_⟩
  · rw [store_incref, valsOf_store w o1 _ hlen d1 hi, hr]
  · intro b k hb
    exact store_elsewhere (incref w self) o1 _ hlen b k hb

example := in_place_of_two_arrays_partial numbers (sample []) .add 2 0 _ _ 12 12 (exactly .add) rfl rfl (Or.inr rfl) (Or.inr rfl) rfl
  ⟨_, rfl, by decide⟩ rfl (Or.inl (by decide)) rfl rfl

/-- `x op= s` for a Python scalar: the scalar is converted to the type of `x`, not the array to a type which holds the scalar. -/
theorem in_place_with_a_scalar_partial (m : Math V S) (w : World V) (op : Op) (self : Nat) (s : S) (o : Obj) (v : V) (f : V → V → V)
    (h : w.objs[self]? = some o) (d : o.Dense) (hi : o.Inside w.mem) (hf : o.fast = true) (hs : m.scal s o.ty = some v)
    (hk : m.kernel op .second o.ty o.ty = some (o.ty, f)) :
    ∃ w', inPlace m w op self (.scal s) = (w', .obj self) ∧ ChangedInPlace w w' self o ((valsOf w o).map fun a => f a v) := by
  have hr := results_right f (fill w o) o.len o.ty v rfl (by simp [fill, valsOf_length])
  have hlen : (results f (fill w o) (scalInp o.ty v)).length = o.len := by simp [results, fill, scalInp]
  refine ⟨_, inPlace_used m w op self (.scal s) o .second _ _ f h (inputs_scalar m w op self s o v h d hs) hk hf (Nat.le_refl _)
    (Nat.zero_le _) d (self_apart w o) rfl, rfl, rfl, ?_, ?_⟩
  · rw [store_incref, valsOf_store w o _ hlen d hi, hr]; rfl
  · intro b k hb
    exact store_elsewhere (incref w self) o _ hlen b k hb

example := in_place_with_a_scalar_partial numbers (sample []) .mul 0 300 _ 300 (exactly .mul) rfl (Or.inr rfl) ⟨_, rfl, by decide⟩ rfl rfl rfl

/-- If the calculation has another type than `x`, then `x op= y` leaves `x` as it is and gives back another array. -/
theorem in_place_of_another_type_makes_another_array (m : Math V S) (w : World V) (op : Op) (self j : Nat) (o1 o2 : Obj) (t1 t2 t : Nat)
    (f : V → V → V) (h1 : w.objs[self]? = some o1) (h2 : w.objs[j]? = some o2) (d1 : o1.Dense) (d2 : o2.Dense) (hl : o1.len = o2.len)
    (hp : m.pair op o1.ty o2.ty = some (t1, t2)) (hk : m.kernel op .none t1 t2 = some (t, f)) (ht : t ≠ o1.ty) (hm : w.oom = []) :
    ∃ w' r, inPlace m w op self (.arr j) = (w', .obj r) ∧ r ≠ self ∧
      MadeAnother w w' r o1.ty
        ((List.zipWith (fun a b => f (seenAs m o1.ty t1 a) (seenAs m o2.ty t2 b)) (valsOf w o1) (valsOf w o2)).map (m.cast t o1.ty)) := by
  have c1 := toCommon_vals m w o1 t1
  have c2 := toCommon_vals m w o2 t2
  have hc : checkInputs m w op true (.arr self) (.arr j) = some (.none, toCommon m (fill w o1) t1, toCommon m (fill w o2) t2) := by
    simp only [checkInputs, h1, h2, twoArrays_same m w op o1 o2 t1 t2 d1 d2 hl hp]
  obtain ⟨w', r, he, hr⟩ := inPlace_converted m w op self (.arr j) o1 .none _ _ t f h1 hc (by rw [c1.2.1, c2.2.1]; exact hk) ht hm
  rw [common_results m w o1 o2 t1 t2 f hl] at hr
  refine ⟨w', r, he, ?_, hr⟩
  intro e
  have h3 := hr.2.2.1
  rw [e, ← Nat.not_lt] at h3
  exact h3 (by
    rcases Nat.lt_or_ge self w.objs.length with q | q
    · exact q
    · rw [List.getElem?_eq_none q] at h1; cases h1)

example := in_place_of_another_type_makes_another_array numbers (sample []) .add 0 2 _ _ 12 12 12 (exactly .add) rfl rfl (Or.inr rfl)
  (Or.inr rfl) rfl rfl rfl (by decide) rfl

/-- The same for a Python scalar, e.g. the division of integers. -/
theorem in_place_division_of_integers_makes_another_array (m : Math V S) (w : World V) (op : Op) (self : Nat) (s : S) (o : Obj) (v : V)
    (t : Nat) (f : V → V → V) (h : w.objs[self]? = some o) (d : o.Dense) (hs : m.scal s o.ty = some v)
    (hk : m.kernel op .second o.ty o.ty = some (t, f)) (ht : t ≠ o.ty) (hm : w.oom = []) :
    ∃ w' r, inPlace m w op self (.scal s) = (w', .obj r) ∧ MadeAnother w w' r o.ty ((valsOf w o).map fun a => m.cast t o.ty (f a v)) := by
  obtain ⟨w', r, he, hr⟩ := inPlace_converted m w op self (.scal s) o .second _ _ t f h (inputs_scalar m w op self s o v h d hs) hk ht hm
  rw [results_right f (fill w o) o.len o.ty v rfl (by simp [fill, valsOf_length])] at hr
  refine ⟨w', r, he, ?_⟩
  simpa [fill, List.map_map, Function.comp_def] using hr

example := in_place_division_of_integers_makes_another_array numbers (sample []) .div 0 2 _ 2 12 (exactly .div) rfl (Or.inr rfl) rfl rfl
  (by decide) rfl

/-- Out of memory, an operator in place whose calculation has another type follows a null pointer. -/
theorem in_place_crashes_without_memory (m : Math V S) (w : World V) (op : Op) (self : Nat) (s : S) (o : Obj) (v : V)
    (t : Nat) (f : V → V → V) (rest : List Bool) (h : w.objs[self]? = some o) (d : o.Dense) (hs : m.scal s o.ty = some v)
    (hk : m.kernel op .second o.ty o.ty = some (t, f)) (ht : t ≠ o.ty) (hm : w.oom = false :: rest) :
    (inPlace m w op self (.scal s)).2 = .crash := by
  have hb : basicMath m w op (.arr self) (.scal s) (some self) = ({ w with oom := rest }, .null) := by
    simp only [basicMath, Option.isSome, inputs_scalar m w op self s o v h d hs, fill, scalInp, hk, outputs, Option.bind_some, h, Option.map_some]
    rw [if_pos (fun e => ht e.symm)]
    simp only [intoNew, allocArr, hm]
  simp [inPlace, h, hb]

example := in_place_crashes_without_memory numbers (sample [false]) .div 0 2 _ 2 12 (exactly .div) [] rfl (Or.inr rfl) rfl rfl (by decide) rfl

/-- If only the conversion of the result runs out of memory, the result has the calculation's type. -/
theorem in_place_keeps_the_other_type_without_memory (m : Math V S) (w : World V) (op : Op) (self : Nat) (s : S) (o : Obj) (v : V)
    (t : Nat) (f : V → V → V) (rest : List Bool) (h : w.objs[self]? = some o) (d : o.Dense) (hs : m.scal s o.ty = some v)
    (hk : m.kernel op .second o.ty o.ty = some (t, f)) (ht : t ≠ o.ty) (hm : w.oom = true :: false :: rest) :
    ∃ w' r q, inPlace m w op self (.scal s) = (w', .obj r) ∧ w'.objs[r]? = some q ∧ q.ty = t := by
  have hb : basicMath m w op (.arr self) (.scal s) (some self) =
      (⟨w.objs ++ [{ ty := t, blk := w.mem.length, off := 0, len := (results f (fill w o) (scalInp o.ty v)).length }],
        w.mem ++ [results f (fill w o) (scalInp o.ty v)], w.nones, false :: rest⟩, .obj w.objs.length) := by
    simp only [basicMath, Option.isSome, inputs_scalar m w op self s o v h d hs]
    simp only [fill, scalInp, hk, outputs, Option.bind_some, h, Option.map_some]
    rw [if_pos (fun e => ht e.symm)]
    simp [intoNew, allocArr, hm]
  refine ⟨_, _, _, by simp only [inPlace, h, hb, backToType, List.getElem?_concat_length, if_neg ht, allocArr]; rfl, by simp; rfl, rfl⟩

example := in_place_keeps_the_other_type_without_memory numbers (sample [true, false]) .div 0 2 _ 2 12 (exactly .div) [] rfl (Or.inr rfl) rfl rfl
  (by decide) rfl

/-- An array of another class than `FastArray` is changed too, but the result is another object of the class `FastArray`: after
`x op= s` the class of `x` is lost. -/
theorem in_place_loses_the_class (m : Math V S) (w : World V) (op : Op) (self : Nat) (s : S) (o : Obj) (v : V) (f : V → V → V)
    (h : w.objs[self]? = some o) (d : o.Dense) (hi : o.Inside w.mem) (hf : o.fast = false) (hs : m.scal s o.ty = some v)
    (hk : m.kernel op .second o.ty o.ty = some (o.ty, f)) :
    ∃ w' r q, inPlace m w op self (.scal s) = (w', .obj r) ∧ r = w.objs.length ∧ w'.objs[r]? = some q ∧ q.fast = true ∧
      valsOf w' o = (valsOf w o).map (fun a => f a v) ∧ valsOf w' q = valsOf w' o := by
  have hr := results_right f (fill w o) o.len o.ty v rfl (by simp [fill, valsOf_length])
  have hlen : (results f (fill w o) (scalInp o.ty v)).length = o.len := by simp [results, fill, scalInp]
  have hg : (store (incref w self) o (results f (fill w o) (scalInp o.ty v))).objs[self]? = some { o with refs := o.refs + 1 } := by
    simp [store, incref, h]
  have hl : (store (incref w self) o (results f (fill w o) (scalInp o.ty v))).objs.length = w.objs.length := by simp [store, incref]
  have hio : intoOutput w f (fill w o) (scalInp o.ty v) self o =
      ({ store (incref w self) o (results f (fill w o) (scalInp o.ty v)) with
          objs := (store (incref w self) o (results f (fill w o) (scalInp o.ty v))).objs ++ [{ o with fast := true, refs := 1 }] },
        .obj w.objs.length) := by
    unfold intoOutput
    rw [if_neg (by rw [strided_false.2 d]; simp [fill, scalInp])]
    have oy : overlaps (scalInp o.ty v) o = false := rfl
    simp only [self_apart w o, oy, Bool.false_eq_true, or_self, if_false, asFast, hg, hf, hl]
  have hb : basicMath m w op (.arr self) (.scal s) (some self) =
      ({ store (incref w self) o (results f (fill w o) (scalInp o.ty v)) with
          objs := (store (incref w self) o (results f (fill w o) (scalInp o.ty v))).objs ++ [{ o with fast := true, refs := 1 }] },
        .obj w.objs.length) := by
    rw [← hio]
    simp only [basicMath, Option.isSome, inputs_scalar m w op self s o v h d hs]
    simp only [fill, scalInp, hk, outputs, Option.bind_some, h, Option.map_some, ne_eq, not_true, if_false]
  have hq : ((store (incref w self) o (results f (fill w o) (scalInp o.ty v))).objs ++ [{ o with fast := true, refs := 1 }])[w.objs.length]? =
      some { o with fast := true, refs := 1 } := by rw [← hl]; simp
  refine ⟨{ store (incref w self) o (results f (fill w o) (scalInp o.ty v)) with
          objs := (store (incref w self) o (results f (fill w o) (scalInp o.ty v))).objs ++ [{ o with fast := true, refs := 1 }] },
    w.objs.length, { o with fast := true, refs := 1 }, by simp only [inPlace, h, hb, backToType, hq, if_true], rfl, hq, rfl, ?_, rfl⟩
  show valsOf (store w o _) o = _
  rw [valsOf_store w o _ hlen d hi, hr]; rfl

example := in_place_loses_the_class numbers (sample []) .add 6 2 _ 2 (exactly .add) rfl (Or.inr rfl) ⟨_, rfl, by decide⟩ rfl rfl rfl

/-- An operand which covers a part of `x` leaves `x op= y` to numpy, and `x` keeps a reference that nobody gives back. -/
theorem overlap_leaks_a_reference (m : Math V S) (w : World V) (op : Op) (self j : Nat) (o1 o2 : Obj) (f : V → V → V)
    (h1 : w.objs[self]? = some o1) (h2 : w.objs[j]? = some o2) (d1 : o1.Dense) (d2 : o2.Dense) (hl : o1.len = o2.len)
    (ht : o1.ty = o2.ty) (hb : o1.blk = o2.blk) (ho : (o1.off < o2.off ∧ o2.off < o1.off + o1.len) ∨ (o2.off < o1.off ∧ o1.off < o2.off + o2.len))
    (hp : m.pair op o1.ty o2.ty = some (o1.ty, o1.ty)) (hk : m.kernel op .none o1.ty o1.ty = some (o1.ty, f)) :
    inPlace m w op self (.arr j) = (increfNone (incref w self), .numpy) := by
  have c1 := toCommon_vals m w o1 o1.ty
  have c2 := toCommon_vals m w o2 o1.ty
  have hpl : (toCommon m (fill w o2) o1.ty).place = some (o2.blk, o2.off) := by
    unfold toCommon convert fill; dsimp only
    split
    · rfl
    · rw [if_pos ht.symm]
  have ov : overlaps (toCommon m (fill w o2) o1.ty) o1 = true := by
    unfold overlaps
    rw [hpl]
    simp only [c2.2.2, Bool.and_eq_true, Bool.or_eq_true, decide_eq_true_eq]
    omega
  have hio : intoOutput w f (toCommon m (fill w o1) o1.ty) (toCommon m (fill w o2) o1.ty) self o1 = (increfNone (incref w self), .none) := by
    unfold intoOutput
    rw [if_neg (by rw [strided_false.2 d1, c1.2.2, c2.2.2]; simp [hl])]
    simp [ov]
  have hbm : basicMath m w op (.arr self) (.arr j) (some self) = (increfNone (incref w self), .none) := by
    simp only [basicMath, checkInputs, h1, h2, twoArrays_same m w op o1 o2 o1.ty o1.ty d1 d2 hl hp, c1.2.1, c2.2.1, hk, outputs, Option.bind_some,
      Option.map_some, ne_eq, not_true, if_false, hio]
  simp [inPlace, h1, hbm]

example := overlap_leaks_a_reference numbers (sample []) .add 7 1 _ _ (exactly .add) rfl rfl (Or.inr rfl) (Or.inr rfl) rfl rfl rfl
  (Or.inl (by decide)) rfl rfl

/-! ## Powers in place -/

/-- Unlike the other operators in place, `x **= y` does not convert its result to the type of `x`. -/
theorem in_place_power_changes_the_type (m : Math V S) (w : World V) (self j : Nat) (o1 o2 : Obj) (t1 t2 t : Nat)
    (f : V → V → V) (h1 : w.objs[self]? = some o1) (h2 : w.objs[j]? = some o2) (d1 : o1.Dense) (d2 : o2.Dense) (hl : o1.len = o2.len)
    (hp : m.pair .power o1.ty o2.ty = some (t1, t2)) (hk : m.kernel .power .none t1 t2 = some (t, f)) (ht : t ≠ o1.ty) (hm : w.oom = []) :
    ∃ w' r, inPlacePower m w self (.arr j) false = (w', .obj r) ∧
      NewArray w w' r t (List.zipWith (fun a b => f (seenAs m o1.ty t1 a) (seenAs m o2.ty t2 b)) (valsOf w o1) (valsOf w o2)) := by
  have c1 := toCommon_vals m w o1 t1
  have c2 := toCommon_vals m w o2 t2
  obtain ⟨w', he, hn, -⟩ := intoNew_ok w t f (toCommon m (fill w o1) t1) (toCommon m (fill w o2) t2) hm
  rw [common_results m w o1 o2 t1 t2 f hl] at hn
  refine ⟨w', w.objs.length, ?_, hn⟩
  have hb : basicMath m w .power (.arr self) (.arr j) (some self) = (w', .obj w.objs.length) := by
    simp only [basicMath, checkInputs, h1, h2, twoArrays_same m w .power o1 o2 t1 t2 d1 d2 hl hp, c1.2.1, c2.2.1, hk, outputs, Option.bind_some,
      Option.map_some]
    rw [if_pos (fun e => ht e.symm), he]
  simp [inPlacePower, hb, orNumpy]

example := in_place_power_changes_the_type numbers (sample []) 0 2 _ _ 12 12 12 (exactly .power) rfl rfl (Or.inr rfl) (Or.inr rfl) rfl rfl rfl
  (by decide) rfl

/-- With a modulus the power is calculated in place first, and then all is left to numpy, which sees the powers. -/
theorem in_place_power_with_a_modulus_is_done_twice (m : Math V S) (w : World V) (self : Nat) (s : S) (o : Obj) (v : V) (f : V → V → V)
    (h : w.objs[self]? = some o) (d : o.Dense) (hi : o.Inside w.mem) (hf : o.fast = true) (hs : m.scal s o.ty = some v)
    (hk : m.kernel .power .second o.ty o.ty = some (o.ty, f)) :
    ∃ w', inPlacePower m w self (.scal s) true = (w', .numpy) ∧ valsOf w' o = (valsOf w o).map fun a => f a v := by
  have hr := results_right f (fill w o) o.len o.ty v rfl (by simp [fill, valsOf_length])
  have hlen : (results f (fill w o) (scalInp o.ty v)).length = o.len := by simp [results, fill, scalInp]
  have hb : basicMath m w .power (.arr self) (.scal s) (some self) = (store (incref w self) o (results f (fill w o) (scalInp o.ty v)), .obj self) := by
    rw [← intoOutput_ok w f (fill w o) (scalInp o.ty v) self o h hf (Nat.le_refl _) (Nat.zero_le _) d (self_apart w o) rfl]
    simp only [basicMath, Option.isSome, inputs_scalar m w .power self s o v h d hs]
    simp only [fill, scalInp, hk, outputs, Option.bind_some, h, Option.map_some, ne_eq, not_true, if_false]
  refine ⟨store (incref w self) o (results f (fill w o) (scalInp o.ty v)), by simp [inPlacePower, hb, orNumpy], ?_⟩
  rw [store_incref, valsOf_store w o _ hlen d hi, hr]; rfl

example := in_place_power_with_a_modulus_is_done_twice numbers (sample []) 0 2 _ 2 (exactly .power) rfl (Or.inr rfl) ⟨_, rfl, by decide⟩ rfl rfl
  rfl

/-! ## What the operators give for the arrays of `sample` -/

/-- What a caller sees: the object given back, its type and its values. -/
def seen (q : World Rat × Ret) : Option (Nat × Nat × List Rat) :=
  match q.2 with
  | .obj r => (q.1.objs[r]?).map fun o => (r, o.ty, valsOf q.1 o)
  | _ => none

/-- The values of an array after a call. -/
def after (q : World Rat × Ret) (i : Nat) : Option (List Rat) := (q.1.objs[i]?).map (valsOf q.1)

/-- `x += y` for integers and floating point numbers: numpy raises an exception, riptide gives a new array of integers, and the views of `x`
keep the old values. -/
theorem adding_floats_to_integers_in_place :
    seen (inPlace numbers (sample []) .add 0 (.arr 2)) = some (9, 5, [1, 3, 5]) ∧
      after (inPlace numbers (sample []) .add 0 (.arr 2)) 0 = some [1, 2, 3] ∧
      after (inPlace numbers (sample []) .add 0 (.arr 2)) 1 = some [2, 3] := by decide +kernel

/-- `x /= 2` for integers gives a new array of quotients without their fractions. -/
theorem dividing_integers_in_place :
    seen (inPlace numbers (sample []) .div 0 (.scal 2)) = some (9, 5, [0, 1, 1]) ∧
      after (inPlace numbers (sample []) .div 0 (.scal 2)) 0 = some [1, 2, 3] := by decide +kernel

/-- `x += y` where `x` has one item and `y` three of another type gives an array of three items. -/
theorem in_place_may_grow_the_array :
    seen (inPlace numbers (sample []) .add 3 (.arr 2)) = some (9, 5, [10, 11, 12]) := by decide +kernel

/-- `x += y` for long and long long, the same type under two numbers, does not change `x` but makes another array. -/
theorem long_and_long_long_are_not_added_in_place :
    seen (inPlace numbers (sample []) .add 4 (.arr 5)) = some (9, 7, [8, 12]) ∧
      after (inPlace numbers (sample []) .add 4 (.arr 5)) 4 = some [4, 6] := by decide +kernel

/-- The views of `x` see `x += 300`, and the array stays int32. -/
theorem views_see_what_is_done_in_place :
    seen (inPlace numbers (sample []) .add 0 (.scal 300)) = some (0, 5, [301, 302, 303]) ∧
      after (inPlace numbers (sample []) .add 0 (.scal 300)) 1 = some [302, 303] := by decide +kernel

/-- `x **= 3` with a modulus: numpy starts with the cubes. -/
theorem power_in_place_with_a_modulus_starts_with_the_powers :
    after (inPlacePower numbers (sample []) 0 (.scal 3) true) 0 = some [1, 8, 27] ∧
      (inPlacePower numbers (sample []) 0 (.scal 3) true).2 = .numpy := by decide +kernel

end Riptide.Hook
