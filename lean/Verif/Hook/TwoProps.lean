import Verif.Hook.TwoSpec
/-! # What is proved of `BasicMathTwoInputs` -/
namespace Riptide.Hook.Two
open Spec

variable {V S : Type} [Inhabited V]

/-! ### Arguments and exceptions -/

/-- A number of arguments other than three and what is no tuple raise and change nothing. -/
theorem twoInputs_args (m : Math V S) (w : World V) (flat : Nat → Bool) (f o : Num) :
    twoInputs m w flat none = ⟨w, .null, true⟩ ∧ twoInputs m w flat (some (.none, f, o)) = ⟨w, .null, true⟩ := ⟨rfl, rfl⟩

/-- Numbers of 64 bits are taken without an exception. -/
theorem asLong_num {x : Num} : (asLong x).2 = false ↔ IsNum x := by
  cases x with
  | other => simp [asLong, IsNum]
  | int n =>
    unfold asLong IsNum
    simp only [Num.int.injEq]
    by_cases h : -9223372036854775808 ≤ n ∧ n ≤ 9223372036854775807
    · rw [if_pos h]
      simp only [true_iff]
      exact ⟨n, rfl, by omega, by omega⟩
    · rw [if_neg h]
      simp only [Bool.true_eq_false, false_iff]
      rintro ⟨k, rfl, h1, h2⟩
      exact h (by omega)

omit [Inhabited V] in
/-- The end of the calculation is proper if there was no exception before. -/
theorem finish_proper (r : World V × Res) : Proper (finish false r) := by
  obtain ⟨w, r⟩ := r
  cases r <;> simp [finish, Proper]

/-- The calculation is proper if there was no exception before. -/
theorem compute_proper (m : Math V S) (w : World V) (flat : Nat → Bool) (f outTy : Int) (u1 u2 : Bool) (a b : Ready S) (out : Option Given) :
    Proper (compute m w flat f outTy false u1 u2 a b out).1 := by
  unfold compute
  split
  · simp [Proper]
  · split
    · exact finish_proper _
    · exact finish_proper _

/-- **With two or three items of which numpy makes arrays, and with numbers, the call returns a null pointer exactly with an exception.** Without these it does not; see
`twoInputs_size_wrong`, `twoInputs_other_wrong` and `twoInputs_number_wrong`. -/
theorem twoInputs_proper_partial (m : Math V S) (w : World V) (flat : Nat → Bool) {a b : Item V S} (ha : Usable a) (hb : Usable b) (out : Option Given) {f o : Num} (hf : IsNum f) (ho : IsNum o) :
    Proper (twoInputs m w flat (some (.items a b out, f, o))) := by
  simp only [twoInputs, asLong_num.2 hf, asLong_num.2 ho, Bool.or_self, items]
  have hr : ∀ (w : World V) (x : Item V S), Usable x → (ready w x).2 ≠ none := by
    intro w x hx
    cases x with
    | arr i => simp [ready]
    | scal s => simp [ready]
    | other made => cases made with
      | none => exact absurd (hx none rfl) (by simp)
      | some p => simp [ready]
  split
  · rename_i h
    exact absurd (by rw [h]) (hr w a ha)
  · split
    · rename_i h
      exact absurd (by rw [h]) (hr _ b hb)
    · exact compute_proper ..

/-- A function which is no number of 64 bits never gives a result, if there is no function -1. -/
theorem twoInputs_no_function (m : Math V S) (hk : ∀ d t1 t2 o, m.kernel (-1) d t1 t2 o = none) (w : World V) (flat : Nat → Bool) (t : Tuple V S) {f : Num} (hf : ¬ IsNum f) (o : Num) (r : Nat) :
    (twoInputs m w flat (some (t, f, o))).res ≠ .obj r := by
  have h1 : (asLong f).2 = true := by
    cases h : (asLong f).2 with
    | false => exact absurd (asLong_num.1 h) hf
    | true => rfl
  have h2 : (asLong f).1 = -1 := by
    cases f with
    | other => rfl
    | int n =>
      by_cases h : -9223372036854775808 ≤ n ∧ n ≤ 9223372036854775807
      · have e : asLong (.int n) = (n, false) := if_pos h
        rw [e] at h1
        cases h1
      · have e : asLong (.int n) = (-1, true) := if_neg h
        rw [e]
  cases t with
  | none => simp [twoInputs]
  | size n => simp [twoInputs]
  | items a b out =>
    simp only [twoInputs, h1, h2, Bool.true_or, items]
    have e : toInt (-1) = -1 := by decide
    rw [e]
    split
    · simp
    · split
      · simp
      · simp only [compute]
        split
        · simp
        · rw [hk]
          simp [finish]

/-- Functions whose numbers differ by a multiple of 2³² are the same. -/
theorem twoInputs_function_cut (m : Math V S) (w : World V) (flat : Nat → Bool) (a b : Item V S) (out : Option Given) (o : Num) {n k : Int} (hn : IsNum (.int n)) (hk : IsNum (.int k)) (h : (n - k) % 2 ^ 32 = 0) :
    twoInputs m w flat (some (.items a b out, .int n, o)) = twoInputs m w flat (some (.items a b out, .int k, o)) := by
  have hv : ∀ n : Int, IsNum (.int n) → asLong (.int n) = (n, false) := by
    rintro n ⟨n', h', h1, h2⟩
    cases h'
    exact if_pos (by omega)
  have ht : toInt n = toInt k := by
    unfold toInt
    rw [Int.bmod_def, Int.bmod_def]
    have : n % 4294967296 = k % 4294967296 := by omega
    simp [this]
  simp only [twoInputs, hv n hn, hv k hk, ht]

/-! ### Results -/

/-- A new output of a memory that suffices. -/
theorem intoNew_new (w : World V) (ho : w.oom = []) (t : Nat) (g : V → V → V) (x y : Inp V) :
    intoNew w t g x y = ({ w with objs := w.objs ++ [{ ty := t, blk := w.mem.length, off := 0, len := (results g x y).length }], mem := w.mem ++ [results g x y], oom := [] }, .obj w.objs.length) := by
  unfold intoNew allocArr
  rw [ho]
  rfl

/-- The elements of an array just made. -/
theorem valsOf_new (w : World V) (objs : List Obj) (vs : List V) (t : Nat) (oom : List Bool) (n : Nat) :
    valsOf (⟨objs, w.mem ++ [vs], n, oom⟩ : World V) { ty := t, blk := w.mem.length, off := 0, len := vs.length } = vs := by
  unfold valsOf
  apply List.ext_getElem
  · simp
  · intro i h1 h2
    simp [List.getD_eq_getElem?_getD, h2]

/-- A calculation without an output gives a new array of its elements. -/
theorem compute_new (m : Math V S) (w : World V) (ho : w.oom = []) (flat : Nat → Bool) (f outTy : Int) (u1 u2 : Bool) (a b : Ready S) {i : Inputs V} (hc : check m w f outTy u1 u2 a b = some i) {t : Nat}
    {g : V → V → V} (hk : m.kernel f i.mode i.t1 i.t2 outTy = some (t, g)) : IsNew w (compute m w flat f outTy false u1 u2 a b none).1 t (max i.x.len i.y.len) fun k => g (i.x.at k) (i.y.at k) := by
  unfold compute
  rw [hc]
  simp only
  rw [hk]
  simp only [outputs]
  rw [intoNew_new w ho]
  refine ⟨w.objs.length, _, rfl, rfl, Nat.le_refl _, List.getElem?_concat_length, rfl, by simp [results], rfl, ?_⟩
  exact valsOf_new w _ _ t _ _

/-- Reading a converted array. -/
theorem convert_at (m : Math V S) (w : World V) (o : Obj) (t k : Nat) (hk : k < o.len) :
    (convert m (fill w o) t).at k = (if o.ty = t then (valsOf w o).getD k default else m.cast o.ty t ((valsOf w o).getD k default)) := by
  have hl : (valsOf w o).length = o.len := by simp [valsOf]
  have h0 : o.len ≠ 0 := by omega
  by_cases h : o.ty = t
  · have e : convert m (fill w o) t = fill w o := if_pos h
    rw [e, if_pos h]
    simp [Inp.at, fill, h0]
  · have e : convert m (fill w o) t = { fill w o with ty := t, vals := (valsOf w o).map (m.cast o.ty t), place := none } := if_neg h
    rw [e, if_neg h]
    simp [Inp.at, fill, h0, List.getD_eq_getElem?_getD, hl, hk]

/-- An element of an array in the common type. -/
theorem toCommon_at (m : Math V S) (w : World V) (o : Obj) (t k : Nat) (hk : k < o.len) : (toCommon m (fill w o) t).at k = conv m o.ty t ((valsOf w o).getD k default) := by
  have h0 : o.len ≠ 0 := by omega
  by_cases hu : Binary.unamb o.ty = t
  · have e : toCommon m (fill w o) t = { fill w o with ty := t } := if_pos hu
    have hc : o.ty = t ∨ (o.ty = 7 ∧ t = 9) ∨ (o.ty = 8 ∧ t = 10) := by
      unfold Binary.unamb at hu
      split at hu <;> omega
    rw [e, conv, if_pos hc]
    simp [Inp.at, fill, h0]
  · have e : toCommon m (fill w o) t = convert m (fill w o) t := if_neg hu
    rw [e, convert_at m w o t k hk, conv]
    have hc : (o.ty = t ∨ (o.ty = 7 ∧ t = 9) ∨ (o.ty = 8 ∧ t = 10)) ↔ o.ty = t := by
      unfold Binary.unamb at hu
      split at hu <;> omega
    simp only [hc]

/-- The length of an array in the common type. -/
theorem toCommon_len (m : Math V S) (w : World V) (o : Obj) (t : Nat) : (toCommon m (fill w o) t).len = o.len := by
  unfold toCommon convert
  split
  · rfl
  · split <;> rfl

/-- **Two arrays of one length give a new array of this length**: each element is what the function gives for the elements in the common type. -/
theorem twoInputs_arrays (m : Math V S) (w : World V) (ho : w.oom = []) (flat : Nat → Bool) {i j : Nat} {o1 o2 : Obj} (h1 : w.objs[i]? = some o1) (h2 : w.objs[j]? = some o2) (hl : o1.len = o2.len)
    (hs : o1.len ≤ 1 ∨ o1.step = 1 ∧ o2.step = 1) {f ot : Int} (hf : 0 ≤ f ∧ f < 2 ^ 31) (hot : 0 ≤ ot ∧ ot < 2 ^ 31) {t1 t2 t : Nat} {g : V → V → V} (hp : m.pair f o1.ty o2.ty = some (t1, t2))
    (hk : m.kernel f 0 t1 t2 ot = some (t, g)) :
    IsNew w (twoInputs m w flat (some (.items (.arr i) (.arr j) none, .int f, .int ot))) t o1.len fun k => g (conv m o1.ty t1 ((valsOf w o1).getD k default)) (conv m o2.ty t2 ((valsOf w o2).getD k default)) := by
  have hv : ∀ n : Int, 0 ≤ n ∧ n < 2 ^ 31 → asLong (.int n) = (n, false) ∧ toInt n = n := by
    intro n hn
    refine ⟨if_pos (by omega), ?_⟩
    unfold toInt
    rw [Int.bmod_def]
    omega
  simp only [twoInputs, (hv f hf).1, (hv ot hot).1, (hv f hf).2, (hv ot hot).2, items, ready, Bool.or_self]
  have hc : check m w f ot (mayUp (V := V) (S := S) false true (.arr i)) (mayUp (V := V) (S := S) false false (.arr j)) (.arr i) (.arr j : Ready S) =
      some ⟨0, toCommon m (fill w o1) t1, toCommon m (fill w o2) t2, t1, t2, false⟩ := by
    have hn : ¬ (strided o1 = true ∨ strided o2 = true) := by
      simp only [strided, Bool.and_eq_true, decide_eq_true_eq]
      omega
    simp only [check, h1, h2, twoArrays, hl, hp, Option.map_some, if_true]
    rw [if_neg hn]
  have := compute_new m w ho flat f ot _ _ _ _ hc hk
  obtain ⟨r, o, e1, e2, e3, e4, e5, e6, e7, e8⟩ := this
  simp only [toCommon_len, ← hl, Nat.max_self] at e6 e8
  refine ⟨r, o, e1, e2, e3, ?_, e5, e6, e7, ?_⟩
  · simpa [release] using e4
  · simp only [release, ite_self] at e8 ⊢
    refine e8.trans ?_
    apply List.map_congr_left
    intro k hk
    have hk' := List.mem_range.1 hk
    rw [toCommon_at m w o1 t1 k hk', toCommon_at m w o2 t2 k (hl ▸ hk')]

/-- The type and the length of a converted array. -/
theorem convert_shape (m : Math V S) (w : World V) (o : Obj) (t : Nat) : (convert m (fill w o) t).len = o.len ∧ (convert m (fill w o) t).ty = t := by
  unfold convert
  split
  · rename_i h
    exact ⟨rfl, h⟩
  · exact ⟨rfl, rfl⟩

/-- **An array and a scalar after it give a new array**: the array is converted to the type the scalar needs, then the scalar to this type. -/
theorem twoInputs_scalar (m : Math V S) (w : World V) (ho : w.oom = []) (flat : Nat → Bool) {i : Nat} {o1 : Obj} (h1 : w.objs[i]? = some o1) (hs : o1.len ≤ 1 ∨ o1.step = 1) (s : S)
    {f ot : Int} (hf : 0 ≤ f ∧ f < 2 ^ 31) (hot : 0 ≤ ot ∧ ot < 2 ^ 31) {u t : Nat} {v : V} {g : V → V → V} (hu : m.up f s o1.ty = some u) (hv : m.scal s u = some v) (hk : m.kernel f 2 u u ot = some (t, g)) :
    IsNew w (twoInputs m w flat (some (.items (.arr i) (.scal s) none, .int f, .int ot))) t o1.len
      fun k => g (if o1.ty = u then (valsOf w o1).getD k default else m.cast o1.ty u ((valsOf w o1).getD k default)) v := by
  have hb : ∀ n : Int, 0 ≤ n ∧ n < 2 ^ 31 → asLong (.int n) = (n, false) ∧ toInt n = n := by
    intro n hn
    refine ⟨if_pos (by omega), ?_⟩
    unfold toInt
    rw [Int.bmod_def]
    omega
  simp only [twoInputs, (hb f hf).1, (hb ot hot).1, (hb f hf).2, (hb ot hot).2, items, ready, Bool.or_self]
  have hn : ¬ strided o1 = true := by
    simp only [strided, Bool.and_eq_true, decide_eq_true_eq]
    omega
  have hc : check m w f ot (mayUp (V := V) (S := S) false true (.arr i)) (mayUp (V := V) (S := S) false false (.scal s)) (.arr i) (.scal s) =
      some ⟨2, convert m (fill w o1) u, scalInp u v, u, u, false⟩ := by
    have e : mayUp (V := V) (S := S) false true (.arr i) = true := rfl
    simp only [check, h1, Option.bind_some, withScal, e, if_true, hu]
    rw [if_neg (fun h => hn h.2), hv]
    simp [(convert_shape m w o1 u).2]
  have := compute_new m w ho flat f ot _ _ _ _ hc hk
  obtain ⟨r, o, e1, e2, e3, e4, e5, e6, e7, e8⟩ := this
  simp only [(convert_shape m w o1 u).1, scalInp, Nat.max_zero] at e6 e8
  refine ⟨r, o, e1, e2, e3, ?_, e5, e6, e7, ?_⟩
  · simpa [release] using e4
  · simp only [release, ite_self] at e8 ⊢
    refine e8.trans ?_
    apply List.map_congr_left
    intro k hk
    rw [convert_at m w o1 u k (List.mem_range.1 hk)]
    rfl

/-! ### References -/

/-- Without an output a calculation makes at most one object, the result, and changes no other. -/
theorem compute_objs (m : Math V S) (w : World V) (flat : Nat → Bool) (f outTy : Int) (exc u1 u2 : Bool) (a b : Ready S) :
    (compute m w flat f outTy exc u1 u2 a b none).1.world.objs = w.objs ∨
      ∃ o, (compute m w flat f outTy exc u1 u2 a b none).1.world.objs = w.objs ++ [o] ∧ (compute m w flat f outTy exc u1 u2 a b none).1.res = .obj w.objs.length := by
  unfold compute
  split
  · exact .inl rfl
  · split
    · left
      cases exc <;> rfl
    · rename_i i _ t g _
      simp only [outputs, intoNew, allocArr]
      split
      · rename_i h
        split at h
        · cases h
        · injection h with h h'
          injection h' with h'
          subst h h'
          exact .inr ⟨_, rfl, rfl⟩
      · rename_i h
        split at h
        · injection h with h
          subst h
          exact .inl rfl
        · cases h

/-- `toDelete2` is written over only where the second input has a single item. -/
theorem compute_over (m : Math V S) (w : World V) (flat : Nat → Bool) (f outTy : Int) (exc u1 u2 : Bool) (a b : Ready S) (out : Option Given) (h : (compute m w flat f outTy exc u1 u2 a b out).2 = true) :
    ∃ j o, b = .arr j ∧ w.objs[j]? = some o ∧ o.len = 1 := by
  have ho : ∃ i, check m w f outTy u1 u2 a b = some i ∧ i.over = true := by
    unfold compute at h
    split at h
    · cases h
    · rename_i i hi
      refine ⟨i, hi, ?_⟩
      split at h <;> exact h
  obtain ⟨i, hi, hov⟩ := ho
  cases a with
  | scal s =>
    cases b with
    | scal s' =>
      simp only [check, Option.bind_eq_some_iff, Option.map_eq_some_iff] at hi
      obtain ⟨_, _, _, _, rfl⟩ := hi
      cases hov
    | arr j =>
      simp only [check, Option.bind_eq_some_iff, Option.map_eq_some_iff] at hi
      obtain ⟨_, _, _, _, rfl⟩ := hi
      cases hov
  | arr k =>
    cases b with
    | scal s' =>
      simp only [check, Option.bind_eq_some_iff, Option.map_eq_some_iff] at hi
      obtain ⟨_, _, _, _, rfl⟩ := hi
      cases hov
    | arr j =>
      simp only [check] at hi
      split at hi
      · rename_i o1 o2 _ h2
        refine ⟨j, o2, rfl, h2, ?_⟩
        unfold twoArrays at hi
        split at hi
        · cases hi
        · split at hi
          · simp only [Option.map_eq_some_iff] at hi
            obtain ⟨_, _, rfl⟩ := hi
            cases hov
          · split at hi
            · simp only [Option.bind_eq_some_iff, Option.map_eq_some_iff] at hi
              obtain ⟨_, _, _, _, rfl⟩ := hi
              cases hov
            · split at hi
              · rename_i h
                exact h.1
              · cases hi
      · cases hi

omit [Inhabited V] in
/-- What readying an input does to the objects. -/
theorem ready_objs (w : World V) (x : Item V S) :
    ((ready w x).1 = w ∧ ∀ r d, (ready w x).2 = some (r, d) → d = none) ∨
      ∃ ty vals, x = .other (some (ty, vals)) ∧ (ready w x).1.objs = w.objs ++ [{ ty := ty, blk := w.mem.length, off := 0, len := vals.length, fast := false }] ∧
        (ready w x).2 = some (.arr w.objs.length, some w.objs.length) := by
  cases x with
  | arr i => exact .inl ⟨rfl, by rintro r d h; cases h; rfl⟩
  | scal s => exact .inl ⟨rfl, by rintro r d h; cases h; rfl⟩
  | other made => cases made with
    | none => exact .inl ⟨rfl, by rintro r d h; cases h⟩
    | some p => exact .inr ⟨p.1, p.2, rfl, rfl, rfl⟩

omit [Inhabited V] in
/-- The objects after a temporary array is released. -/
theorem release_get (w : World V) (d : Option Nat) (k : Nat) : (release w d).objs[k]? = (w.objs[k]?).map fun o => if d = some k then { o with refs := o.refs - 1 } else o := by
  cases d with
  | none => simp [release]
  | some r =>
    simp only [release, decref, List.getElem?_modify, Option.some.injEq]
    rfl

/-- What the objects are after a call without an output: those of before, then the arrays numpy made, released, then the result; the array of the second input is not released where
`toDelete2` was written over. -/
theorem items_objs (m : Math V S) (w : World V) (flat : Nat → Bool) (f outTy : Int) (exc : Bool) (a b : Item V S) (hb : ∀ ty v, b ≠ .other (some (ty, [v]))) (k : Nat) (o : Obj)
    (h : (items m w flat f outTy exc a b none).world.objs[k]? = some o) : w.objs[k]? = some o ∨ (w.objs.length ≤ k ∧ (o.refs = 0 ∨ (items m w flat f outTy exc a b none).res = .obj k)) := by
  unfold items at h ⊢
  rcases hra : ready w a with ⟨w1, r1⟩
  have h1 := ready_objs w a
  rw [hra] at h1 h
  cases r1 with
  | none =>
    simp only at h1 h
    rcases h1 with ⟨rfl, -⟩ | ⟨_, _, -, -, h1⟩
    · exact .inl h
    · cases h1
  | some p =>
    obtain ⟨a', d1⟩ := p
    simp only at h1 h ⊢
    rcases hrb : ready w1 b with ⟨w2, r2⟩
    have h2 := ready_objs w1 b
    rw [hrb] at h2 h
    cases r2 with
    | none =>
      simp only at h2 h ⊢
      rcases h2 with ⟨rfl, -⟩ | ⟨_, _, -, -, h2⟩
      · have h' : (release w2 d1).objs[k]? = some o := h
        rw [release_get] at h'
        rcases h1 with ⟨rfl, hd⟩ | ⟨ty, vals, -, ho, he⟩
        · rw [hd a' d1 rfl] at h'
          left
          simpa using h'
        · injection he with he
          injection he with he he'
          subst he'
          rw [ho] at h'
          grind
      · cases h2
    | some q =>
      obtain ⟨b', d2⟩ := q
      simp only at h2 h ⊢
      rw [release_get, release_get] at h
      have hc := compute_objs m w2 flat f outTy exc (mayUp (none : Option Given).isSome true a) (mayUp (none : Option Given).isSome false b) a' b'
      have hov := compute_over m w2 flat f outTy exc (mayUp (none : Option Given).isSome true a) (mayUp (none : Option Given).isSome false b) a' b' none
      generalize compute m w2 flat f outTy exc (mayUp (none : Option Given).isSome true a) (mayUp (none : Option Given).isSome false b) a' b' none = r at h hc hov ⊢
      have hd1 : (w1 = w ∧ d1 = none) ∨ (∃ x : Obj, x.refs = 1 ∧ w1.objs = w.objs ++ [x] ∧ d1 = some w.objs.length) := by
        rcases h1 with ⟨e, hd⟩ | ⟨ty, vals, -, ho, he⟩
        · exact .inl ⟨e, hd a' d1 rfl⟩
        · injection he with he
          injection he with he he'
          exact .inr ⟨_, rfl, ho, he'⟩
      have hd2 : (w2 = w1 ∧ d2 = none) ∨ (∃ x : Obj, x.refs = 1 ∧ w2.objs = w1.objs ++ [x] ∧ d2 = some w1.objs.length ∧ r.2 = false) := by
        rcases h2 with ⟨e, hd⟩ | ⟨ty, vals, hbe, ho, he⟩
        · exact .inl ⟨e, hd b' d2 rfl⟩
        · injection he with he
          injection he with he he'
          refine .inr ⟨_, rfl, ho, he', ?_⟩
          cases hr : r.2 with
          | false => rfl
          | true =>
            obtain ⟨j, oj, hj, hoj, hl⟩ := hov hr
            rw [he] at hj
            injection hj with hj
            subst hj
            rw [ho, List.getElem?_concat_length] at hoj
            injection hoj with hoj
            subst hoj
            simp only at hl
            match vals, hl with
            | [v], _ => exact absurd hbe (hb ty v)
      clear h1 h2 hov hra hrb hb
      rcases hd1 with ⟨rfl, rfl⟩ | ⟨x, hx, hw1, rfl⟩ <;> rcases hd2 with ⟨rfl, rfl⟩ | ⟨y, hy, hw2, rfl, hr⟩ <;> rcases hc with hc | ⟨z, hc, hz⟩ <;> grind

/-- **A call without an output leaves all objects as they were**, and what is new and still held afterwards is the result only: the arrays numpy made are released. This fails where the
second input is a list of one item; see `twoInputs_list_leaks_wrong`. -/
theorem twoInputs_objects_partial (m : Math V S) (w : World V) (flat : Nat → Bool) (a b : Item V S) (hb : ∀ ty v, b ≠ .other (some (ty, [v]))) (f ot : Num) (k : Nat) (o : Obj)
    (h : (twoInputs m w flat (some (.items a b none, f, ot))).world.objs[k]? = some o) (hr : o.refs ≠ 0) :
    w.objs[k]? = some o ∨ (w.objs.length ≤ k ∧ (twoInputs m w flat (some (.items a b none, f, ot))).res = .obj k) := by
  rcases items_objs m w flat _ _ _ a b hb k o h with h | ⟨h, h' | h'⟩
  · exact .inl h
  · exact absurd h' hr
  · exact .inr ⟨h, h'⟩

/-- Every object of before is there afterwards as it was. -/
theorem twoInputs_keeps (m : Math V S) (w : World V) (flat : Nat → Bool) (a b : Item V S) (f ot : Num) (k : Nat) (o : Obj) (h : w.objs[k]? = some o) :
    (twoInputs m w flat (some (.items a b none, f, ot))).world.objs[k]? = some o := by
  have hl : k < w.objs.length := by
    rcases List.getElem?_eq_some_iff.1 h with ⟨hl, -⟩
    exact hl
  have hready : ∀ (w' : World V) (x : Item V S) (w'' : World V) (p : Option (Ready S × Option Nat)), ready w' x = (w'', p) → w.objs.length ≤ w'.objs.length → w'.objs[k]? = some o →
      w''.objs[k]? = some o ∧ w.objs.length ≤ w''.objs.length ∧ ∀ r d, p = some (r, d) → d ≠ some k := by
    intro w' x w'' p hx hle ho
    have := ready_objs w' x
    rw [hx] at this
    rcases this with ⟨e, hd⟩ | ⟨ty, vals, -, e, hp⟩
    · simp only at e hd
      subst e
      exact ⟨ho, hle, fun r d hp => by rw [hd r d hp]; simp⟩
    · simp only at e hp
      refine ⟨?_, by rw [e]; simp; omega, ?_⟩
      · rw [e, List.getElem?_append_left (by omega)]
        exact ho
      · rintro r d rfl
        injection hp with hp
        injection hp with _ hp
        rw [hp]
        simp
        omega
  simp only [twoInputs, items]
  rcases hra : ready w a with ⟨w1, r1⟩
  obtain ⟨k1, l1, d1⟩ := hready w a w1 r1 hra (Nat.le_refl _) h
  cases r1 with
  | none => exact k1
  | some p =>
    obtain ⟨a', e1⟩ := p
    simp only
    rcases hrb : ready w1 b with ⟨w2, r2⟩
    obtain ⟨k2, l2, d2⟩ := hready w1 b w2 r2 hrb l1 k1
    have n1 := d1 a' e1 rfl
    cases r2 with
    | none =>
      show (release w2 e1).objs[k]? = some o
      rw [release_get, k2]
      simp [n1]
    | some q =>
      obtain ⟨b', e2⟩ := q
      have n2 := d2 b' e2 rfl
      simp only
      rw [release_get, release_get]
      have hc := compute_objs m w2 flat (toInt (asLong f).1) (toInt (asLong ot).1) ((asLong f).2 || (asLong ot).2) (mayUp (none : Option Given).isSome true a) (mayUp (none : Option Given).isSome false b) a' b'
      have hk : (compute m w2 flat (toInt (asLong f).1) (toInt (asLong ot).1) ((asLong f).2 || (asLong ot).2) (mayUp (none : Option Given).isSome true a) (mayUp (none : Option Given).isSome false b) a' b' none).1.world.objs[k]? = some o := by
        rcases hc with hc | ⟨z, hc, -⟩
        · rw [hc]; exact k2
        · rw [hc, List.getElem?_append_left (by omega)]; exact k2
      rw [hk]
      simp only [Option.map_some, n1, if_false]
      rw [if_neg]
      split
      · simp
      · exact n2

end Riptide.Hook.Two
