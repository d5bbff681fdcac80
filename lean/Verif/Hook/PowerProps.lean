import Verif.Hook.Props
/-! # Powers of arrays -/
namespace Riptide.Hook
open Riptide.Binary (Mode)
variable {V S : Type} [Inhabited V]

theorem modify_last {α : Type} (l : List α) (a : α) (g : α → α) : (l ++ [a]).modify l.length g = l ++ [g a] := by
  induction l with
  | nil => rfl
  | cons x l ih => simp [List.modify_succ_cons, ih]

omit [Inhabited V] in
theorem patch_all (l vs : List V) (h : vs.length = l.length) : patch l 0 vs = vs := by
  apply List.ext_getElem
  · simp [patch, h]
  · intro i h1 h2; simp [patch, List.getD, h2]

/-- The square: a new array behind the others. -/
def withSquare (w : World V) (ty refs : Nat) (vs : List V) : World V :=
  ⟨w.objs ++ [{ ty := ty, blk := w.mem.length, off := 0, len := vs.length, refs := refs }], w.mem ++ [vs], w.nones, []⟩

theorem square_step (m : Math V S) (w : World V) (self : Nat) (o : Obj) (f : V → V → V) (h : w.objs[self]? = some o) (d : o.Dense)
    (hp : m.pair .mul o.ty o.ty = some (o.ty, o.ty)) (hk : m.kernel .mul .none o.ty o.ty = some (o.ty, f)) (hm : w.oom = []) :
    basicMath m w .mul (.arr self) (.arr self) none = (withSquare w o.ty 1 ((valsOf w o).map fun v => f v v), .obj w.objs.length) := by
  have c := toCommon_vals m w o o.ty
  have hz : results f (toCommon m (fill w o) o.ty) (toCommon m (fill w o) o.ty) = (valsOf w o).map fun v => f v v := by
    have hs : seenAs m o.ty o.ty = id := by funext v; simp [seenAs]
    rw [results_two f _ _ o.len c.2.2 c.2.2 (by simp [c.1, valsOf_length]) (by simp [c.1, valsOf_length]), c.1, hs, List.map_id,
      List.zipWith_self]
  simp only [basicMath, checkInputs, h, twoArrays_same m w .mul o o o.ty o.ty d d rfl hp, c.2.1, hk, outputs, Option.bind_none, intoNew, hz,
    allocArr_ok w _ _ hm, withSquare]

omit [Inhabited V] in
theorem square_get (w : World V) (ty refs : Nat) (vs : List V) :
    (withSquare w ty refs vs).objs[w.objs.length]? = some { ty := ty, blk := w.mem.length, off := 0, len := vs.length, refs := refs } := by
  simp [withSquare]

theorem square_vals (w : World V) (ty refs refs' : Nat) (vs : List V) :
    valsOf (withSquare w ty refs vs) { ty := ty, blk := w.mem.length, off := 0, len := vs.length, refs := refs' } = vs := valsOf_new ..

/-- The multiplication in place with an array which is the square itself or lies elsewhere. -/
theorem product_step (m : Math V S) (w : World V) (j : Nat) (ty : Nat) (vs us : List V) (o : Obj) (f : V → V → V)
    (h : (withSquare w ty 1 vs).objs[j]? = some o) (d : o.Dense) (ht : o.ty = ty) (hl : o.len = vs.length)
    (hv : valsOf (withSquare w ty 1 vs) o = us) (ho : o.blk ≠ w.mem.length ∨ o.off = 0)
    (hp : m.pair .mul ty ty = some (ty, ty)) (hk : m.kernel .mul .none ty ty = some (ty, f)) :
    basicMath m (withSquare w ty 1 vs) .mul (.arr w.objs.length) (.arr j) (some w.objs.length) =
      (withSquare w ty 2 (List.zipWith f vs us), .obj w.objs.length) := by
  have sd : ({ ty := ty, blk := w.mem.length, off := 0, len := vs.length, refs := 1 } : Obj).Dense := Or.inr rfl
  have us_len : us.length = vs.length := by rw [← hv, valsOf_length, hl]
  have c1 := toCommon_vals m (withSquare w ty 1 vs) { ty := ty, blk := w.mem.length, off := 0, len := vs.length, refs := 1 } ty
  have c2 := toCommon_vals m (withSquare w ty 1 vs) o ty
  have hs : seenAs m ty ty = id := by funext v; simp [seenAs]
  rw [ht, hs, List.map_id, hv] at c2
  rw [hs, List.map_id, square_vals] at c1
  have hz : results f (toCommon m (fill (withSquare w ty 1 vs) { ty := ty, blk := w.mem.length, off := 0, len := vs.length, refs := 1 }) ty)
      (toCommon m (fill (withSquare w ty 1 vs) o) ty) = List.zipWith f vs us := by
    rw [results_two f _ _ vs.length c1.2.2 (by rw [c2.2.2, hl]) (by rw [c1.1]) (by rw [c2.1, us_len]), c1.1, c2.1]
  have hpl : ∀ (q : Obj), (toCommon m (fill (withSquare w ty 1 vs) q) ty).place = some (q.blk, q.off) ∨
      (toCommon m (fill (withSquare w ty 1 vs) q) ty).place = none := by
    intro q; unfold toCommon convert fill; dsimp only
    split
    · exact Or.inl rfl
    · split
      · exact Or.inl rfl
      · exact Or.inr rfl
  have ov1 : overlaps (toCommon m (fill (withSquare w ty 1 vs) { ty := ty, blk := w.mem.length, off := 0, len := vs.length, refs := 1 }) ty)
      { ty := ty, blk := w.mem.length, off := 0, len := vs.length, refs := 1 } = false := by
    unfold overlaps
    rcases hpl { ty := ty, blk := w.mem.length, off := 0, len := vs.length, refs := 1 } with e | e <;> rw [e]
    simp [c1.2.2]
  have ov2 : overlaps (toCommon m (fill (withSquare w ty 1 vs) o) ty)
      { ty := ty, blk := w.mem.length, off := 0, len := vs.length, refs := 1 } = false := by
    unfold overlaps
    rcases hpl o with e | e <;> rw [e]
    rcases ho with hb | hb
    · simp [hb]
    · simp [hb, c2.2.2, hl]
  have st : strided { ty := ty, blk := w.mem.length, off := 0, len := vs.length, refs := 1 } = false := strided_false.2 sd
  have i1 : basicMath m (withSquare w ty 1 vs) .mul (.arr w.objs.length) (.arr j) (some w.objs.length) =
      intoOutput (withSquare w ty 1 vs) f
        (toCommon m (fill (withSquare w ty 1 vs) { ty := ty, blk := w.mem.length, off := 0, len := vs.length, refs := 1 }) ty)
        (toCommon m (fill (withSquare w ty 1 vs) o) ty) w.objs.length
        { ty := ty, blk := w.mem.length, off := 0, len := vs.length, refs := 1 } := by
    simp only [basicMath, checkInputs, square_get, h,
      twoArrays_same m (withSquare w ty 1 vs) .mul { ty := ty, blk := w.mem.length, off := 0, len := vs.length, refs := 1 } o ty ty sd d hl.symm
        (by rw [ht]; exact hp), c1.2.1, c2.2.1, hk, outputs, Option.bind_some, Option.map_some, ne_eq, not_true, if_false]
  rw [i1]
  unfold intoOutput
  rw [if_neg (by rw [c1.2.2, c2.2.2, st]; simp [hl])]
  simp only [ov1, ov2, hz]
  have e1 : store (incref (withSquare w ty 1 vs) w.objs.length)
      { ty := ty, blk := w.mem.length, off := 0, len := vs.length, refs := 1 } (List.zipWith f vs us) =
      withSquare w ty 2 (List.zipWith f vs us) := by
    have hlen : (List.zipWith f vs us).length = vs.length := by simp [us_len]
    simp only [store, incref, withSquare, modify_last, patch_all vs _ hlen, hlen]
  simp [e1, asFast, square_get]

omit [Inhabited V] in
theorem decref_square (w : World V) (ty : Nat) (vs : List V) : decref (withSquare w ty 2 vs) w.objs.length = withSquare w ty 1 vs := by
  simp [decref, withSquare, modify_last]

theorem square_new (w : World V) (ty : Nat) (vs : List V) : NewArray w (withSquare w ty 1 vs) w.objs.length ty vs :=
  ⟨rfl, rfl, _, rfl, rfl, rfl, rfl, rfl, square_vals ..⟩

/-! ## Small powers -/

/-- `x ** 2`, `x ** 3` and `x ** 4` give a new array with the powers of the elements and one reference; the multiplications in place
which the code does not check never fail. -/
theorem small_powers (m : Math V S) (w : World V) (self : Nat) (b : Arg S) (n : Int) (o : Obj) (f : V → V → V)
    (hn : n = 2 ∨ n = 3 ∨ n = 4) (h : w.objs[self]? = some o) (d : o.Dense) (hi : o.Inside w.mem)
    (hp : m.pair .mul o.ty o.ty = some (o.ty, o.ty)) (hk : m.kernel .mul .none o.ty o.ty = some (o.ty, f)) (hm : w.oom = []) :
    ∃ w' r, power m w self b (some n) false = (w', .obj r) ∧ NewArray w w' r o.ty ((valsOf w o).map (powerOf f n)) := by
  have hs := square_step m w self o f h d hp hk hm
  have hlt : self < w.objs.length := by
    rcases Nat.lt_or_ge self w.objs.length with q | q
    · exact q
    · rw [List.getElem?_eq_none q] at h; cases h
  have hblk : o.blk < w.mem.length := by
    obtain ⟨l, hl, -⟩ := hi
    rcases Nat.lt_or_ge o.blk w.mem.length with q | q
    · exact q
    · rw [List.getElem?_eq_none q] at hl; cases hl
  have step : ∀ k, k ≠ 1 → k = n → power m w self b (some k) false =
      (match smallPower m w self k with
        | (w, some r) => (w, r)
        | (w, none) => binary m w .power (.arr self) b) := by
    intro k h1 hk'
    subst hk'
    unfold power
    split
    · contradiction
    · split
      · rename_i e; injection e with e; exact absurd e h1
      · rename_i e; injection e with e; subst e; rw [if_pos hn]; rfl
      · contradiction
  rcases hn with rfl | rfl | rfl
  · refine ⟨withSquare w o.ty 1 ((valsOf w o).map fun v => f v v), w.objs.length, ?_, ?_⟩
    · rw [step 2 (by decide) rfl]
      simp only [smallPower, hs]
      rfl
    · have : powerOf f (2 : Int) = fun v => f v v := by funext v; simp [powerOf]
      rw [this]
      exact square_new ..
  · have hv : valsOf (withSquare w o.ty 1 ((valsOf w o).map fun v => f v v)) o = valsOf w o := valsOf_old _ _ _ _ _ w o rfl hi
    have hps := product_step m w self o.ty ((valsOf w o).map fun v => f v v) (valsOf w o) o f
      (by simp [withSquare, List.getElem?_append_left hlt, h]) d rfl (by simp [valsOf_length]) hv (Or.inl (by omega)) hp hk
    refine ⟨withSquare w o.ty 1 ((valsOf w o).map (powerOf f 3)), w.objs.length, ?_, square_new ..⟩
    rw [step 3 (by decide) rfl]
    simp only [smallPower, hs, higher, hps]
    have e : List.zipWith f ((valsOf w o).map fun v => f v v) (valsOf w o) = (valsOf w o).map (powerOf f 3) := by
      rw [List.zipWith_map_left, List.zipWith_self]
      rfl
    rw [e, decref_square]
    rfl
  · have hps := product_step m w w.objs.length o.ty ((valsOf w o).map fun v => f v v) ((valsOf w o).map fun v => f v v)
      { ty := o.ty, blk := w.mem.length, off := 0, len := ((valsOf w o).map fun v => f v v).length, refs := 1 } f
      (square_get ..) (Or.inr rfl) rfl rfl (square_vals ..) (Or.inr rfl) hp hk
    refine ⟨withSquare w o.ty 1 ((valsOf w o).map (powerOf f 4)), w.objs.length, ?_, square_new ..⟩
    rw [step 4 (by decide) rfl]
    simp only [smallPower, hs, higher, hps]
    have e : List.zipWith f ((valsOf w o).map fun v => f v v) ((valsOf w o).map fun v => f v v) = (valsOf w o).map (powerOf f 4) := by
      rw [List.zipWith_self, List.map_map]
      rfl
    rw [e, decref_square]
    rfl

example := small_powers numbers (sample []) 0 (.scal 3) 3 _ (exactly .mul) (by decide) rfl (Or.inr rfl) ⟨_, rfl, by decide⟩ rfl rfl rfl

/-- `x ** 1` is `x` itself: there is no new array, so that writing into the result changes `x`. -/
theorem power_one_is_the_array_itself (m : Math V S) (w : World V) (self : Nat) (b : Arg S) :
    power m w self b (some 1) false = (incref w self, .obj self) ∧ (incref w self).objs.length = w.objs.length ∧
      ¬ ∃ ty vals, self < w.objs.length ∧ NewArray w (incref w self) self ty vals := by
  refine ⟨rfl, by simp [incref], ?_⟩
  rintro ⟨ty, vals, h, hr, -⟩
  omega

example := power_one_is_the_array_itself numbers (sample []) 0 (.scal 1)

/-- Out of memory: `x ** 2` raises an exception, but `x ** 3` and `x ** 4` follow a null pointer. -/
theorem powers_crash_without_memory (m : Math V S) (w : World V) (self : Nat) (b : Arg S) (n : Int) (o : Obj) (f : V → V → V)
    (rest : List Bool) (hn : n = 2 ∨ n = 3 ∨ n = 4) (h : w.objs[self]? = some o) (d : o.Dense)
    (hp : m.pair .mul o.ty o.ty = some (o.ty, o.ty)) (hk : m.kernel .mul .none o.ty o.ty = some (o.ty, f)) (hm : w.oom = false :: rest) :
    (power m w self b (some n) false).2 = if n = 2 then .null else .crash := by
  have c := toCommon_vals m w o o.ty
  have hs : basicMath m w .mul (.arr self) (.arr self) none = ({ w with oom := rest }, .null) := by
    simp only [basicMath, checkInputs, h, twoArrays_same m w .mul o o o.ty o.ty d d rfl hp, c.2.1, hk, outputs, Option.bind_none, intoNew,
      allocArr, hm]
  rcases hn with rfl | rfl | rfl <;> simp [power, smallPower, hs]

example := powers_crash_without_memory numbers (sample [false]) 0 (.scal 3) 3 _ (exactly .mul) [] (by decide) rfl (Or.inr rfl) rfl rfl rfl

/-- Other exponents, and those which are not Python integers, go to the calculation `power`; with a modulus all is left to numpy. -/
theorem other_powers (m : Math V S) (w : World V) (self : Nat) (b : Arg S) (e : Option Int)
    (h : ∀ n, e = some n → n ≠ 1 ∧ n ≠ 2 ∧ n ≠ 3 ∧ n ≠ 4) :
    power m w self b e false = binary m w .power (.arr self) b ∧ power m w self b e true = (w, .numpy) := by
  refine ⟨?_, rfl⟩
  cases e with
  | none => rfl
  | some n =>
    have := h n rfl
    unfold power
    split
    · contradiction
    · split
      · rename_i q; injection q with q; exact absurd q this.1
      · rename_i q; injection q with q; subst q; rw [if_neg (by omega)]
      · contradiction

example := other_powers numbers (sample []) 0 (.scal 5) (some 5) (by intro n h; cases h; decide)

end Riptide.Hook
