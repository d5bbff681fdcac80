import Verif.Hook.TwoWrong
import Verif.Hook.InPlaceProps
/-! # More of `BasicMathTwoInputs`: scalars before arrays, and arrays of a single item -/
namespace Riptide.Hook.Two
open Riptide.Hook Spec

variable {V S : Type} [Inhabited V]

omit [Inhabited V] in
/-- Small numbers are taken as they are. -/
theorem num_small {n : Int} (hn : 0 ≤ n ∧ n < 2 ^ 31) : asLong (.int n) = (n, false) ∧ toInt n = n := by
  refine ⟨if_pos (by omega), ?_⟩
  unfold toInt
  rw [Int.bmod_def]
  omega

/-- **A scalar and an array after it give a new array**, as an array and a scalar after it do, with the inputs of the function in their order. -/
theorem twoInputs_scalar_first (m : Math V S) (w : World V) (ho : w.oom = []) (flat : Nat → Bool) {j : Nat} {o2 : Obj} (h2 : w.objs[j]? = some o2) (hs : o2.len ≤ 1 ∨ o2.step = 1) (s : S)
    {f ot : Int} (hf : 0 ≤ f ∧ f < 2 ^ 31) (hot : 0 ≤ ot ∧ ot < 2 ^ 31) {u t : Nat} {v : V} {g : V → V → V} (hu : m.up f s o2.ty = some u) (hv : m.scal s u = some v) (hk : m.kernel f 1 u u ot = some (t, g)) :
    IsNew w (twoInputs m w flat (some (.items (.scal s) (.arr j) none, .int f, .int ot))) t o2.len
      fun k => g v (if o2.ty = u then (valsOf w o2).getD k default else m.cast o2.ty u ((valsOf w o2).getD k default)) := by
  simp only [twoInputs, (num_small hf).1, (num_small hot).1, (num_small hf).2, (num_small hot).2, items, ready, Bool.or_self]
  have hn : ¬ strided o2 = true := by
    simp only [strided, Bool.and_eq_true, decide_eq_true_eq]
    omega
  have hc : check m w f ot (mayUp (V := V) (S := S) false true (.scal s)) (mayUp (V := V) (S := S) false false (.arr j)) (.scal s) (.arr j) =
      some ⟨1, scalInp u v, convert m (fill w o2) u, u, u, false⟩ := by
    have e : mayUp (V := V) (S := S) false false (.arr j) = true := rfl
    simp only [check, h2, Option.bind_some, withScal, e, if_true, hu]
    rw [if_neg (fun h => hn h.2), hv]
    simp [(convert_shape m w o2 u).2]
  have := compute_new m w ho flat f ot _ _ _ _ hc hk
  obtain ⟨r, o, e1, e2, e3, e4, e5, e6, e7, e8⟩ := this
  simp only [(convert_shape m w o2 u).1, scalInp, Nat.zero_max] at e6 e8
  refine ⟨r, o, e1, e2, e3, ?_, e5, e6, e7, ?_⟩
  · simpa [release] using e4
  · simp only [release, ite_self] at e8 ⊢
    refine e8.trans ?_
    apply List.map_congr_left
    intro k hk
    rw [convert_at m w o2 u k (List.mem_range.1 hk)]
    rfl

/-- **An array and an array of a single item after it**: the item is next to every element; both are converted to the types of the table. -/
theorem twoInputs_single_after (m : Math V S) (w : World V) (ho : w.oom = []) (flat : Nat → Bool) {i j : Nat} {o1 o2 : Obj} (h1 : w.objs[i]? = some o1) (h2 : w.objs[j]? = some o2) (hl : o2.len = 1) (hl1 : 2 ≤ o1.len)
    (hs : o1.step = 1) {f ot : Int} (hf : 0 ≤ f ∧ f < 2 ^ 31) (hot : 0 ≤ ot ∧ ot < 2 ^ 31) {t1 t2 t : Nat} {v : V} {g : V → V → V} (hp : m.upOne f o1.ty o2.ty = some (t1, t2))
    (hv : m.one o2.ty t2 ((valsOf w o2).getD 0 default) = some v) (hk : m.kernel f 2 t1 t2 ot = some (t, g)) :
    IsNew w (twoInputs m w flat (some (.items (.arr i) (.arr j) none, .int f, .int ot))) t o1.len
      fun k => g (if o1.ty = t1 then (valsOf w o1).getD k default else m.cast o1.ty t1 ((valsOf w o1).getD k default)) v := by
  simp only [twoInputs, (num_small hf).1, (num_small hot).1, (num_small hf).2, (num_small hot).2, items, ready, Bool.or_self]
  have hn : ¬ (strided o1 = true ∨ strided o2 = true) := by
    simp only [strided, Bool.and_eq_true, decide_eq_true_eq]
    omega
  have hc : check m w f ot (mayUp (V := V) (S := S) false true (.arr i)) (mayUp (V := V) (S := S) false false (.arr j)) (.arr i) (.arr j : Ready S) =
      some ⟨2, convert m (fill w o1) t1, scalInp t2 v, t1, t2, decide (o1.ty ≠ t1)⟩ := by
    simp only [check, h1, h2, twoArrays]
    rw [if_neg hn, if_neg (by omega), if_neg (by omega), if_pos (by omega), hp]
    simp only [Option.bind_some, hv, Option.map_some]
  have := compute_new m w ho flat f ot _ _ _ _ hc hk
  obtain ⟨r, o, e1, e2, e3, e4, e5, e6, e7, e8⟩ := this
  simp only [(convert_shape m w o1 t1).1, scalInp, Nat.max_zero] at e6 e8
  refine ⟨r, o, e1, e2, e3, ?_, e5, e6, e7, ?_⟩
  · simpa [release] using e4
  · simp only [release, ite_self] at e8 ⊢
    refine e8.trans ?_
    apply List.map_congr_left
    intro k hk
    rw [convert_at m w o1 t1 k (List.mem_range.1 hk)]
    rfl

/-- **An array of a single item and an array after it.** -/
theorem twoInputs_single_before (m : Math V S) (w : World V) (ho : w.oom = []) (flat : Nat → Bool) {i j : Nat} {o1 o2 : Obj} (h1 : w.objs[i]? = some o1) (h2 : w.objs[j]? = some o2) (hl : o1.len = 1) (hl2 : 2 ≤ o2.len)
    (hs : o2.step = 1) {f ot : Int} (hf : 0 ≤ f ∧ f < 2 ^ 31) (hot : 0 ≤ ot ∧ ot < 2 ^ 31) {t1 t2 t : Nat} {v : V} {g : V → V → V} (hp : m.upOne f o1.ty o2.ty = some (t1, t2))
    (hv : m.one o1.ty t1 ((valsOf w o1).getD 0 default) = some v) (hk : m.kernel f 1 t1 t2 ot = some (t, g)) :
    IsNew w (twoInputs m w flat (some (.items (.arr i) (.arr j) none, .int f, .int ot))) t o2.len
      fun k => g v (if o2.ty = t2 then (valsOf w o2).getD k default else m.cast o2.ty t2 ((valsOf w o2).getD k default)) := by
  simp only [twoInputs, (num_small hf).1, (num_small hot).1, (num_small hf).2, (num_small hot).2, items, ready, Bool.or_self]
  have hn : ¬ (strided o1 = true ∨ strided o2 = true) := by
    simp only [strided, Bool.and_eq_true, decide_eq_true_eq]
    omega
  have hc : check m w f ot (mayUp (V := V) (S := S) false true (.arr i)) (mayUp (V := V) (S := S) false false (.arr j)) (.arr i) (.arr j : Ready S) =
      some ⟨1, scalInp t1 v, convert m (fill w o2) t2, t1, t2, false⟩ := by
    simp only [check, h1, h2, twoArrays]
    rw [if_neg hn, if_neg (by omega), if_pos (by omega), hp]
    simp only [Option.bind_some, hv, Option.map_some]
  have := compute_new m w ho flat f ot _ _ _ _ hc hk
  obtain ⟨r, o, e1, e2, e3, e4, e5, e6, e7, e8⟩ := this
  simp only [(convert_shape m w o2 t2).1, scalInp, Nat.zero_max] at e6 e8
  refine ⟨r, o, e1, e2, e3, ?_, e5, e6, e7, ?_⟩
  · simpa [release] using e4
  · simp only [release, ite_self] at e8 ⊢
    refine e8.trans ?_
    apply List.map_congr_left
    intro k hk
    rw [convert_at m w o2 t2 k (List.mem_range.1 hk)]
    rfl

/-- **Arrays of two lengths of which none is one are left to numpy**, and no exception is set; with an output too, which is not written. -/
theorem twoInputs_lengths (m : Math V S) (w : World V) (flat : Nat → Bool) {i j : Nat} {o1 o2 : Obj} (h1 : w.objs[i]? = some o1) (h2 : w.objs[j]? = some o2) (hl : o1.len ≠ o2.len) (hl1 : o1.len ≠ 1) (hl2 : o2.len ≠ 1)
    (out : Option Given) {f ot : Int} (hf : 0 ≤ f ∧ f < 2 ^ 31) (hot : 0 ≤ ot ∧ ot < 2 ^ 31) :
    twoInputs m w flat (some (.items (.arr i) (.arr j) out, .int f, .int ot)) = ⟨increfNone w, .none, false⟩ := by
  simp only [twoInputs, (num_small hf).1, (num_small hot).1, (num_small hf).2, (num_small hot).2, items, ready, Bool.or_self]
  have hc : ∀ u1 u2, check m w f ot u1 u2 (.arr i) (.arr j : Ready S) = none := by
    intro u1 u2
    simp only [check, h1, h2, twoArrays]
    split
    · rfl
    · rw [if_neg (fun h => hl1 h.1), if_neg (fun h => hl2 h.1)]
  unfold compute
  simp only [hc, release]
  rfl

/-- **With an output of the type and the length of the result the elements are written into it**, if it is not the memory of an input, and it is what comes back; everything outside of it stays
as it was. -/
theorem twoInputs_output (m : Math V S) (w : World V) (flat : Nat → Bool) {i j r : Nat} {o1 o2 o : Obj} (h1 : w.objs[i]? = some o1) (h2 : w.objs[j]? = some o2) (h3 : w.objs[r]? = some o) (hl : o1.len = o2.len)
    (hlo : o.len = o1.len) (hs : o1.len ≤ 1 ∨ o1.step = 1 ∧ o2.step = 1) (hd : o.Dense) (hi : o.Inside w.mem) (hfast : o.fast = true) (hflat : flat r = false) (hb1 : o1.blk ≠ o.blk) (hb2 : o2.blk ≠ o.blk)
    {f ot : Int} (hf : 0 ≤ f ∧ f < 2 ^ 31) (hot : 0 ≤ ot ∧ ot < 2 ^ 31) {t1 t2 : Nat} {g : V → V → V} (hp : m.pair f o1.ty o2.ty = some (t1, t2)) (hk : m.kernel f 0 t1 t2 ot = some (o.ty, g)) :
    (twoInputs m w flat (some (.items (.arr i) (.arr j) (some (.arr r)), .int f, .int ot))).res = .obj r ∧ (twoInputs m w flat (some (.items (.arr i) (.arr j) (some (.arr r)), .int f, .int ot))).exc = false ∧
    valsOf (twoInputs m w flat (some (.items (.arr i) (.arr j) (some (.arr r)), .int f, .int ot))).world o =
      ((List.range o.len).map fun (k : Nat) => g (conv m o1.ty t1 ((valsOf w o1).getD k default)) (conv m o2.ty t2 ((valsOf w o2).getD k default))) ∧
    ∀ b k : Nat, b ≠ o.blk ∨ k < o.off ∨ o.off + o.len ≤ k →
      ((twoInputs m w flat (some (.items (.arr i) (.arr j) (some (.arr r)), .int f, .int ot))).world.mem[b]?).bind (·[k]?) = (w.mem[b]?).bind (·[k]?) := by
  have hc : ∀ u1 u2, check m w f ot u1 u2 (.arr i) (.arr j : Ready S) = some ⟨0, toCommon m (fill w o1) t1, toCommon m (fill w o2) t2, t1, t2, false⟩ := by
    intro u1 u2
    have hn : ¬ (strided o1 = true ∨ strided o2 = true) := by
      simp only [strided, Bool.and_eq_true, decide_eq_true_eq]
      omega
    simp only [check, h1, h2, twoArrays, hl, hp, Option.map_some, if_true]
    rw [if_neg hn]
  have hplace : ∀ (q : Obj) (t : Nat), q.blk ≠ o.blk → overlaps (toCommon m (fill w q) t) o = false := by
    intro q t hq
    have hpl : (toCommon m (fill w q) t).place = some (q.blk, q.off) ∨ (toCommon m (fill w q) t).place = none := by
      unfold toCommon convert
      split
      · exact .inl rfl
      · split
        · exact .inl rfl
        · exact .inr rfl
    unfold overlaps
    rcases hpl with e | e <;> rw [e]
    simp [hq]
  have hst : strided o = false := by
    rcases hd with hd | hd
    all_goals simp [strided, hd] <;> omega
  have hvs : (results g (toCommon m (fill w o1) t1) (toCommon m (fill w o2) t2)).length = o.len := by
    simp [results, toCommon_len, ← hl, hlo]
  have hg : (store (incref w r) o (results g (toCommon m (fill w o1) t1) (toCommon m (fill w o2) t2))).objs[r]? = some { o with refs := o.refs + 1 } := by
    simp [store, incref, h3]
  have hout : outputs w flat (some (.arr r)) o.ty g (toCommon m (fill w o1) t1) (toCommon m (fill w o2) t2) = (store (incref w r) o (results g (toCommon m (fill w o1) t1) (toCommon m (fill w o2) t2)), .obj r) := by
    simp only [outputs, h3, ne_eq, not_true_eq_false, if_false, intoOutput, toCommon_len, hflat, hst, hplace o1 t1 hb1, hplace o2 t2 hb2]
    rw [if_neg (by omega), if_neg (by simp), if_neg (by simp), if_neg (by simp)]
    simp only [asFast, hg, hfast, if_true]
  have e : twoInputs m w flat (some (.items (.arr i) (.arr j) (some (.arr r)), .int f, .int ot)) =
      ⟨store (incref w r) o (results g (toCommon m (fill w o1) t1) (toCommon m (fill w o2) t2)), .obj r, false⟩ := by
    simp only [twoInputs, (num_small hf).1, (num_small hot).1, (num_small hf).2, (num_small hot).2, items, ready, Bool.or_self, compute, hc, hk, hout, finish, release, ite_self]
  rw [e]
  refine ⟨rfl, rfl, ?_, ?_⟩
  · simp only
    rw [store_incref, valsOf_store w o _ hvs hd hi]
    simp only [results, toCommon_len, ← hl, Nat.max_self, hlo]
    apply List.map_congr_left
    intro k hk
    have hk' := List.mem_range.1 hk
    rw [toCommon_at m w o1 t1 k hk', toCommon_at m w o2 t2 k (hl ▸ hk')]
  · intro b k hb
    exact store_elsewhere (incref w r) o _ hvs b k hb

/-- **A list before an array or a scalar is calculated as the array numpy makes of it**, which is released afterwards. -/
theorem twoInputs_list_first (m : Math V S) (w : World V) (flat : Nat → Bool) (ty : Nat) (vals : List V) {b : Item V S} (hb : ∀ x, b ≠ .other x) (out : Option Given) (f ot : Num) :
    twoInputs m w flat (some (.items (.other (some (ty, vals))) b out, f, ot)) =
      { twoInputs m (make w ty vals) flat (some (.items (.arr w.objs.length) b out, f, ot)) with
        world := decref (twoInputs m (make w ty vals) flat (some (.items (.arr w.objs.length) b out, f, ot))).world w.objs.length } := by
  have e : mayUp (V := V) (S := S) out.isSome true (.other (some (ty, vals))) = mayUp (V := V) (S := S) out.isSome true (.arr w.objs.length) := by
    cases out <;> rfl
  cases b with
  | arr j => simp only [twoInputs, items, ready, e, release, ite_self]
  | scal s => simp only [twoInputs, items, ready, e, release, ite_self]
  | other x => exact absurd rfl (hb x)

/-- **A list after an array is calculated as the array numpy makes of it**, and this is released unless it has one item. After a scalar it is not; see `twoInputs_scalar_list_wrong`. -/
theorem twoInputs_list_second_partial (m : Math V S) (w : World V) (flat : Nat → Bool) (ty : Nat) {vals : List V} (hv : vals.length ≠ 1) (i : Nat) (out : Option Given) (f ot : Num) :
    twoInputs m w flat (some (.items (.arr i) (.other (some (ty, vals))) out, f, ot)) =
      { twoInputs m (make w ty vals) flat (some (.items (.arr i) (.arr w.objs.length) out, f, ot)) with
        world := decref (twoInputs m (make w ty vals) flat (some (.items (.arr i) (.arr w.objs.length) out, f, ot))).world w.objs.length } := by
  have hcomp : ∀ (f outTy : Int) (exc u1 u2 u2' : Bool), compute m (make w ty vals) flat f outTy exc u1 u2 (.arr i) (.arr w.objs.length : Ready S) out =
      compute m (make w ty vals) flat f outTy exc u1 u2' (.arr i) (.arr w.objs.length : Ready S) out := by
    intro f outTy exc u1 u2 u2'
    rfl
  have hov : ∀ (f outTy : Int) (exc u1 u2 : Bool), (compute m (make w ty vals) flat f outTy exc u1 u2 (.arr i) (.arr w.objs.length : Ready S) out).2 = false := by
    intro f outTy exc u1 u2
    cases h : (compute m (make w ty vals) flat f outTy exc u1 u2 (.arr i) (.arr w.objs.length : Ready S) out).2 with
    | false => rfl
    | true =>
      obtain ⟨j, o, hj, ho, hl⟩ := compute_over m _ flat f outTy exc u1 u2 _ _ out h
      injection hj with hj
      subst hj
      rw [make, List.getElem?_concat_length] at ho
      injection ho with ho
      subst ho
      exact absurd hl hv
  simp only [twoInputs, items, ready, release, ite_self, hov, Bool.false_eq_true, if_false]
  rw [hcomp _ _ _ _ (mayUp out.isSome false (.other (some (ty, vals)) : Item V S)) (mayUp out.isSome false (.arr w.objs.length : Item V S))]

/-! ### The theorems speak of something -/

example : seen (twoInputs adding before (fun _ => false) (some (.items (.scal (.int 1)) (.arr 0) none, .int 1, .int 9))) = (some (9, [4, 6]), false) := by decide +kernel
example : seen (twoInputs adding ⟨[⟨9, 0, 0, 2, 1, true, 1⟩, ⟨12, 1, 0, 1, 1, true, 1⟩], [[2, 4], [3]], 0, []⟩ (fun _ => false) (some (.items (.arr 0) (.arr 1) none, .int 1, .int 9))) = (some (12, [5, 7]), false) := by decide +kernel
example : seen (twoInputs adding ⟨[⟨9, 0, 0, 2, 1, true, 1⟩, ⟨12, 1, 0, 1, 1, true, 1⟩], [[2, 4], [3]], 0, []⟩ (fun _ => false) (some (.items (.arr 1) (.arr 0) none, .int 1, .int 9))) = (some (12, [5, 7]), false) := by decide +kernel
example : seen (twoInputs adding before (fun _ => false) (some (.items (.arr 0) (.arr 0) (some (.arr 1)), .int 1, .int 9))) = (some (9, [4, 8]), false) := by decide +kernel
example : (⟨9, 1, 0, 2, 1, true, 1⟩ : Obj).Dense ∧ (⟨9, 1, 0, 2, 1, true, 1⟩ : Obj).Inside before.mem := ⟨.inr rfl, [0, 0], rfl, by decide⟩

/-- **An array with gaps and a scalar are left to numpy**, before or after each other, unless the array is converted: with an output it never is. -/
theorem twoInputs_gaps_scalar (m : Math V S) (w : World V) (flat : Nat → Bool) {i : Nat} {o : Obj} (h : w.objs[i]? = some o) (hl : 1 < o.len) (hs : o.step ≠ 1) (s : S) (out : Option Given)
    {f ot : Int} (hf : 0 ≤ f ∧ f < 2 ^ 31) (hot : 0 ≤ ot ∧ ot < 2 ^ 31) (hu : out = none → m.up f s o.ty = some o.ty) :
    twoInputs m w flat (some (.items (.arr i) (.scal s) out, .int f, .int ot)) = ⟨increfNone w, .none, false⟩ ∧
    twoInputs m w flat (some (.items (.scal s) (.arr i) out, .int f, .int ot)) = ⟨increfNone w, .none, false⟩ := by
  simp only [twoInputs, (num_small hf).1, (num_small hot).1, (num_small hf).2, (num_small hot).2, items, ready, Bool.or_self]
  have hn : strided o = true := by simp [strided, hl, hs]
  have hw : ∀ k : Bool, withScal m w f (mayUp (V := V) (S := S) out.isSome k (.arr i)) o s = none := by
    intro k
    cases out with
    | none => simp [withScal, mayUp, hu rfl, hn]
    | some r => simp [withScal, mayUp, hn]
  constructor
  · unfold compute
    simp only [check, h, Option.bind_some, hw, Option.map_none, release]
    rfl
  · unfold compute
    simp only [check, h, Option.bind_some, hw, Option.map_none, release]
    rfl

example : twoInputs adding ⟨[⟨9, 0, 0, 2, 2, true, 1⟩, ⟨9, 1, 0, 2, 1, true, 1⟩], [[2, 4, 6, 8], [0, 0]], 0, []⟩ (fun _ => false) (some (.items (.arr 0) (.scal (.int 3)) (some (.arr 1)), .int 1, .int 9)) =
    ⟨increfNone ⟨[⟨9, 0, 0, 2, 2, true, 1⟩, ⟨9, 1, 0, 2, 1, true, 1⟩], [[2, 4, 6, 8], [0, 0]], 0, []⟩, .none, false⟩ :=
  (twoInputs_gaps_scalar adding _ _ (i := 0) (o := ⟨9, 0, 0, 2, 2, true, 1⟩) rfl (by decide) (by decide) _ _ (by decide) (by decide) (by simp)).1

end Riptide.Hook.Two
