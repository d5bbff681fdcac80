import Verif.Hook.TwoProps
/-! # Where `BasicMathTwoInputs` goes wrong -/
namespace Riptide.Hook.Two
open Spec

variable {V S : Type} [Inhabited V]

/-- **A tuple of another size returns `None` with an exception set**, which Python reports as an error of the interpreter. -/
theorem twoInputs_size_wrong (m : Math V S) (w : World V) (flat : Nat → Bool) (n : Nat) (f o : Num) : ¬ Proper (twoInputs m w flat (some (.size n, f, o))) := by
  simp [twoInputs, Proper]

/-- **So does an input of which numpy makes no array**, first or second. -/
theorem twoInputs_other_wrong (m : Math V S) (w : World V) (flat : Nat → Bool) (a b : Item V S) (out : Option Given) (f o : Num) (h : ¬ Usable a ∨ ¬ Usable b) :
    ¬ Proper (twoInputs m w flat (some (.items a b out, f, o))) := by
  have hn : ∀ (w : World V) (x : Item V S), ¬ Usable x → (ready w x).2 = none := by
    intro w x hx
    cases x with
    | arr i => exact absurd (fun m h => by cases h) hx
    | scal s => exact absurd (fun m h => by cases h) hx
    | other made => cases made with
      | none => rfl
      | some p => exact absurd (fun m h => by cases h; rfl) hx
  simp only [twoInputs, items]
  split
  · simp [Proper]
  · rename_i w1 a' d1 hra
    have ha : Usable a := Classical.byContradiction fun hc => by
      have := hn w a hc
      rw [hra] at this
      cases this
    have hb := h.resolve_left (fun hc => hc ha)
    split
    · simp [Proper]
    · rename_i hrb
      have := hn w1 b hb
      rw [hrb] at this
      cases this

/-- An exception which was set before is still set at the end. -/
theorem items_exc (m : Math V S) (w : World V) (flat : Nat → Bool) (f outTy : Int) (a b : Item V S) (out : Option Given) : (items m w flat f outTy true a b out).exc = true := by
  have hfin : ∀ r : World V × Res, (finish true r).exc = true := by
    rintro ⟨w, r⟩
    cases r <;> rfl
  unfold items
  split
  · rfl
  · split
    · rfl
    · simp only [compute]
      split
      · rfl
      · split
        · exact hfin _
        · exact hfin _

/-- **A type of the output which is no number sets an exception, and the result is returned nevertheless**: whatever the call, if something is returned it is not proper. -/
theorem twoInputs_number_wrong (m : Math V S) (w : World V) (flat : Nat → Bool) (a b : Item V S) (out : Option Given) (f : Num) {o : Num} (ho : ¬ IsNum o) (r : Nat)
    (h : (twoInputs m w flat (some (.items a b out, f, o))).res = .obj r) : ¬ Proper (twoInputs m w flat (some (.items a b out, f, o))) := by
  have h1 : (asLong o).2 = true := by
    cases h : (asLong o).2 with
    | false => exact absurd (asLong_num.1 h) ho
    | true => rfl
  have he : (twoInputs m w flat (some (.items a b out, f, o))).exc = true := by
    simp only [twoInputs, h1, Bool.or_true]
    exact items_exc ..
  simp [Proper, h, he]

/-- **Two scalars give an array without elements** of the type of the function, instead of the result. -/
theorem twoInputs_scalars_wrong (m : Math V S) (w : World V) (ho : w.oom = []) (flat : Nat → Bool) (s s' : S) {f ot : Int} (hf : 0 ≤ f ∧ f < 2 ^ 31) (hot : 0 ≤ ot ∧ ot < 2 ^ 31) {v v' : V}
    (hv : m.scal s ot = some v) (hv' : m.scal s' ot = some v') {t : Nat} {g : V → V → V} (hk : m.kernel f 3 ot ot ot = some (t, g)) (val : Nat → V) :
    IsNew w (twoInputs m w flat (some (.items (.scal s) (.scal s') none, .int f, .int ot))) t 0 val := by
  have hb : ∀ n : Int, 0 ≤ n ∧ n < 2 ^ 31 → asLong (.int n) = (n, false) ∧ toInt n = n := by
    intro n hn
    refine ⟨if_pos (by omega), ?_⟩
    unfold toInt
    rw [Int.bmod_def]
    omega
  simp only [twoInputs, (hb f hf).1, (hb ot hot).1, (hb f hf).2, (hb ot hot).2, items, ready, Bool.or_self]
  have hc : check m w f ot (mayUp (V := V) (S := S) (none : Option Given).isSome true (.scal s)) (mayUp (V := V) (S := S) (none : Option Given).isSome false (.scal s')) (.scal s) (.scal s') =
      some ⟨3, scalInp 0 v, scalInp 0 v', ot, ot, false⟩ := by
    simp [check, hv, hv']
  obtain ⟨r, o, e1, e2, e3, e4, e5, e6, e7, e8⟩ := compute_new m w ho flat f ot _ _ _ _ hc hk
  refine ⟨r, o, e1, e2, e3, ?_, e5, e6, e7, ?_⟩
  · simpa [release] using e4
  · simp only [release, ite_self] at e8 ⊢
    exact e8

/-- Scalars of the examples: whole numbers, floats counted in halves, and texts with the bytes at their begin read as a number. -/
inductive Sc where
  | int (n : Int)
  | float (halves : Int)
  | text (raw : Int)

/-- The addition for int64 (9) and float64 (12), with elements counted in halves; a float becomes a whole number toward zero, and a text is not looked at, `src/RipTide.cpp:1233-1300`. -/
def adding : Math Int Sc where
  kernel f _ t1 _ _ := if f = 1 then some (t1.toNat, fun a b => a + b) else none
  cast _ _ v := v
  up _ s t := match s with
    | .int _ => some t
    | .float _ => some 12
    | .text _ => none
  scal s t := match s with
    | .int n => some (2 * n)
    | .float h => if t = 12 then some h else some (2 * (h.tdiv 2))
    | .text r => some (2 * r)
  pair _ a b := some (max a b, max a b)
  upOne _ a b := some (max a b, max a b)
  one _ _ v := some v

/-- A world with an array of the whole numbers 1 and 2, and an output of two zeros. -/
def before : World Int := ⟨[⟨9, 0, 0, 2, 1, true, 1⟩, ⟨9, 1, 0, 2, 1, true, 1⟩], [[2, 4], [0, 0]], 0, []⟩

/-- The elements of the result, and whether an exception is set. -/
def seen (a : Ans Int) : Option (Nat × List Int) × Bool :=
  (match a.res with
    | .obj r => (a.world.objs[r]?).map fun o => (o.ty, valsOf a.world o)
    | _ => none, a.exc)

/-- **A float before a list is cut to a whole number; after the list, and with an array, it is not**: 1.5 + [1, 2] is [2, 3], and [1, 2] + 1.5 is [2.5, 3.5]. -/
theorem twoInputs_scalar_list_wrong :
    seen (twoInputs adding before (fun _ => false) (some (.items (.scal (.float 3)) (.other (some (9, [2, 4]))) none, .int 1, .int 12))) = (some (9, [4, 6]), false) ∧
    seen (twoInputs adding before (fun _ => false) (some (.items (.other (some (9, [2, 4]))) (.scal (.float 3)) none, .int 1, .int 12))) = (some (12, [5, 7]), false) ∧
    seen (twoInputs adding before (fun _ => false) (some (.items (.scal (.float 3)) (.arr 0) none, .int 1, .int 12))) = (some (12, [5, 7]), false) := by
  refine ⟨?_, ?_, ?_⟩ <;> decide +kernel

/-- **With an output the bytes of a text are added as a number**; without one the call is left to numpy. -/
theorem twoInputs_text_wrong :
    seen (twoInputs adding before (fun _ => false) (some (.items (.arr 0) (.scal (.text 97)) (some (.arr 1)), .int 1, .int 9))) = (some (9, [196, 198]), false) ∧
    (twoInputs adding before (fun _ => false) (some (.items (.arr 0) (.scal (.text 97)) none, .int 1, .int 9))).res = .none := by
  refine ⟨?_, ?_⟩ <;> decide +kernel

/-- **Two scalars with an output leave it as it is** and give it back as the result. -/
theorem twoInputs_scalars_output_wrong :
    seen (twoInputs adding before (fun _ => false) (some (.items (.scal (.int 3)) (.scal (.int 4)) (some (.arr 1)), .int 1, .int 9))) = (some (9, [0, 0]), false) := by decide +kernel

/-- **The array made of a list of one item is never released**, if the first input is converted. -/
theorem twoInputs_list_leaks_wrong :
    ((twoInputs adding before (fun _ => false) (some (.items (.arr 0) (.other (some (12, [3]))) none, .int 1, .int 12))).world.objs[2]?).map Obj.refs = some 1 ∧
    (twoInputs adding before (fun _ => false) (some (.items (.arr 0) (.other (some (12, [3]))) none, .int 1, .int 12))).res = .obj 3 ∧
    ((twoInputs adding before (fun _ => false) (some (.items (.other (some (12, [3]))) (.arr 0) none, .int 1, .int 12))).world.objs[2]?).map Obj.refs = some 0 := by
  refine ⟨?_, ?_, ?_⟩ <;> decide +kernel

/-- **An output without dimensions is read through a null pointer** if its type is the wanted one and its single item suffices: exactly then, of all outputs. -/
theorem intoOutput_crash_wrong (w : World V) (flat : Bool) (g : V → V → V) (x y : Inp V) (r : Nat) (o : Obj) : (intoOutput w flat g x y r o).2 = .crash ↔ flat = true ∧ x.len ≤ o.len ∧ y.len ≤ o.len := by
  unfold intoOutput
  by_cases h : o.len < x.len ∨ o.len < y.len
  · rw [if_pos h]
    simp only [reduceCtorEq, false_iff]
    omega
  · rw [if_neg h]
    cases flat with
    | true =>
      simp only [if_true, true_and, true_iff]
      omega
    | false =>
      simp only [Bool.false_eq_true, if_false, false_and, iff_false]
      split
      · simp
      · split <;> simp

/-- An example: the sum of two numbers into such an output. -/
theorem twoInputs_flat_wrong :
    (twoInputs adding ⟨[⟨9, 0, 0, 1, 1, true, 1⟩], [[0]], 0, []⟩ (fun _ => true) (some (.items (.scal (.int 3)) (.scal (.int 4)) (some (.arr 0)), .int 1, .int 9))).res = .crash := by decide +kernel

/-- A third item which is no array raises, but only where there is a function. -/
theorem twoInputs_output_other :
    (twoInputs adding before (fun _ => false) (some (.items (.arr 0) (.arr 0) (some .other), .int 1, .int 9))).res = .null ∧
    (twoInputs adding before (fun _ => false) (some (.items (.arr 0) (.arr 0) (some .other), .int 2, .int 9))).res = .none := by
  refine ⟨?_, ?_⟩ <;> decide +kernel

/-! ### The theorems speak of something -/

example : seen (twoInputs adding before (fun _ => false) (some (.items (.arr 0) (.arr 0) none, .int 1, .int 9))) = (some (9, [4, 8]), false) := by decide +kernel
example : seen (twoInputs adding before (fun _ => false) (some (.items (.arr 0) (.arr 0) none, .int 4294967297, .int 9))) = (some (9, [4, 8]), false) := by decide +kernel
example : seen (twoInputs adding before (fun _ => false) (some (.items (.arr 0) (.arr 0) none, .int 1, .other))) = (some (9, [4, 8]), true) := by decide +kernel
example : IsNum (.int 1) := ⟨1, rfl, by decide, by decide⟩
example : ¬ IsNum .other := by rintro ⟨n, h, -⟩; cases h
example : before.oom = [] ∧ adding.pair 1 9 9 = some (9, 9) ∧ (adding.kernel 1 0 9 9 9).isSome := ⟨rfl, rfl, rfl⟩
example : adding.up 1 (.float 3) 9 = some 12 ∧ adding.scal (.float 3) 12 = some 3 := ⟨rfl, rfl⟩
example : ∀ d t1 t2 o, adding.kernel (-1) d t1 t2 o = none := fun _ _ _ _ => rfl
example : ¬ Usable (.other none : Item Int Sc) := fun h => by have := h none rfl; cases this

end Riptide.Hook.Two
