import Verif.Quick.Model
import Verif.Sort.Lemmas
/-! Changes confined to a segment, and the partition of quicksort. -/
namespace Riptide.Quick
open Riptide.Sort (wr)
open Riptide.Sort.Spec (Weak)

variable {α : Type} {P : α → Prop} {lt : α → α → Bool}

/-- `b` is `a` with the elements of `[l, r)` in another order. -/
structure SegOp (l r : Nat) (a b : List α) : Prop where
  len : b.length = a.length
  out : ∀ p : Nat, p < l ∨ r ≤ p → b[p]? = a[p]?
  perm : b.Perm a

theorem SegOp.refl (l r : Nat) (a : List α) : SegOp l r a a := ⟨rfl, fun _ _ => rfl, List.Perm.refl a⟩

theorem SegOp.trans {l r : Nat} {a b c : List α} (h1 : SegOp l r a b) (h2 : SegOp l r b c) : SegOp l r a c :=
  ⟨h2.len.trans h1.len, fun p hp => (h2.out p hp).trans (h1.out p hp), h2.perm.trans h1.perm⟩

theorem SegOp.mono {l r l' r' : Nat} {a b : List α} (h : SegOp l r a b) (hl : l' ≤ l) (hr : r ≤ r') :
    SegOp l' r' a b := ⟨h.len, fun p hp => h.out p (by omega), h.perm⟩

theorem getD_some (a : List α) (d : α) {i : Nat} (h : i < a.length) : a[i]? = some (a.getD i d) := by
  rw [List.getD_eq_getElem?_getD, List.getElem?_eq_getElem h]; rfl

theorem getD_set (a : List α) (d x : α) {i : Nat} (h : i < a.length) (j : Nat) :
    (a.set i x).getD j d = if i = j then x else a.getD j d := by
  rw [List.getD_eq_getElem?_getD, List.getElem?_set]
  by_cases e : i = j
  · rw [if_pos e, if_pos e, if_pos (by omega)]; rfl
  · rw [if_neg e, if_neg e, List.getD_eq_getElem?_getD]

theorem SegOp.getD_out {l r : Nat} {a b : List α} (h : SegOp l r a b) (d : α) {p : Nat} (hp : p < l ∨ r ≤ p) :
    b.getD p d = a.getD p d := by
  rw [List.getD_eq_getElem?_getD, List.getD_eq_getElem?_getD, h.out p hp]

/-- Every element of the segment was in the segment. -/
theorem SegOp.getD_in {l r : Nat} {a b : List α} (h : SegOp l r a b) (d : α) (hr : r ≤ a.length) {i : Nat}
    (h1 : l ≤ i) (h2 : i < r) : ∃ k, l ≤ k ∧ k < r ∧ b.getD i d = a.getD k d := by
  have split : ∀ c : List α, c = c.take l ++ ((c.drop l).take (r - l) ++ c.drop r) := by
    intro c
    have : c.drop r = (c.drop l).drop (r - l) := by rw [List.drop_drop]; congr 1; omega
    rw [this, List.take_append_drop, List.take_append_drop]
  have e1 : b.take l = a.take l := by
    apply List.ext_getElem?
    intro p
    rw [List.getElem?_take, List.getElem?_take]
    by_cases hp : p < l
    · rw [if_pos hp, if_pos hp, h.out p (.inl hp)]
    · rw [if_neg hp, if_neg hp]
  have e2 : b.drop r = a.drop r := by
    apply List.ext_getElem?
    intro p
    rw [List.getElem?_drop, List.getElem?_drop, h.out (r + p) (.inr (by omega))]
  have hp := h.perm
  rw [split b, split a, e1, e2, List.perm_append_left_iff, List.perm_append_right_iff] at hp
  have hm : b.getD i d ∈ (b.drop l).take (r - l) := by
    rw [List.mem_iff_getElem?]
    refine ⟨i - l, ?_⟩
    rw [List.getElem?_take, if_pos (by omega), List.getElem?_drop, show l + (i - l) = i by omega,
      getD_some b d (by have := h.len; omega)]
  have hm' := hp.mem_iff.1 hm
  rw [List.mem_iff_getElem?] at hm'
  obtain ⟨k, hk⟩ := hm'
  rw [List.getElem?_take] at hk
  by_cases hkl : k < r - l
  · rw [if_pos hkl, List.getElem?_drop, getD_some a d (by omega)] at hk
    exact ⟨l + k, by omega, by omega, (Option.some.inj hk).symm⟩
  · rw [if_neg hkl] at hk; cases hk

theorem set_swap_perm (a : List α) (d : α) (p q : Nat) (hp : p < a.length) (hq : q < a.length) :
    ((a.set p (a.getD q d)).set q (a.getD p d)).Perm a := by
  have e1 : a.getD q d = a[q] := by rw [List.getD_eq_getElem?_getD, List.getElem?_eq_getElem hq]; rfl
  have e2 : a.getD p d = a[p] := by rw [List.getD_eq_getElem?_getD, List.getElem?_eq_getElem hp]; rfl
  rw [e1, e2]
  have := Array.swap_perm (xs := a.toArray) (i := p) (j := q) (by simpa using hp) (by simpa using hq)
  have h2 := this.toList
  simpa [Array.swap] using h2

/-- Swapping two elements. -/
theorem swap_spec (a : List α) (d : α) (p q : Nat) (hp : p < a.length) (hq : q < a.length) :
    ∃ b, swap a p q = some b ∧ b.length = a.length ∧
      (∀ i, b.getD i d = if i = q then a.getD p d else if i = p then a.getD q d else a.getD i d) ∧
      ∀ l r, l ≤ p → p < r → l ≤ q → q < r → SegOp l r a b := by
  refine ⟨(a.set p (a.getD q d)).set q (a.getD p d), ?_, by simp, fun i => ?_, fun l r h1 h2 h3 h4 => ?_⟩
  · unfold swap
    rw [getD_some a d hp, Option.bind_some, getD_some a d hq]; rfl
  · rw [getD_set _ d _ (by simpa using hq), getD_set _ d _ hp]
    by_cases e : q = i
    · rw [if_pos e, if_pos e.symm]
    · rw [if_neg e, if_neg (Ne.symm e)]
      by_cases e' : p = i
      · rw [if_pos e', if_pos e'.symm]
      · rw [if_neg e', if_neg (Ne.symm e')]
  · refine ⟨by simp, fun i hi => ?_, set_swap_perm a d p q hp hq⟩
    rw [List.getElem?_set_ne (by omega), List.getElem?_set_ne (by omega)]

/-- `order` puts two elements in order. -/
theorem order_spec (a : List α) (d : α) (p q : Nat) (hp : p < a.length) (hq : q < a.length) :
    ∃ b, order lt a p q = some b ∧ b.length = a.length ∧
      (∀ i, b.getD i d = if lt (a.getD p d) (a.getD q d) then
        (if i = q then a.getD p d else if i = p then a.getD q d else a.getD i d) else a.getD i d) ∧
      ∀ l r, l ≤ p → p < r → l ≤ q → q < r → SegOp l r a b := by
  unfold order
  rw [getD_some a d hp, Option.bind_some, getD_some a d hq, Option.bind_some]
  by_cases h : lt (a.getD p d) (a.getD q d) = true
  · rw [if_pos h]
    obtain ⟨b, h1, h2, h3, h4⟩ := swap_spec a d p q hp hq
    exact ⟨b, h1, h2, fun i => by rw [if_pos h]; exact h3 i, h4⟩
  · rw [if_neg h]
    exact ⟨a, rfl, rfl, fun i => by rw [if_neg h], fun l r _ _ _ _ => SegOp.refl l r a⟩

/-- All elements have `P`. -/
def AllP (P : α → Prop) (a : List α) : Prop := ∀ x ∈ a, P x

theorem AllP.getD {a : List α} (h : AllP P a) (d : α) {i : Nat} (hi : i < a.length) : P (a.getD i d) :=
  h _ (by rw [List.mem_iff_getElem?]; exact ⟨i, getD_some a d hi⟩)

theorem AllP.perm {a b : List α} (h : AllP P a) (hp : b.Perm a) : AllP P b :=
  fun x hx => h x (hp.mem_iff.1 hx)

/-- The median of three: first, middle and last element in order. -/
theorem median_spec (W : Weak P lt) (a : List α) (d : α) (hP : AllP P a) (l m r : Nat) (h1 : l < m) (h2 : m < r)
    (h3 : r < a.length) :
    ∃ b, ((order lt a m l).bind fun a => (order lt a r m).bind fun a => order lt a m l) = some b ∧
      b.length = a.length ∧ SegOp l (r + 1) a b ∧
      lt (b.getD m d) (b.getD l d) = false ∧ lt (b.getD r d) (b.getD m d) = false := by
  obtain ⟨b, e1, l1, g1, s1⟩ := order_spec (lt := lt) a d m l (by omega) (by omega)
  obtain ⟨c, e2, l2, g2, s2⟩ := order_spec (lt := lt) b d r m (by omega) (by omega)
  obtain ⟨f, e3, l3, g3, s3⟩ := order_spec (lt := lt) c d m l (by omega) (by omega)
  have Pl := hP.getD d (show l < a.length by omega)
  have Pm := hP.getD d (show m < a.length by omega)
  have Pr := hP.getD d (show r < a.length by omega)
  refine ⟨f, by rw [e1, Option.bind_some, e2, Option.bind_some, e3], by omega,
    ((s1 _ _ (by omega) (by omega) (by omega) (by omega)).trans
      (s2 _ _ (by omega) (by omega) (by omega) (by omega))).trans
      (s3 _ _ (by omega) (by omega) (by omega) (by omega)), ?_⟩
  have gl := g1 l; have gm := g1 m; have gr := g1 r
  have gl2 := g2 l; have gm2 := g2 m; have gr2 := g2 r
  have gl3 := g3 l; have gm3 := g3 m; have gr3 := g3 r
  simp only [if_true, if_neg (show ¬ m = l by omega), if_neg (show ¬ r = l by omega), if_neg (show ¬ r = m by omega),
    if_neg (show ¬ l = m by omega), if_neg (show ¬ l = r by omega), if_neg (show ¬ m = r by omega)] at gl gm gr gl2 gm2 gr2 gl3 gm3 gr3
  rw [gl3, gm3, gr3]
  -- abstract the values
  generalize a.getD l d = x at *
  generalize a.getD m d = y at *
  generalize a.getD r d = z at *
  generalize f.getD l d = fl at *
  generalize f.getD m d = fm at *
  generalize f.getD r d = fr at *
  have asxy := W.asymm y x Pm Pl
  have t := W.trans
  have as := W.asymm
  cases hxy : lt y x with
  | true =>
    rw [hxy] at gl gm gr
    simp only [if_true] at gl gm gr
    have hyx := as y x Pm Pl hxy
    rw [gl] at gl2; rw [gm] at gm2 gl2 gr2; rw [gr] at gr2 gm2 gl2
    cases hzx : lt z x with
    | true =>
      rw [hzx] at gl2 gm2 gr2
      simp only [if_true] at gl2 gm2 gr2
      rw [gl2, gm2, gr2]
      have hxz := as z x Pr Pl hzx
      cases hzy : lt z y with
      | true => simpa [hyx] using as z y Pr Pm hzy
      | false => simpa [hzy] using hxz
    | false =>
      rw [hzx] at gl2 gm2 gr2
      simp only [if_false, Bool.false_eq_true] at gl2 gm2 gr2
      rw [gl2, gm2, gr2]
      simp [hyx, hzx]
  | false =>
    rw [hxy] at gl gm gr
    simp only [if_false, Bool.false_eq_true] at gl gm gr
    rw [gl] at gl2; rw [gm] at gm2 gl2 gr2; rw [gr] at gr2 gm2 gl2
    cases hzy : lt z y with
    | true =>
      rw [hzy] at gl2 gm2 gr2
      simp only [if_true] at gl2 gm2 gr2
      rw [gl2, gm2, gr2]
      have hyz := as z y Pr Pm hzy
      cases hzx : lt z x with
      | true => simpa [hxy] using as z x Pr Pl hzx
      | false => simpa [hzx] using hyz
    | false =>
      rw [hzy] at gl2 gm2 gr2
      simp only [if_false, Bool.false_eq_true] at gl2 gm2 gr2
      rw [gl2, gm2, gr2]
      simp [hxy, hzy]

end Riptide.Quick
