import Verif.Sort.Spec
/-! # Facts about stable sorts of lists -/
namespace Riptide.Sort
open Spec

variable {α : Type} {P : α → Prop} {lt : α → α → Bool}

theorem Spec.Weak.irrefl (W : Weak P lt) {x : α} (hx : P x) : lt x x = false := by
  cases h : lt x x with
  | false => rfl
  | true => rw [← h]; exact W.asymm x x hx hx h

theorem Spec.Weak.lt_of_lt_of_le (W : Weak P lt) {x y z : α} (hx : P x) (hy : P y) (hz : P z)
    (h1 : lt x y = true) (h2 : lt z y = false) : lt x z = true := by
  cases h : lt x z with
  | true => rfl
  | false =>
    -- z ≤ x? lt x z = false means z ≤ x; y ≤ z; so y ≤ x: lt x y = false
    have := W.trans y z x hy hz hx h2 h
    rw [h1] at this; simp at this

theorem Spec.Weak.lt_of_le_of_lt (W : Weak P lt) {x y z : α} (hx : P x) (hy : P y) (hz : P z)
    (h1 : lt y x = false) (h2 : lt y z = true) : lt x z = true := by
  cases h : lt x z with
  | true => rfl
  | false =>
    have := W.trans z x y hz hx hy h h1
    rw [h2] at this; simp at this

theorem tie_iff {x y : α} : tie lt x y = true ↔ lt x y = false ∧ lt y x = false := by
  unfold tie; cases lt x y <;> cases lt y x <;> simp

theorem tie_self (W : Weak P lt) {x : α} (hx : P x) : tie lt x x = true :=
  tie_iff.mpr ⟨W.irrefl hx, W.irrefl hx⟩

/-- Two tied elements are tied with the same elements. -/
theorem tie_trans (W : Weak P lt) {x y z : α} (hx : P x) (hy : P y) (hz : P z)
    (h1 : tie lt z x = true) (h2 : tie lt z y = true) : tie lt x y = true := by
  obtain ⟨a, b⟩ := tie_iff.mp h1
  obtain ⟨c, d⟩ := tie_iff.mp h2
  exact tie_iff.mpr ⟨W.trans y z x hy hz hx c b, W.trans x z y hx hz hy a d⟩

/-- The stable sort of a list is unique. -/
theorem stable_unique (W : Weak P lt) : ∀ {s t : List α}, (∀ x ∈ s, P x) → s.Perm t →
    s.Pairwise (fun x y => lt y x = false) → t.Pairwise (fun x y => lt y x = false) →
    (∀ z ∈ s, s.filter (tie lt z) = t.filter (tie lt z)) → s = t
  | [], t, _, hp, _, _, _ => (List.nil_perm.mp hp).symm
  | x :: s, [], _, hp, _, _, _ => by simp at hp
  | x :: s, y :: t, hP, hp, hs, ht, hf => by
    have hx : P x := hP x (by simp)
    have hymem : y ∈ x :: s := hp.mem_iff.mpr (by simp)
    have hxmem : x ∈ y :: t := hp.mem_iff.mp (by simp)
    have hy : P y := hP y hymem
    have h1 : lt y x = false := by
      rcases List.mem_cons.mp hymem with h | h
      · rw [h]; exact W.irrefl hx
      · exact (List.pairwise_cons.mp hs).1 y h
    have h2 : lt x y = false := by
      rcases List.mem_cons.mp hxmem with h | h
      · rw [h]; exact W.irrefl hy
      · exact (List.pairwise_cons.mp ht).1 x h
    have hfx := hf x (by simp)
    rw [List.filter_cons_of_pos (tie_self W hx), List.filter_cons_of_pos (tie_iff.mpr ⟨h2, h1⟩)] at hfx
    have hxy : x = y := (List.cons.inj hfx).1
    subst hxy
    congr 1
    apply stable_unique W (fun z hz => hP z (by simp [hz])) ((List.perm_cons x).mp hp)
      (List.pairwise_cons.mp hs).2 (List.pairwise_cons.mp ht).2
    intro z hz
    have := hf z (by simp [hz])
    rw [List.filter_cons, List.filter_cons] at this
    split at this
    · exact (List.cons.inj this).2
    · exact this

theorem Spec.StableSort.unique (W : Weak P lt) {xs s t : List α} (hP : ∀ x ∈ xs, P x)
    (hs : StableSort lt xs s) (ht : StableSort lt xs t) : s = t :=
  stable_unique W (fun x hx => hP x (hs.perm.mem_iff.mp hx)) (hs.perm.trans ht.perm.symm) hs.sorted ht.sorted
    fun z hz => (hs.stable z (hs.perm.mem_iff.mp hz)).trans (ht.stable z (hs.perm.mem_iff.mp hz)).symm

theorem Spec.StableSort.refl {xs : List α} (h : xs.Pairwise fun x y => lt y x = false) : StableSort lt xs xs :=
  ⟨.refl _, h, fun _ _ => rfl⟩

theorem Spec.StableSort.mem {xs s : List α} (h : StableSort lt xs s) {x : α} : x ∈ s ↔ x ∈ xs := h.perm.mem_iff

theorem Spec.StableSort.length {xs s : List α} (h : StableSort lt xs s) : s.length = xs.length := h.perm.length_eq

/-- Merging: the right element is taken only if it is less. -/
def lmerge (lt : α → α → Bool) : List α → List α → List α
  | [], ys => ys
  | x :: xs, [] => x :: xs
  | x :: xs, y :: ys => if lt y x then y :: lmerge lt (x :: xs) ys else x :: lmerge lt xs (y :: ys)
termination_by xs ys => xs.length + ys.length

@[simp] theorem lmerge_nil (xs : List α) : lmerge lt xs [] = xs := by cases xs <;> simp [lmerge]

@[simp] theorem nil_lmerge (ys : List α) : lmerge lt [] ys = ys := by simp [lmerge]

theorem lmerge_perm (xs ys : List α) : (lmerge lt xs ys).Perm (xs ++ ys) := by
  induction xs, ys using lmerge.induct (lt := lt) with
  | case1 ys => simp
  | case2 x xs => simp
  | case3 x xs y ys h ih =>
    unfold lmerge
    rw [if_pos h]
    exact (ih.cons y).trans List.perm_middle.symm
  | case4 x xs y ys h ih =>
    unfold lmerge
    rw [if_neg h]
    exact ih.cons x

theorem lmerge_sorted (W : Weak P lt) (xs ys : List α) (hP : ∀ x ∈ xs ++ ys, P x)
    (hx : xs.Pairwise fun x y => lt y x = false) (hy : ys.Pairwise fun x y => lt y x = false) :
    (lmerge lt xs ys).Pairwise fun x y => lt y x = false := by
  induction xs, ys using lmerge.induct (lt := lt) with
  | case1 ys => simpa using hy
  | case2 x xs => simpa using hx
  | case3 x xs y ys h ih =>
    unfold lmerge
    rw [if_pos h]
    have ih := ih (fun z hz => hP z (by simp at hz ⊢; grind)) hx (List.pairwise_cons.mp hy).2
    refine List.pairwise_cons.mpr ⟨fun z hz => ?_, ih⟩
    have hz := (lmerge_perm _ _).mem_iff.mp hz
    have hPx := hP x (by simp)
    have hPy := hP y (by simp)
    rcases List.mem_append.mp hz with hz' | hz'
    · have hPz := hP z (by simp at hz' ⊢; grind)
      rcases List.mem_cons.mp hz' with rfl | hz''
      · exact W.asymm y z hPy hPz h
      · exact W.asymm y z hPy hPz (W.lt_of_lt_of_le hPy hPx hPz h ((List.pairwise_cons.mp hx).1 z hz''))
    · exact (List.pairwise_cons.mp hy).1 z hz'
  | case4 x xs y ys h ih =>
    unfold lmerge
    rw [if_neg h]
    have h : lt y x = false := by simpa using h
    have ih := ih (fun z hz => hP z (by simp at hz ⊢; grind)) (List.pairwise_cons.mp hx).2 hy
    refine List.pairwise_cons.mpr ⟨fun z hz => ?_, ih⟩
    have hz := (lmerge_perm _ _).mem_iff.mp hz
    have hPx := hP x (by simp)
    have hPy := hP y (by simp)
    rcases List.mem_append.mp hz with hz' | hz'
    · exact (List.pairwise_cons.mp hx).1 z hz'
    · have hPz := hP z (by simp at hz' ⊢; grind)
      rcases List.mem_cons.mp hz' with rfl | hz''
      · exact h
      · exact W.trans x y z hPx hPy hPz h ((List.pairwise_cons.mp hy).1 z hz'')

theorem lmerge_filter (W : Weak P lt) (xs ys : List α) (hP : ∀ x ∈ xs ++ ys, P x)
    (hx : xs.Pairwise fun x y => lt y x = false) (hy : ys.Pairwise fun x y => lt y x = false) {z : α} (hz : P z) :
    (lmerge lt xs ys).filter (tie lt z) = xs.filter (tie lt z) ++ ys.filter (tie lt z) := by
  induction xs, ys using lmerge.induct (lt := lt) with
  | case1 ys => simp
  | case2 x xs => simp
  | case3 x xs y ys h ih =>
    have ih := ih (fun z hz => hP z (by simp at hz ⊢; grind)) hx (List.pairwise_cons.mp hy).2
    unfold lmerge
    rw [if_pos h]
    have hPx := hP x (by simp)
    have hPy := hP y (by simp)
    cases hzy : tie lt z y with
    | false => rw [List.filter_cons_of_neg (by simp [hzy]), List.filter_cons_of_neg (a := y) (by simp [hzy]), ih]
    | true =>
      have hnil : (x :: xs).filter (tie lt z) = [] := by
        rw [List.filter_eq_nil_iff]
        intro s hs hzs
        have hPs := hP s (by simp at hs ⊢; grind)
        have hys : lt y s = true := by
          rcases List.mem_cons.mp hs with rfl | hs'
          · exact h
          · exact W.lt_of_lt_of_le hPy hPx hPs h ((List.pairwise_cons.mp hx).1 s hs')
        have := (tie_iff.mp (tie_trans W hPy hPs hz hzy hzs)).1
        rw [hys] at this; simp at this
      rw [hnil] at ih ⊢
      rw [List.filter_cons_of_pos hzy, List.filter_cons_of_pos hzy, ih]; rfl
  | case4 x xs y ys h ih =>
    have ih := ih (fun z hz => hP z (by simp at hz ⊢; grind)) (List.pairwise_cons.mp hx).2 hy
    unfold lmerge
    rw [if_neg h, List.filter_cons, ih, List.filter_cons (xs := xs)]
    split <;> simp

/-- Stability for every value, not only those in the list. -/
theorem Spec.StableSort.stable_all (W : Weak P lt) {xs s : List α} (hP : ∀ x ∈ xs, P x) (hs : StableSort lt xs s)
    {z : α} (hz : P z) : s.filter (tie lt z) = xs.filter (tie lt z) := by
  by_cases hzx : ∃ u ∈ xs, tie lt z u = true
  · obtain ⟨u, hu, hzu⟩ := hzx
    have := hs.stable u hu
    have hPu := hP u hu
    have hcong : ∀ l : List α, (∀ x ∈ l, P x) → l.filter (tie lt z) = l.filter (tie lt u) := by
      intro l hl
      apply List.filter_congr
      intro x hx
      have hzu' : tie lt u z = true := by obtain ⟨a, b⟩ := tie_iff.mp hzu; exact tie_iff.mpr ⟨b, a⟩
      cases h1 : tie lt z x with
      | true => exact (tie_trans W hPu (hl x hx) hz hzu h1).symm
      | false =>
        cases h2 : tie lt u x with
        | false => rfl
        | true =>
          have := tie_trans W hz (hl x hx) hPu hzu' h2
          rw [h1] at this; simp at this
    rw [hcong s (fun x hx => hP x (hs.mem.mp hx)), hcong xs hP, this]
  · have hn : ∀ u ∈ xs, ¬ tie lt z u = true := fun u hu h => hzx ⟨u, hu, h⟩
    rw [List.filter_eq_nil_iff.mpr hn, List.filter_eq_nil_iff.mpr fun u hu => hn u (hs.mem.mp hu)]

/-- Merging stably sorted parts gives the stable sort of the whole. -/
theorem lmerge_stable (W : Weak P lt) {xs ys s t : List α} (hP : ∀ x ∈ xs ++ ys, P x) (hs : StableSort lt xs s)
    (ht : StableSort lt ys t) : StableSort lt (xs ++ ys) (lmerge lt s t) := by
  have hP' : ∀ x ∈ s ++ t, P x := by
    intro x hx
    rcases List.mem_append.mp hx with h | h
    · exact hP x (List.mem_append_left _ (hs.mem.mp h))
    · exact hP x (List.mem_append_right _ (ht.mem.mp h))
  refine ⟨(lmerge_perm s t).trans (hs.perm.append ht.perm), lmerge_sorted W s t hP' hs.sorted ht.sorted, ?_⟩
  intro z hz
  rw [lmerge_filter W s t hP' hs.sorted ht.sorted (hP z hz), List.filter_append,
    hs.stable_all W (fun x hx => hP x (List.mem_append_left _ hx)) (hP z hz),
    ht.stable_all W (fun x hx => hP x (List.mem_append_right _ hx)) (hP z hz)]

/-- When nothing on the right is less than anything on the left, merging is appending. -/
theorem lmerge_append (xs ys : List α) (h : ∀ x ∈ xs, ∀ y ∈ ys, lt y x = false) : lmerge lt xs ys = xs ++ ys := by
  induction xs with
  | nil => simp
  | cons x xs ih =>
    cases ys with
    | nil => simp
    | cons y ys =>
      unfold lmerge
      rw [if_neg (by simp [h x (by simp) y (by simp)]), ih fun x hx y hy => h x (by simp [hx]) y hy]
      rfl

end Riptide.Sort
