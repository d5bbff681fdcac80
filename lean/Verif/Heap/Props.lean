import Verif.Heap.Spec
import Verif.Heap.Lemmas
/-! The binary heap under every history (C30). -/
namespace Riptide.Heap
open Spec

/-- The invariant of a heap of capacity `max`. -/
structure Inv (max : Nat) (s : HK) : Prop where
  good : Good s.key s.h
  off : ∀ x, x ∉ s.h.es → s.h.pos x = none
  cap : s.h.es.length ≤ max

theorem inv_positions {max : Nat} {s : HK} (h : Inv max s) : Positions s.h := by
  intro x i
  constructor
  · intro hp
    by_cases hx : x ∈ s.h.es
    · obtain ⟨j, hj⟩ := List.mem_iff_getElem?.1 hx
      have := h.good.pos j x hj
      rw [hp] at this
      rw [Option.some.inj this]
      exact hj
    · rw [h.off x hx] at hp
      cases hp
  · exact h.good.pos i x

theorem ordered_heapOrder {key : Nat → Int} {es : List Nat} (h : Ordered (val key es) es.length) :
    HeapOrder key es := by
  intro i c x y hc hi hy
  have := h c (by omega) (List.getElem?_eq_some_iff.1 hy).1
  rw [show (c - 1) / 2 = i by omega, val_get hi, val_get hy] at this
  exact this

theorem pos_mem {max : Nat} {s : HK} (h : Inv max s) {x i : Nat} (hp : s.h.pos x = some i) :
    s.h.es[i]? = some x := (inv_positions h x i).1 hp

/-- Push: the element is added, unless the heap is full. -/
theorem heap_push {max : Nat} {s : HK} (h : Inv max s) {x : Nat} (hx : x ∉ s.h.es) :
    ∃ s', step max s (.push x) = some s' ∧ Inv max s' ∧ s'.key = s.key ∧
      (s.h.es.length < max → s'.h.es.Perm (s.h.es ++ [x])) ∧ (max ≤ s.h.es.length → s' = s) := by
  by_cases hm : s.h.es.length < max
  · obtain ⟨h', e, hg, hp, ho⟩ := push_run h.good hx hm
    refine ⟨{ s with h := h' }, ?_, ⟨hg, fun y hy => ?_, ?_⟩, rfl, fun _ => hp, fun _ => by omega⟩
    · show (push s.key max x s.h).map _ = _
      rw [e]; rfl
    · have hy' : y ∉ s.h.es ++ [x] := fun hm => hy (hp.mem_iff.2 hm)
      rw [List.mem_append, List.mem_singleton] at hy'
      show h'.pos y = none
      rw [ho y (fun hh => hy' (.inl hh)) (fun hh => hy' (.inr hh))]
      exact h.off y (fun hh => hy' (.inl hh))
    · show h'.es.length ≤ max
      rw [hp.length_eq, List.length_append, List.length_singleton]
      omega
  · refine ⟨s, ?_, h, rfl, fun _ => by omega, fun _ => rfl⟩
    show (push s.key max x s.h).map _ = _
    unfold push
    rw [if_pos (by omega)]
    rfl

theorem erase_inv {max : Nat} {s : HK} (h : Inv max s) {x i : Nat} (hi : s.h.es[i]? = some x) :
    ∃ h', erase s.key (some i) s.h = some h' ∧ Inv max { s with h := h' } ∧ h'.es.Perm (s.h.es.erase x) := by
  obtain ⟨h', e, hg, hp, hn, ho⟩ := erase_run (ord' := s.key) h.good hi (fun _ _ _ => rfl)
  have hnd := good_nodup h.good.pos
  refine ⟨h', e, ⟨hg, fun y hy => ?_, ?_⟩, hp⟩
  · replace hy : y ∉ h'.es := hy
    show h'.pos y = none
    by_cases hyx : y = x
    · subst hyx; exact hn
    · have : y ∉ s.h.es := by
        intro hm
        exact hy (hp.mem_iff.2 ((List.mem_erase_of_ne hyx).2 hm))
      rw [ho y this]
      exact h.off y this
  · show h'.es.length ≤ max
    rw [hp.length_eq]
    have := List.length_erase_le (a := x) (l := s.h.es)
    have := h.cap
    omega

/-- Erase: the element is removed if it is stored. -/
theorem heap_erase {max : Nat} {s : HK} (h : Inv max s) (x : Nat) :
    ∃ s', step max s (.erase x) = some s' ∧ Inv max s' ∧ s'.key = s.key ∧
      s'.h.es.Perm (s.h.es.erase x) := by
  cases hp : s.h.pos x with
  | none =>
    have hx : x ∉ s.h.es := by
      intro hm
      obtain ⟨j, hj⟩ := List.mem_iff_getElem?.1 hm
      rw [h.good.pos j x hj] at hp
      cases hp
    refine ⟨s, ?_, h, rfl, ?_⟩
    · show (erase s.key (s.h.pos x) s.h).map _ = _
      rw [hp]; rfl
    · rw [List.erase_of_not_mem hx]
  | some i =>
    obtain ⟨h', e, hi, hpm⟩ := erase_inv h (pos_mem h hp)
    refine ⟨{ s with h := h' }, ?_, hi, rfl, hpm⟩
    show (erase s.key (s.h.pos x) s.h).map _ = _
    rw [hp, e]; rfl

/-- PopTop: an extreme element is removed. -/
theorem heap_popTop {max : Nat} {s : HK} (h : Inv max s) :
    ∃ s', step max s .popTop = some s' ∧ Inv max s' ∧ s'.key = s.key ∧
      ((s.h.es = [] ∧ s.h.top = none ∧ s' = s) ∨
        ∃ x, s.h.top = some x ∧ Extreme s.key s.h.es x ∧ s'.h.es.Perm (s.h.es.erase x)) := by
  by_cases h0 : s.h.es.length = 0
  · have hn : s.h.es = [] := List.eq_nil_of_length_eq_zero h0
    refine ⟨s, ?_, h, rfl, .inl ⟨hn, by unfold HS.top; rw [hn]; rfl, rfl⟩⟩
    show (popTop s.key s.h).map _ = _
    unfold popTop
    rw [if_pos h0]
    rfl
  · have hi := List.getElem?_eq_getElem (show 0 < s.h.es.length by omega)
    obtain ⟨h', e, hinv, hpm⟩ := erase_inv h hi
    refine ⟨{ s with h := h' }, ?_, hinv, rfl, .inr ⟨_, hi, ⟨List.getElem_mem _, ?_⟩, hpm⟩⟩
    · show (popTop s.key s.h).map _ = _
      unfold popTop
      rw [if_neg h0, e]
      rfl
    · exact top_extreme h.good.ordered hi

/-- PopBack: some element is removed. -/
theorem heap_popBack {max : Nat} {s : HK} (h : Inv max s) :
    ∃ s', step max s .popBack = some s' ∧ Inv max s' ∧ s'.key = s.key ∧
      s'.h.es = s.h.es.dropLast := by
  by_cases h0 : s.h.es = []
  · refine ⟨s, ?_, h, rfl, by rw [h0]; rfl⟩
    show (popBack s.h).map _ = _
    unfold popBack
    rw [h0]
    rfl
  · obtain ⟨x, hs, e, hg⟩ := popBack_run h.good h0
    refine ⟨{ s with h := ⟨s.h.es.dropLast, setPos s.h.pos x none⟩ }, ?_, ⟨hg, fun y hy => ?_, ?_⟩, rfl, rfl⟩
    · show (popBack s.h).map _ = _
      rw [e]; rfl
    · replace hy : y ∉ s.h.es.dropLast := hy
      show setPos s.h.pos x none y = none
      unfold setPos
      by_cases hyx : y = x
      · rw [if_pos hyx]
      · rw [if_neg hyx]
        refine h.off y fun hm => ?_
        rw [hs, List.mem_append, List.mem_singleton] at hm
        rcases hm with hm | hm
        · exact hy hm
        · exact hyx hm
    · show s.h.es.dropLast.length ≤ max
      rw [List.length_dropLast]
      have := h.cap
      omega

/-- Change of a key. -/
theorem heap_change {max : Nat} {s : HK} (h : Inv max s) (x : Nat) (k : Int) :
    ∃ s', step max s (.change x k) = some s' ∧ Inv max s' ∧
      (s'.key = fun y => if y = x then k else s.key y) ∧ s'.h.es.Perm s.h.es := by
  cases hp : s.h.pos x with
  | none =>
    have hx : x ∉ s.h.es := by
      intro hm
      obtain ⟨j, hj⟩ := List.mem_iff_getElem?.1 hm
      rw [h.good.pos j x hj] at hp
      cases hp
    refine ⟨⟨s.h, fun y => if y = x then k else s.key y⟩, ?_, ⟨⟨?_, h.good.pos⟩, h.off, h.cap⟩, rfl, .refl _⟩
    · show (applyChange _ (s.h.pos x) s.h).map _ = _
      rw [hp]; rfl
    · show Ordered (val (fun y => if y = x then k else s.key y) s.h.es) _
      rw [val_congr (ord' := s.key)]
      · exact h.good.ordered
      · intro y hy
        show (if y = x then k else s.key y) = s.key y
        rw [if_neg]
        rintro rfl
        exact hx hy
  | some i =>
    obtain ⟨h', e, hg, hpm, ho⟩ := applyChange_run (ord' := fun y => if y = x then k else s.key y)
      h.good (pos_mem h hp) (fun y _ hyx => if_neg hyx)
    refine ⟨⟨h', fun y => if y = x then k else s.key y⟩, ?_, ⟨hg, fun y hy => ?_, ?_⟩, rfl, hpm⟩
    · show (applyChange _ (s.h.pos x) s.h).map _ = _
      rw [hp, e]; rfl
    · replace hy : y ∉ h'.es := hy
      have : y ∉ s.h.es := fun hm => hy (hpm.mem_iff.2 hm)
      show h'.pos y = none
      rw [ho y this]
      exact h.off y this
    · show h'.es.length ≤ max
      rw [hpm.length_eq]
      exact h.cap

theorem step_inv {max : Nat} {s : HK} (h : Inv max s) (op : Op) (hop : ∀ x, op = .push x → x ∉ s.h.es) :
    ∃ s', step max s op = some s' ∧ Inv max s' := by
  cases op with
  | push x => obtain ⟨s', e, hi, _⟩ := heap_push h (hop x rfl); exact ⟨s', e, hi⟩
  | popTop => obtain ⟨s', e, hi, _⟩ := heap_popTop h; exact ⟨s', e, hi⟩
  | popBack => obtain ⟨s', e, hi, _⟩ := heap_popBack h; exact ⟨s', e, hi⟩
  | erase x => obtain ⟨s', e, hi, _⟩ := heap_erase h x; exact ⟨s', e, hi⟩
  | change x k => obtain ⟨s', e, hi, _⟩ := heap_change h x k; exact ⟨s', e, hi⟩

theorem run_inv {max : Nat} (ops : List Op) : ∀ {s : HK}, Inv max s → Proper max s ops →
    ∃ s', run max s ops = some s' ∧ Inv max s' := by
  induction ops with
  | nil => intro s h _; exact ⟨s, rfl, h⟩
  | cons op ops ih =>
    intro s h hp
    obtain ⟨s1, e1, h1⟩ := step_inv h op hp.1
    obtain ⟨s2, e2, h2⟩ := ih h1 (hp.2 s1 e1)
    refine ⟨s2, ?_, h2⟩
    unfold run at e2 ⊢
    rw [List.foldlM_cons, e1]
    exact e2

theorem empty_inv (max : Nat) (key : Nat → Int) : Inv max (empty key) :=
  ⟨⟨fun i _ h => by simp [empty] at h, fun i x h => by simp [empty] at h⟩, fun _ _ => rfl, by simp [empty]⟩

/-- **C30**: after every history of pushes, pops, erasures and key changes no access was out of bounds,
the heap order holds, the recorded positions are exactly the actual ones, and the top is an extreme
element (there is none exactly when the heap is empty). -/
theorem heap_history (max : Nat) (key : Nat → Int) (ops : List Op) (hp : Proper max (empty key) ops) :
    ∃ s, run max (empty key) ops = some s ∧ s.h.es.length ≤ max ∧ s.h.es.Nodup ∧
      HeapOrder s.key s.h.es ∧ Positions s.h ∧
      (s.h.top = none → s.h.es = []) ∧ ∀ x, s.h.top = some x → Extreme s.key s.h.es x := by
  obtain ⟨s, e, hi⟩ := run_inv ops (empty_inv max key) hp
  refine ⟨s, e, hi.cap, good_nodup hi.good.pos, ordered_heapOrder hi.good.ordered, inv_positions hi, ?_, ?_⟩
  · intro ht
    unfold HS.top at ht
    rw [List.getElem?_eq_none_iff] at ht
    exact List.eq_nil_of_length_eq_zero (by omega)
  · intro x hx
    exact ⟨List.mem_of_getElem? (show s.h.es[0]? = some x from hx), top_extreme hi.good.ordered hx⟩

/-- A history with every kind of operation. -/
example : (run 4 (empty fun x => (x : Int)) [.push 3, .push 7, .push 5, .push 1, .push 9, .change 1 8,
    .popTop, .erase 3, .popBack]).map (fun s => (s.h.es, s.h.pos 7)) = some ([7], some 0) := by decide
/-- The hypothesis of `heap_history` can be met by a history that is not trivial. -/
example : Proper 4 (empty fun x => (x : Int)) [.push 3, .push 7, .popTop, .push 7] := by
  refine ⟨fun x hx => by cases hx; simp [empty], fun s' h => ?_⟩
  have h := (Option.some.inj h).symm; subst h
  refine ⟨fun x hx => by cases hx; decide, fun s' h => ?_⟩
  have h := (Option.some.inj h).symm; subst h
  refine ⟨fun x hx => (by cases hx), fun s' h => ?_⟩
  have h := (Option.some.inj h).symm; subst h
  exact ⟨fun x hx => by cases hx; decide, fun _ _ => trivial⟩

end Riptide.Heap
