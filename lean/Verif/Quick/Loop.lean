import Verif.Quick.Heap
/-! The loop of quicksort over its segments. -/
namespace Riptide.Quick
open Riptide.Sort.Spec (Weak)

variable {α : Type} {P : α → Prop} {lt : α → α → Bool}

/-- Two positions not in one open segment hold elements in order. -/
def Ord (lt : α → α → Bool) (d : α) (a : List α) (segs : List Seg) : Prop :=
  ∀ i j, i < j → j < a.length → (∃ s ∈ segs, s.pl ≤ i ∧ j < s.pe) ∨ lt (a.getD j d) (a.getD i d) = false

/-- The segments do not overlap. -/
def Apart (s t : Seg) : Prop := s.pe ≤ t.pl ∨ t.pe ≤ s.pl

theorem Ord.op {d : α} {a b : List α} {s : Seg} {st : List Seg} (hs : s.pe ≤ a.length)
    (hA : ∀ t ∈ st, Apart s t) (h : Ord lt d a (s :: st)) (o : SegOp s.pl s.pe a b) : Ord lt d b (s :: st) := by
  intro i j hij hj
  rw [o.len] at hj
  have other : ∀ (k q : Nat), (k < q) → q < a.length → ¬ (s.pl ≤ k ∧ q < s.pe) →
      (s.pl ≤ k ∧ k < s.pe) ∨ (s.pl ≤ q ∧ q < s.pe) → lt (a.getD q d) (a.getD k d) = false := by
    intro k q h1 h2 h3 h4
    rcases h k q h1 h2 with ⟨t, ht, e1, e2⟩ | h5
    · rcases List.mem_cons.1 ht with e | ht'
      · rw [e] at e1 e2; exact absurd ⟨e1, e2⟩ h3
      · have := hA t ht'
        unfold Apart at this
        omega
    · exact h5
  by_cases hi : s.pl ≤ i ∧ i < s.pe
  · by_cases hj' : s.pl ≤ j ∧ j < s.pe
    · exact .inl ⟨s, List.mem_cons_self .., hi.1, hj'.2⟩
    · obtain ⟨k, k1, k2, k3⟩ := o.getD_in d hs hi.1 hi.2
      rw [o.getD_out d (show j < s.pl ∨ s.pe ≤ j by omega), k3]
      exact .inr (other k j (by omega) hj (by omega) (.inl ⟨k1, k2⟩))
  · by_cases hj' : s.pl ≤ j ∧ j < s.pe
    · obtain ⟨k, k1, k2, k3⟩ := o.getD_in d hs hj'.1 hj'.2
      rw [o.getD_out d (show i < s.pl ∨ s.pe ≤ i by omega), k3]
      exact .inr (other i k (by omega) (by omega) (by omega) (.inr ⟨k1, k2⟩))
    · rw [o.getD_out d (show i < s.pl ∨ s.pe ≤ i by omega), o.getD_out d (show j < s.pl ∨ s.pe ≤ j by omega)]
      exact h i j hij hj

theorem Ord.drop {d : α} {b : List α} {s : Seg} {st : List Seg} (h : Ord lt d b (s :: st))
    (hs : ∀ p q, s.pl ≤ p → p < q → q < s.pe → lt (b.getD q d) (b.getD p d) = false) : Ord lt d b st := by
  intro i j hij hj
  rcases h i j hij hj with ⟨t, ht, e1, e2⟩ | h5
  · rcases List.mem_cons.1 ht with e | ht'
    · rw [e] at e1 e2; exact .inr (hs i j e1 hij e2)
    · exact .inl ⟨t, ht', e1, e2⟩
  · exact .inr h5

theorem Ord.split (W : Weak P lt) {d : α} {b : List α} {s : Seg} {st segs : List Seg} (hP : AllP P b)
    (h : Ord lt d b (s :: st)) (m : Nat)
    (hL : ∀ k, s.pl ≤ k → k < m → lt (b.getD m d) (b.getD k d) = false)
    (hR : ∀ k, m < k → k < s.pe → lt (b.getD k d) (b.getD m d) = false)
    (c1 : ∃ t ∈ segs, t.pl = s.pl ∧ t.pe = m) (c2 : ∃ t ∈ segs, t.pl = m + 1 ∧ t.pe = s.pe)
    (c3 : ∀ t ∈ st, t ∈ segs) : Ord lt d b segs := by
  intro i j hij hj
  rcases h i j hij hj with ⟨t, ht, e1, e2⟩ | h5
  · rcases List.mem_cons.1 ht with e | ht'
    · rw [e] at e1 e2
      by_cases j1 : j < m
      · obtain ⟨t, t1, t2, t3⟩ := c1
        exact .inl ⟨t, t1, by omega, by omega⟩
      · by_cases i1 : m < i
        · obtain ⟨t, t1, t2, t3⟩ := c2
          exact .inl ⟨t, t1, by omega, by omega⟩
        · right
          by_cases i2 : i = m
          · rw [i2]; exact hR j (by omega) e2
          · by_cases j2 : j = m
            · rw [j2]; exact hL i e1 (by omega)
            · exact W.trans _ (b.getD m d) _ (hP.getD d (by omega)) (hP.getD d (by omega)) (hP.getD d hj)
                (hL i e1 (by omega)) (hR j (by omega) e2)
    · exact .inl ⟨t, c3 t ht', e1, e2⟩
  · exact .inr h5

/-- Insertion sort of a segment. -/
theorem insertion_seg (W : Weak P lt) (d : α) (a : List α) (hP : AllP P a) (l e : Nat) (h1 : l ≤ e) (h2 : e ≤ a.length) :
    ∃ b, Riptide.Sort.insertion lt l (e - (l + 1)) (l + 1) a = some b ∧ SegOp l e a b ∧
      ∀ p q, l ≤ p → p < q → q < e → lt (b.getD q d) (b.getD p d) = false := by
  by_cases h : e ≤ l + 1
  · rw [show e - (l + 1) = 0 by omega]
    exact ⟨a, rfl, SegOp.refl _ _ a, fun p q _ _ _ => by omega⟩
  · have hsplit : a = a.take l ++ [a.getD l d] ++ (a.drop (l + 1)).take (e - (l + 1)) ++ a.drop e := by
      have e1 : a.drop e = (a.drop (l + 1)).drop (e - (l + 1)) := by rw [List.drop_drop]; congr 1; omega
      rw [e1, List.append_assoc, List.take_append_drop]
      have e2 : a.drop l = a.getD l d :: a.drop (l + 1) := by
        rw [List.drop_eq_getElem_cons (show l < a.length by omega), List.getD_eq_getElem?_getD,
          List.getElem?_eq_getElem (show l < a.length by omega)]; rfl
      rw [List.append_assoc, List.singleton_append, ← e2, List.take_append_drop]
    have hlen : (a.take l).length = l := by rw [List.length_take]; omega
    have hR : ((a.drop (l + 1)).take (e - (l + 1))).length = e - (l + 1) := by
      rw [List.length_take, List.length_drop]; omega
    obtain ⟨out, o1, o2⟩ := Riptide.Sort.insertion_spec W (a.take l) (a.drop e)
      ((a.drop (l + 1)).take (e - (l + 1))) [a.getD l d] [a.getD l d]
      (fun x hx => hP x (by
        rw [hsplit]; simp only [List.mem_append] at hx ⊢
        rcases hx with hx | hx
        · exact .inl (.inl (.inr hx))
        · exact .inl (.inr hx)))
      ⟨List.Perm.refl _, List.pairwise_singleton .., fun _ _ => rfl⟩
    rw [← hsplit, hlen, hR, List.length_singleton] at o1
    have olen : out.length = e - l := by
      rw [o2.perm.length_eq, List.length_append, hR, List.length_singleton]; omega
    have og : ∀ p, l ≤ p → p < e → (a.take l ++ out ++ a.drop e)[p]? = out[p - l]? := fun p p1 p2 => by
      rw [List.append_assoc, List.getElem?_append_right (by omega), hlen,
        List.getElem?_append_left (by omega)]
    refine ⟨_, o1, ⟨?_, fun p hp => ?_, ?_⟩, fun p q p1 p2 p3 => ?_⟩
    · simp only [List.length_append, hlen, olen, List.length_drop]; omega
    · rcases hp with hp | hp
      · rw [List.append_assoc, List.getElem?_append_left (by omega), List.getElem?_take, if_pos hp]
      · rw [List.getElem?_append_right (by rw [List.length_append]; omega), List.length_append, hlen, olen,
          List.getElem?_drop]
        congr 1; omega
    · refine List.Perm.trans ((List.perm_append_right_iff _).2 ((List.perm_append_left_iff _).2 o2.perm)) ?_
      conv => rhs; rw [hsplit]
      rw [← List.append_assoc]
    · rw [List.getD_eq_getElem?_getD, List.getD_eq_getElem?_getD, og p p1 (by omega), og q (by omega) p3]
      have := List.pairwise_iff_getElem.1 o2.sorted (p - l) (q - l) (by omega) (by omega) (by omega)
      rw [List.getElem?_eq_getElem (by omega), List.getElem?_eq_getElem (by omega)]
      exact this

/-- The steps the open segments can take. -/
def cost : List Seg → Nat
  | [] => 0
  | s :: st => 2 * (s.pe - s.pl) + 1 + cost st

/-- A segment with `k` entries below it is at most a `2 ^ k`th of the array. -/
def Small (N : Nat) : List Seg → Prop
  | [] => True
  | s :: st => (s.pe - s.pl) * 2 ^ st.length ≤ N ∧ Small N st

/-- The loop with the open segments `s :: st`. -/
theorem qloop_spec (W : Weak P lt) (d : α) (N : Nat) (hN : N < 2 ^ 63) :
    ∀ (fuel : Nat) (top : Bool) (s : Seg) (st : List Seg) (a : List α), AllP P a →
      (∀ t ∈ s :: st, t.pl ≤ t.pe ∧ t.pe ≤ a.length) → (s :: st).Pairwise Apart → Ord lt d a (s :: st) →
      Small N (s :: st) → cost (s :: st) ≤ fuel →
      ∃ b, qloop lt fuel top s st a = some b ∧ b.Perm a ∧ Ord lt d b [] := by
  intro fuel
  induction fuel with
  | zero => intro top s st a _ _ _ _ _ h; simp only [cost] at h; omega
  | succ fuel ih =>
    intro top s st a hP hB hA hO hS hc
    have hs := hB s (List.mem_cons_self ..)
    have hAs := (List.pairwise_cons.1 hA).1
    have hAst := (List.pairwise_cons.1 hA).2
    simp only [cost] at hc
    -- a segment sorted: go on with the next
    have done : ∀ b, SegOp s.pl s.pe a b →
        (∀ p q, s.pl ≤ p → p < q → q < s.pe → lt (b.getD q d) (b.getD p d) = false) →
        ∃ c, (match st with | [] => some b | t :: st' => qloop lt fuel true t st' b) = some c ∧ c.Perm a ∧
          Ord lt d c [] := by
      intro b hb1 hb2
      have hO' := (hO.op hs.2 hAs hb1).drop hb2
      cases st with
      | nil => exact ⟨b, rfl, hb1.perm, hO'⟩
      | cons t st' =>
        obtain ⟨c, c1, c2, c3⟩ := ih true t st' b (hP.perm hb1.perm)
          (fun u hu => by rw [hb1.len]; exact hB u (List.mem_cons_of_mem _ hu)) hAst hO' hS.2 (by omega)
        exact ⟨c, c1, c2.trans hb1.perm, c3⟩
    unfold qloop
    by_cases hd : top = true ∧ s.depth < 0
    · rw [if_pos hd]
      obtain ⟨b, b1, b2, b3⟩ := heapsortAt_spec W d s.pl (s.pe - s.pl) a hP (by omega)
      rw [show s.pl + (s.pe - s.pl) = s.pe by omega] at b2 b3
      rw [b1, Option.bind_some]
      exact done b b2 b3
    · rw [if_neg hd]
      by_cases hbig : s.pl + smallQuicksort + 1 < s.pe
      · rw [if_pos hbig]
        unfold smallQuicksort at hbig
        have hfit : 2 * st.length + 2 ≤ stackSize := by
          unfold stackSize
          by_cases hst : 63 < st.length
          · exfalso
            have h1 := hS.1
            have h2 : 2 ^ 63 ≤ 2 ^ st.length := Nat.pow_le_pow_right (by omega) (by omega)
            have h3 : 1 * 2 ^ st.length ≤ (s.pe - s.pl) * 2 ^ st.length := Nat.mul_le_mul_right _ (by omega)
            omega
          · omega
        rw [if_pos hfit]
        obtain ⟨b, m, b1, b2, b3, b4, b5, b6⟩ := partition_spec W d a hP s.pl (s.pe - 1) (by omega) (by omega)
        rw [show s.pe - 1 + 1 = s.pe by omega] at b2
        rw [b1, Option.bind_some]
        dsimp only
        have hO' := hO.op hs.2 hAs b2
        have hPb := hP.perm b2.perm
        have bound : ∀ x y : Nat, 2 * x ≤ y → y * 2 ^ st.length ≤ N → x * 2 ^ (st.length + 1) ≤ N := by
          intro x y hxy hy
          have h1 : (2 * x) * 2 ^ st.length ≤ y * 2 ^ st.length := Nat.mul_le_mul_right _ hxy
          have h2 : x * 2 ^ (st.length + 1) = (2 * x) * 2 ^ st.length := by
            rw [Nat.pow_succ]; simp only [Nat.mul_comm, Nat.mul_assoc]
          omega
        have bound' : ∀ x : Nat, x ≤ s.pe - s.pl → x * 2 ^ st.length ≤ N := fun x hx =>
          Nat.le_trans (Nat.mul_le_mul_right _ hx) hS.1
        by_cases hlr : m - s.pl < s.pe - 1 - m
        · rw [if_pos hlr]
          obtain ⟨c, c1, c2, c3⟩ := ih false ⟨s.pl, m, s.depth - 1⟩ (⟨m + 1, s.pe, s.depth - 1⟩ :: st) b hPb
            (fun t ht => by
              rw [b2.len]
              simp only [List.mem_cons] at ht
              rcases ht with e | e | e
              · rw [e]; exact ⟨by dsimp only; omega, by dsimp only; omega⟩
              · rw [e]; exact ⟨by dsimp only; omega, by dsimp only; omega⟩
              · exact hB t (List.mem_cons_of_mem _ e))
            (List.pairwise_cons.2 ⟨fun t ht => by
              rcases List.mem_cons.1 ht with e | e
              · rw [e]; exact .inl (by dsimp only; omega)
              · have := hAs t e; unfold Apart at this ⊢; dsimp only; omega,
              List.pairwise_cons.2 ⟨fun t ht => by
                have := hAs t ht; unfold Apart at this ⊢; dsimp only; omega, hAst⟩⟩)
            (hO'.split W hPb m b5 (fun k k1 k2 => b6 k k1 (by omega))
              ⟨_, List.mem_cons_self .., rfl, rfl⟩ ⟨_, List.mem_cons_of_mem _ (List.mem_cons_self ..), rfl, rfl⟩
              (fun t ht => List.mem_cons_of_mem _ (List.mem_cons_of_mem _ ht)))
            ⟨bound _ (s.pe - s.pl) (by dsimp only; omega) hS.1, bound' _ (by dsimp only; omega), hS.2⟩
            (by simp only [cost]; omega)
          exact ⟨c, c1, c2.trans b2.perm, c3⟩
        · rw [if_neg hlr]
          obtain ⟨c, c1, c2, c3⟩ := ih false ⟨m + 1, s.pe, s.depth - 1⟩ (⟨s.pl, m, s.depth - 1⟩ :: st) b hPb
            (fun t ht => by
              rw [b2.len]
              simp only [List.mem_cons] at ht
              rcases ht with e | e | e
              · rw [e]; exact ⟨by dsimp only; omega, by dsimp only; omega⟩
              · rw [e]; exact ⟨by dsimp only; omega, by dsimp only; omega⟩
              · exact hB t (List.mem_cons_of_mem _ e))
            (List.pairwise_cons.2 ⟨fun t ht => by
              rcases List.mem_cons.1 ht with e | e
              · rw [e]; exact .inr (by dsimp only; omega)
              · have := hAs t e; unfold Apart at this ⊢; dsimp only; omega,
              List.pairwise_cons.2 ⟨fun t ht => by
                have := hAs t ht; unfold Apart at this ⊢; dsimp only; omega, hAst⟩⟩)
            (hO'.split W hPb m b5 (fun k k1 k2 => b6 k k1 (by omega))
              ⟨_, List.mem_cons_of_mem _ (List.mem_cons_self ..), rfl, rfl⟩ ⟨_, List.mem_cons_self .., rfl, rfl⟩
              (fun t ht => List.mem_cons_of_mem _ (List.mem_cons_of_mem _ ht)))
            ⟨bound _ (s.pe - s.pl) (by dsimp only; omega) hS.1, bound' _ (by dsimp only; omega), hS.2⟩
            (by simp only [cost]; omega)
          exact ⟨c, c1, c2.trans b2.perm, c3⟩
      · rw [if_neg hbig]
        obtain ⟨b, b1, b2, b3⟩ := insertion_seg W d a hP s.pl s.pe hs.1 hs.2
        rw [b1, Option.bind_some]
        exact done b b2 b3

theorem pairwise_of_ord {d : α} {b : List α} (h : ∀ i j, i < j → j < b.length → lt (b.getD j d) (b.getD i d) = false) :
    b.Pairwise fun x y => lt y x = false := by
  rw [List.pairwise_iff_getElem]
  intro i j hi hj hij
  have := h i j hij hj
  rw [List.getD_eq_getElem?_getD, List.getD_eq_getElem?_getD, List.getElem?_eq_getElem hi, List.getElem?_eq_getElem hj] at this
  exact this

end Riptide.Quick
