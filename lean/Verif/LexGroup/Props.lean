import Verif.LexGroup.Lemmas
/-! Property C60: grouping from a sorted order. -/
namespace Riptide.LexGroup

/-- What a call without cutoffs returns, for runs `L`. -/
theorem group_runs {α : Type} (diff : α → α → Bool) (vals : List α) (d : α) (base cslot : Nat) (hcs : cslot ≤ 1)
    (order : List Nat) (hne : order ≠ []) (hb : ∀ i ∈ order, i < vals.length) (hnd : order.Nodup)
    (hp : order.Pairwise
      (fun i j => diff (vals.getD i d) (vals.getD j d) = false ↔ vals.getD i d = vals.getD j d)) :
    ∃ L out, IsRuns (fun i => vals.getD i d) order L ∧ group diff cslot base vals order = some out ∧
      out.firsts = L.map (fun l => some (l.headD 0)) ∧
      out.counts = (if cslot = 1 then some 0 :: L.map (fun l => some l.length)
        else L.map (fun l => some l.length) ++ [none]) ∧
      out.keys.length = vals.length ∧
      (∀ (k : Nat) l, L[k]? = some l → ∀ i ∈ l, out.keys[i]? = some (some (k + base))) ∧
      (∀ i, i < vals.length → i ∉ order → out.keys[i]? = some none) := by
  obtain ⟨L, hL, hg⟩ := groupIndex_runs diff vals d base cslot order hb hp
  have hlen := hL.length_le
  rw [if_neg hne] at hg
  obtain ⟨k, hk, hkl, hkw, hkn⟩ := runWrites_nodup (n := vals.length) (ws := keyW base L)
    (fun w hw => by
      have : w.1 ∈ (keyW base L).map Prod.fst := List.mem_map_of_mem hw
      rw [keyW_fst, hL.flat] at this
      exact hb _ this)
    (by rw [keyW_fst, hL.flat]; exact hnd)
  obtain ⟨f, hf, hfl, hfw, -⟩ := runWrites_nodup (n := order.length) (ws := firstW 0 L)
    (fun w hw => by
      have : w.1 ∈ (firstW 0 L).map Prod.fst := List.mem_map_of_mem hw
      rw [firstW_fst, List.mem_range'_1] at this
      omega)
    (by rw [firstW_fst]; exact List.nodup_range' (step := 1))
  have hcfst : ((if cslot = 1 then [(0, 0)] else []) ++ countW cslot L).map Prod.fst = List.range' 0 (L.length + cslot) := by
    rw [List.map_append, countW_fst]
    rcases (show cslot = 0 ∨ cslot = 1 by omega) with rfl | rfl
    · rfl
    · rw [if_pos rfl, List.range'_succ]; rfl
  obtain ⟨c, hc, hcl, hcw, hcn⟩ := runWrites_nodup (n := order.length + 1)
    (ws := (if cslot = 1 then [(0, 0)] else []) ++ countW cslot L)
    (fun w hw => by
      have : w.1 ∈ ((if cslot = 1 then [(0, 0)] else []) ++ countW cslot L).map Prod.fst := List.mem_map_of_mem hw
      rw [hcfst, List.mem_range'_1] at this
      omega)
    (by rw [hcfst]; exact List.nodup_range' (step := 1))
  refine ⟨L, ⟨k, f.take L.length, c.take (L.length + 1)⟩, hL, ?_, ?_, ?_, hkl, ?_, ?_⟩
  · unfold group
    rw [hg]
    simp only [Option.bind_some, hk, hf, hc, Option.map_some]
  · have := window_eq (buf := f) (xs := L.map fun l => l.headD 0) (s := 0) (by
      intro j x hx
      rw [List.getElem?_map] at hx
      cases hl : L[j]? with
      | none => rw [hl] at hx; cases hx
      | some l =>
        rw [hl] at hx
        injection hx with hx
        subst hx
        exact hfw _ (firstW_mem L 0 j l hl))
    rw [List.drop_zero, List.length_map, List.map_map] at this
    exact this
  · rcases (show cslot = 0 ∨ cslot = 1 by omega) with rfl | rfl
    · rw [if_neg (by decide)]
      apply List.ext_getElem?
      intro j
      rw [List.getElem?_take]
      rcases Nat.lt_trichotomy j L.length with h | h | h
      · rw [if_pos (by omega), List.getElem?_append_left (by simpa using h), List.getElem?_map,
          List.getElem?_eq_getElem h]
        have := hcw _ (List.mem_append_right _ (countW_mem L 0 j L[j] (List.getElem?_eq_getElem h)))
        rw [Nat.zero_add] at this
        exact this
      · subst h
        rw [if_pos (by omega), List.getElem?_append_right (by simp)]
        simp only [List.length_map, Nat.sub_self, List.getElem?_cons_zero]
        refine hcn _ (by omega) ?_
        rw [hcfst, List.mem_range'_1]; omega
      · rw [if_neg (by omega), List.getElem?_eq_none (by simp; omega)]
    · rw [if_pos rfl]
      have h0 := hcw (0, 0) (by simp)
      have := window_eq (buf := c) (xs := 0 :: L.map List.length) (s := 0) (by
        intro j x hx
        rw [Nat.zero_add]
        cases j with
        | zero =>
          simp only [List.getElem?_cons_zero, Option.some.injEq] at hx
          subst hx
          exact h0
        | succ j =>
          rw [List.getElem?_cons_succ, List.getElem?_map] at hx
          cases hl : L[j]? with
          | none => rw [hl] at hx; cases hx
          | some l =>
            rw [hl] at hx
            injection hx with hx
            subst hx
            have := hcw _ (List.mem_append_right _ (countW_mem L 1 j l hl))
            rw [Nat.add_comm] at this
            exact this)
      rw [List.drop_zero, List.length_cons, List.length_map, List.map_cons, List.map_map] at this
      exact this
  · intro j l hl i hi
    have := hkw _ (keyW_mem L base j l hl i hi)
    rw [Nat.add_comm] at this
    exact this
  · intro i hi hm
    exact hkn i hi (by rw [keyW_fst, hL.flat]; exact hm)

/-- When equal values stand together, two rows are in one run exactly when their values are equal. -/
theorem runs_iff_equal {β : Type} {val : Nat → β} {order : List Nat} {L : List (List Nat)} (h : IsRuns val order L)
    (hc : Contiguous val order) {k k' : Nat} {l l' : List Nat} (hl : L[k]? = some l) (hl' : L[k']? = some l')
    {i j : Nat} (hi : i ∈ l) (hj : j ∈ l') : val i = val j ↔ k = k' := by
  -- position of an element of a run in the order
  have pos : ∀ (L : List (List Nat)) (k : Nat) (l : List Nat), L[k]? = some l → ∀ i ∈ l, ∃ p,
      (L.take k).flatten.length ≤ p ∧ p < (L.take (k + 1)).flatten.length ∧ L.flatten[p]? = some i := by
    intro L
    induction L with
    | nil => intro k l hl; cases hl
    | cons l0 L ih =>
      intro k l hl i hi
      cases k with
      | zero =>
        simp only [List.getElem?_cons_zero, Option.some.injEq] at hl
        subst hl
        obtain ⟨p, hp, e⟩ := List.mem_iff_getElem.1 hi
        refine ⟨p, by simp, by simpa using hp, ?_⟩
        rw [List.flatten_cons, List.getElem?_append_left hp, List.getElem?_eq_getElem hp, e]
      | succ k =>
        simp only [List.getElem?_cons_succ] at hl
        obtain ⟨p, h1, h2, h3⟩ := ih k l hl i hi
        refine ⟨l0.length + p, ?_, ?_, ?_⟩
        · simp only [List.take_succ_cons, List.flatten_cons, List.length_append]; omega
        · simp only [List.take_succ_cons, List.flatten_cons, List.length_append]; omega
        · rw [List.flatten_cons, List.getElem?_append_right (by omega)]
          rw [Nat.add_sub_cancel_left]; exact h3
  have mono : ∀ a b, a ≤ b → (L.take a).flatten.length ≤ (L.take b).flatten.length := by
    intro a b hab
    have : L.take a <+: L.take b := by
      rw [show L.take a = (L.take b).take a by rw [List.take_take, Nat.min_eq_left hab]]
      exact List.take_prefix ..
    obtain ⟨r, hr⟩ := this
    rw [← hr, List.flatten_append, List.length_append]; omega
  have less : ∀ (k k' : Nat) (l l' : List Nat), L[k]? = some l → L[k']? = some l' → k < k' → ∀ i ∈ l, ∀ j ∈ l', val i ≠ val j := by
    intro k k' l l' hl hl' hk i hi j hj e
    obtain ⟨p, p1, p2, p3⟩ := pos L k l hl i hi
    obtain ⟨q, q1, q2, q3⟩ := pos L k' l' hl' j hj
    -- the next run
    have hlt : k + 1 < L.length := by
      have := (List.getElem?_eq_some_iff.1 hl').1; omega
    obtain ⟨m, hm⟩ := List.exists_mem_of_ne_nil _ (h.nonempty L[k + 1] (List.getElem_mem hlt))
    have hap := h.apart k l L[k + 1] hl (List.getElem?_eq_getElem hlt) i hi m hm
    rcases Nat.lt_or_ge (k + 1) k' with h2 | h2
    · obtain ⟨r, r1, r2, r3⟩ := pos L (k + 1) L[k + 1] (List.getElem?_eq_getElem hlt) m hm
      have m2 := mono (k + 1 + 1) k' h2
      rw [h.flat] at p3 q3 r3
      exact hap (hc p r q i m j (by omega) (by omega) p3 r3 q3 e).symm
    · have : k' = k + 1 := by omega
      subst this
      exact h.apart k l l' hl hl' i hi j hj e
  constructor
  · intro e
    rcases Nat.lt_trichotomy k k' with h1 | h1 | h1
    · exact absurd e (less k k' l l' hl hl' h1 i hi j hj)
    · exact h1
    · exact absurd e.symm (less k' k l' l hl' hl h1 j hj i hi)
  · rintro rfl
    rw [hl] at hl'
    injection hl' with e
    subst e
    exact h.same l (List.mem_of_getElem? hl) i hi j hj

/-- A sorted order has equal values together, for any order relation in which only equal values are
incomparable. -/
theorem contiguous_of_sorted {β : Type} {val : Nat → β} {order : List Nat} (lt : β → β → Prop)
    (htot : ∀ a b, ¬ lt a b → ¬ lt b a → a = b)
    (hs : order.Pairwise fun i j => ¬ lt (val j) (val i)) : Contiguous val order := by
  intro i j k a b c hij hjk ha hb hcc e
  obtain ⟨li, ea⟩ := List.getElem?_eq_some_iff.1 ha
  obtain ⟨lj, eb⟩ := List.getElem?_eq_some_iff.1 hb
  obtain ⟨lk, ec⟩ := List.getElem?_eq_some_iff.1 hcc
  have h1 := List.pairwise_iff_getElem.1 hs i j li lj hij
  have h2 := List.pairwise_iff_getElem.1 hs j k lj lk hjk
  rw [ea, eb] at h1
  rw [eb, ec, ← e] at h2
  exact htot _ _ h1 h2

/-! ### The comparison -/

theorem le_inj : ∀ (a b : List Nat), a.length = b.length → (∀ x ∈ a, x < 256) → (∀ x ∈ b, x < 256) →
    Str.le a = Str.le b → a = b
  | [], [], _, _, _, _ => rfl
  | [], _ :: _, h, _, _, _ => by simp at h
  | _ :: _, [], h, _, _, _ => by simp at h
  | x :: a, y :: b, h, ha, hb, e => by
    have hx := ha x (List.mem_cons_self ..)
    have hy := hb y (List.mem_cons_self ..)
    unfold Str.le at e
    have h1 : x = y := by omega
    have h2 : Str.le a = Str.le b := by omega
    rw [h1, le_inj a b (by simpa using h) (fun z hz => ha z (List.mem_cons_of_mem _ hz))
      (fun z hz => hb z (List.mem_cons_of_mem _ hz)) h2]

theorem wordNe_iff : ∀ (ws : List (Nat × Bool)) (a b : List Nat), a.length = b.length → (∀ x ∈ a, x < 256) →
    (∀ x ∈ b, x < 256) → (ws.map Prod.fst).sum = a.length → (wordNe ws a b = false ↔ a = b)
  | [], a, b, h, _, _, hs => by
    have ha : a = [] := by
      simp at hs; exact List.length_eq_zero_iff.1 hs.symm
    subst ha
    have hb : b = [] := List.length_eq_zero_iff.1 h.symm
    subst hb
    simp [wordNe]
  | (w, u) :: ws, a, b, h, ha, hb, hs => by
    simp only [List.map_cons, List.sum_cons] at hs
    have ih := wordNe_iff ws (a.drop w) (b.drop w) (by simp [h]) (fun x hx => ha x (List.mem_of_mem_drop hx))
      (fun x hx => hb x (List.mem_of_mem_drop hx)) (by simp; omega)
    have ht : Str.le (a.take w) = Str.le (b.take w) ↔ a.take w = b.take w :=
      ⟨le_inj _ _ (by simp [h]) (fun x hx => ha x (List.mem_of_mem_take hx)) (fun x hx => hb x (List.mem_of_mem_take hx)),
        fun e => by rw [e]⟩
    unfold wordNe
    rw [Bool.or_eq_false_iff, ih]
    simp only [ne_eq, decide_eq_false_iff_not, Decidable.not_not, ht]
    constructor
    · rintro ⟨e1, e2⟩
      rw [← List.take_append_drop w a, ← List.take_append_drop w b, e1, e2]
    · rintro rfl; exact ⟨rfl, rfl⟩

theorem wordsFrom_sum (first : Bool) (n : Nat) : ((Str.wordsFrom first n).map Prod.fst).sum = n := by
  induction n using Nat.strongRecOn generalizing first with
  | ind n ih =>
    unfold Str.wordsFrom
    split
    · rename_i h
      rw [List.map_cons, List.sum_cons, ih (n - 8) (by omega)]
      show 8 + (n - 8) = n
      omega
    · match n with
      | 0 => rfl
      | 1 => rfl
      | 2 => rfl
      | 3 => rfl
      | 4 => rfl
      | 5 => rfl
      | 6 => rfl
      | 7 => rfl
      | 8 => rfl
      | n + 9 => omega

/-- For every width but 7 the comparison is exact. -/
theorem differ_exact (width : Nat) (hw : width ≠ 7) (a b : List Nat) (ha : a.length = width) (hb : b.length = width)
    (ba : ∀ x ∈ a, x < 256) (bb : ∀ x ∈ b, x < 256) : differ width a b = false ↔ a = b := by
  unfold differ
  split
  · rw [decide_eq_false_iff_not, ne_eq, Decidable.not_not]
    exact ⟨le_inj a b (by omega) ba bb, fun e => by rw [e]⟩
  · unfold binaryLt
    rw [if_neg (by omega)]
    exact wordNe_iff _ a b (by omega) ba bb (wordsFrom_sum ..)

/-- For width 7 it is exact unless only the last byte differs and goes down. -/
theorem differ_seven (a b : List Nat) (ha : a.length = 7) (hb : b.length = 7)
    (ba : ∀ x ∈ a, x < 256) (bb : ∀ x ∈ b, x < 256) :
    differ 7 a b = false ↔ a.take 6 = b.take 6 ∧ b.getD 6 0 ≤ a.getD 6 0 := by
  have h := wordNe_iff [(4, true), (2, true)] (a.take 6) (b.take 6) (by simp [ha, hb])
    (fun x hx => ba x (List.mem_of_mem_take hx)) (fun x hx => bb x (List.mem_of_mem_take hx)) (by simp [ha])
  have e : wordNe [(4, true), (2, true)] a b = wordNe [(4, true), (2, true)] (a.take 6) (b.take 6) := by
    simp [wordNe, List.take_take, List.take_drop]
  unfold differ
  rw [if_neg (by decide)]
  unfold binaryLt
  rw [if_pos ha, e, Bool.or_eq_false_iff, h, decide_eq_false_iff_not, Nat.not_lt]

/-- **C60.** For values of any width but 7 and an order of distinct rows, with base 1: the rows are numbered by the
runs of identical values in the order, the first rows are the heads of the runs and the counts their lengths, with 0
for the zero bin; rows that are not in the order are left uninitialised. -/
theorem group_from_lexsort_partial (width : Nat) (hw : width ≠ 7) (vals : List (List Nat))
    (hv : ∀ v ∈ vals, v.length = width ∧ ∀ x ∈ v, x < 256) (order : List Nat) (hne : order ≠ [])
    (hb : ∀ i ∈ order, i < vals.length) (hnd : order.Nodup) :
    ∃ L out, IsRuns (fun i => vals.getD i []) order L ∧ groupFrom width 1 vals order = some out ∧
      out.firsts = L.map (fun l => some (l.headD 0)) ∧
      out.counts = some 0 :: L.map (fun l => some l.length) ∧
      out.keys.length = vals.length ∧
      (∀ (k : Nat) l, L[k]? = some l → ∀ i ∈ l, out.keys[i]? = some (some (k + 1))) ∧
      (∀ i, i < vals.length → i ∉ order → out.keys[i]? = some none) := by
  have hex : ∀ i ∈ order, ∀ j ∈ order, differ width (vals.getD i []) (vals.getD j []) = false ↔
      vals.getD i [] = vals.getD j [] := by
    intro i hi j hj
    have get : ∀ i ∈ order, vals.getD i [] ∈ vals := by
      intro i hi
      rw [List.getD_eq_getElem?_getD, List.getElem?_eq_getElem (hb i hi)]
      exact List.getElem_mem _
    have h1 := hv _ (get i hi)
    have h2 := hv _ (get j hj)
    exact differ_exact width hw _ _ h1.1 h2.1 h1.2 h2.2
  have hp : order.Pairwise (fun i j => differ width (vals.getD i []) (vals.getD j []) = false ↔
      vals.getD i [] = vals.getD j []) := by
    rw [List.pairwise_iff_getElem]
    intro i j hi hj _
    exact hex _ (List.getElem_mem hi) _ (List.getElem_mem hj)
  have hlen : order.length ≤ vals.length := by
    have := List.Nodup.length_le_of_subset hnd (l₂ := List.range vals.length)
      (fun i hi => List.mem_range.2 (hb i hi))
    simpa using this
  have hcs : cslotOf width 1 = 1 := by unfold cslotOf; split <;> rfl
  obtain ⟨L, out, h1, h2, h3, h4, h5⟩ := group_runs (differ width) vals [] 1 1 (by omega) order hne hb hnd hp
  refine ⟨L, out, h1, ?_, h3, by rw [h4, if_pos rfl], h5⟩
  unfold groupFrom
  rw [if_neg (by omega), hcs]; exact h2

end Riptide.LexGroup
