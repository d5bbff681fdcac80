import Verif.Hash.LoopLemmas
import Verif.Hash.Group
import Verif.Hash.Spec
/-! # Group numbering is kept up row by row -/
namespace Riptide.Hash
open Spec

theorem get_snoc {α : Type} {l : List α} {a b : α} {i : Nat} (h : (l ++ [a])[i]? = some b) :
    (i < l.length ∧ l[i]? = some b) ∨ (i = l.length ∧ a = b) := by
  rw [List.getElem?_append] at h
  by_cases hi : i < l.length
  · rw [if_pos hi] at h; exact .inl ⟨hi, h⟩
  · rw [if_neg hi] at h
    right
    cases hd : i - l.length with
    | zero => rw [hd] at h; simp at h; exact ⟨by omega, h⟩
    | succ n => rw [hd] at h; simp at h

theorem get_snoc_lt {α : Type} {l : List α} {a : α} {i : Nat} (h : i < l.length) :
    (l ++ [a])[i]? = l[i]? := by rw [List.getElem?_append, if_pos h]

theorem get_snoc_eq {α : Type} (l : List α) (a : α) : (l ++ [a])[l.length]? = some a := by simp

theorem numbering_nil {K : Type} : Numbering ([] : List (K × Bool)) [] [] where
  length := rfl
  filtered := by simp
  range := by simp
  same := by simp
  first := by simp
  order := by simp

theorem numbering_filtered {K : Type} {rows : List (K × Bool)} {bins firsts : List Nat}
    (N : Numbering rows bins firsts) (k : K) : Numbering (rows ++ [(k, false)]) (bins ++ [0]) firsts where
  length := by simp [N.length]
  filtered := by
    intro i k' h
    rcases get_snoc h with ⟨hi, h'⟩ | ⟨rfl, _⟩
    · rw [get_snoc_lt (by rw [N.length]; exact hi)]; exact N.filtered i k' h'
    · rw [← N.length]; exact get_snoc_eq _ _
  range := by
    intro i k' h
    rcases get_snoc h with ⟨hi, h'⟩ | ⟨_, e⟩
    · rw [get_snoc_lt (by rw [N.length]; exact hi)]; exact N.range i k' h'
    · simp at e
  same := by
    intro i j k1 k2 h1 h2
    rcases get_snoc h1 with ⟨hi, h1⟩ | ⟨_, e⟩
    · rcases get_snoc h2 with ⟨hj, h2⟩ | ⟨_, e⟩
      · rw [get_snoc_lt (by rw [N.length]; exact hi), get_snoc_lt (by rw [N.length]; exact hj)]
        exact N.same i j k1 k2 h1 h2
      · simp at e
    · simp at e
  first := by
    intro g f h
    obtain ⟨h1, h2⟩ := N.first g f h
    have hf : f < bins.length := (List.getElem?_eq_some_iff.mp h1).1
    refine ⟨by rw [get_snoc_lt hf]; exact h1, fun j hj => ?_⟩
    rw [get_snoc_lt (by omega)]; exact h2 j hj
  order := N.order

theorem numbering_old {K : Type} {rows : List (K × Bool)} {bins firsts : List Nat}
    (N : Numbering rows bins firsts) (k : K) (j0 v : Nat) (hj0 : rows[j0]? = some (k, true))
    (hv : bins[j0]? = some v) : Numbering (rows ++ [(k, true)]) (bins ++ [v]) firsts where
  length := by simp [N.length]
  filtered := by
    intro i k' h
    rcases get_snoc h with ⟨hi, h'⟩ | ⟨_, e⟩
    · rw [get_snoc_lt (by rw [N.length]; exact hi)]; exact N.filtered i k' h'
    · simp at e
  range := by
    intro i k' h
    rcases get_snoc h with ⟨hi, h'⟩ | ⟨rfl, _⟩
    · rw [get_snoc_lt (by rw [N.length]; exact hi)]; exact N.range i k' h'
    · rw [← N.length, get_snoc_eq, ← hv]; exact N.range j0 k hj0
  same := by
    intro i j k1 k2 h1 h2
    rcases get_snoc h1 with ⟨hi, g1⟩ | ⟨rfl, e1⟩ <;> rcases get_snoc h2 with ⟨hj, g2⟩ | ⟨rfl, e2⟩ <;> clear h1 h2
    · rw [get_snoc_lt (by rw [N.length]; exact hi), get_snoc_lt (by rw [N.length]; exact hj)]
      exact N.same i j k1 k2 g1 g2
    · injection e2 with e2 _; subst e2
      rw [get_snoc_lt (by rw [N.length]; exact hi), ← N.length, get_snoc_eq, ← hv]
      exact N.same i j0 k1 k g1 hj0
    · injection e1 with e1 _; subst e1
      rw [get_snoc_lt (i := j) (by rw [N.length]; exact hj), ← N.length, get_snoc_eq, ← hv]
      exact N.same j0 j k k2 hj0 g2
    · injection e1 with e1 _; injection e2 with e2 _; subst e1; subst e2; simp
  first := by
    intro g f h
    obtain ⟨h1, h2⟩ := N.first g f h
    have hf : f < bins.length := (List.getElem?_eq_some_iff.mp h1).1
    refine ⟨by rw [get_snoc_lt hf]; exact h1, fun j hj => ?_⟩
    rw [get_snoc_lt (by omega)]; exact h2 j hj
  order := N.order

theorem numbering_new {K : Type} {rows : List (K × Bool)} {bins firsts : List Nat}
    (N : Numbering rows bins firsts) (k : K) (hnew : ∀ j : Nat, rows[j]? ≠ some (k, true)) :
    Numbering (rows ++ [(k, true)]) (bins ++ [firsts.length + 1]) (firsts ++ [bins.length]) where
  length := by simp [N.length]
  filtered := by
    intro i k' h
    rcases get_snoc h with ⟨hi, h'⟩ | ⟨_, e⟩
    · rw [get_snoc_lt (by rw [N.length]; exact hi)]; exact N.filtered i k' h'
    · simp at e
  range := by
    intro i k' h
    rcases get_snoc h with ⟨hi, h'⟩ | ⟨rfl, _⟩
    · rw [get_snoc_lt (by rw [N.length]; exact hi)]
      obtain ⟨g, h1, h2⟩ := N.range i k' h'
      exact ⟨g, h1, by simp; omega⟩
    · rw [← N.length, get_snoc_eq]; exact ⟨_, rfl, by simp⟩
  same := by
    intro i j k1 k2 h1 h2
    rcases get_snoc h1 with ⟨hi, g1⟩ | ⟨rfl, e1⟩ <;> rcases get_snoc h2 with ⟨hj, g2⟩ | ⟨rfl, e2⟩ <;> clear h1 h2
    · rw [get_snoc_lt (by rw [N.length]; exact hi), get_snoc_lt (by rw [N.length]; exact hj)]
      exact N.same i j k1 k2 g1 g2
    · injection e2 with e2 _; subst e2
      rw [get_snoc_lt (by rw [N.length]; exact hi), ← N.length, get_snoc_eq]
      obtain ⟨g, hg, hlt⟩ := N.range i k1 g1
      rw [hg]
      constructor
      · intro e; injection e with e; omega
      · rintro rfl; exact absurd g1 (hnew i)
    · injection e1 with e1 _; subst e1
      rw [get_snoc_lt (i := j) (by rw [N.length]; exact hj), ← N.length, get_snoc_eq]
      obtain ⟨g, hg, hlt⟩ := N.range j k2 g2
      rw [hg]
      constructor
      · intro e; injection e with e; omega
      · rintro rfl; exact absurd g2 (hnew j)
    · injection e1 with e1 _; injection e2 with e2 _; subst e1; subst e2; simp
  first := by
    intro g f h
    rcases get_snoc h with ⟨hg, h⟩ | ⟨rfl, rfl⟩
    · obtain ⟨h1, h2⟩ := N.first g f h
      have hf : f < bins.length := (List.getElem?_eq_some_iff.mp h1).1
      refine ⟨by rw [get_snoc_lt hf]; exact h1, fun j hj => ?_⟩
      rw [get_snoc_lt (by omega)]; exact h2 j hj
    · refine ⟨get_snoc_eq _ _, fun j hj => ?_⟩
      rw [get_snoc_lt hj]
      intro e
      have hjr : j < rows.length := by rw [← N.length]; exact hj
      have hrow : rows[j]? = some (rows[j].1, rows[j].2) := List.getElem?_eq_getElem hjr
      cases hb : rows[j].2 with
      | false => rw [hb] at hrow; have := N.filtered j _ hrow; rw [e] at this; simp at this
      | true =>
        rw [hb] at hrow
        obtain ⟨g, h1, h2⟩ := N.range j _ hrow
        rw [e] at h1; injection h1 with h1; omega
  order := by
    rw [List.pairwise_append]
    refine ⟨N.order, by simp, ?_⟩
    intro a ha b hb
    have hb : b = bins.length := by simpa using hb
    subst hb
    obtain ⟨g, hg⟩ := List.mem_iff_getElem?.mp ha
    exact (List.getElem?_eq_some_iff.mp (N.first g a hg).1).1

/-- Map and output agree: the map holds the bins of the kept rows. -/
theorem group_loop {K : Type} [DecidableEq K] (rs : List (K × Bool)) :
    ∀ (pre : List (K × Bool)) (m : K → Option Nat) (s : GroupOut),
    Numbering pre s.bins s.firsts →
    (∀ k v, m k = some v ↔ ∃ j : Nat, pre[j]? = some (k, true) ∧ s.bins[j]? = some v) →
    let o := (mapLoop groupPlan groupNext m s rs).2
    Numbering (pre ++ rs) o.bins o.firsts := by
  induction rs with
  | nil => intro pre m s N _; simpa [mapLoop] using N
  | cons r rs ih =>
    intro pre m s N hm
    obtain ⟨k, keep⟩ := r
    have assoc : pre ++ (k, keep) :: rs = (pre ++ [(k, keep)]) ++ rs := by simp
    rw [assoc]
    have lift : ∀ {j : Nat} {k' v w} , pre[j]? = some (k', true) → s.bins[j]? = some v →
        (pre ++ [(k, keep)])[j]? = some (k', true) ∧ (s.bins ++ [w])[j]? = some v := by
      intro j k' v w h1 h2
      have hj : j < pre.length := (List.getElem?_eq_some_iff.mp h1).1
      exact ⟨by rw [get_snoc_lt hj]; exact h1, by rw [get_snoc_lt (by rw [N.length]; exact hj)]; exact h2⟩
    cases keep with
    | false =>
      refine ih (pre ++ [(k, false)]) m _ (numbering_filtered N k) fun k' v => ?_
      rw [hm k' v]
      constructor
      · rintro ⟨j, h1, h2⟩; exact ⟨j, lift h1 h2⟩
      · rintro ⟨j, h1, h2⟩
        rcases get_snoc h1 with ⟨hj, h1⟩ | ⟨_, e⟩
        · simp only [groupNext] at h2
          rw [if_neg (by simp), get_snoc_lt (by rw [N.length]; exact hj)] at h2
          exact ⟨j, h1, h2⟩
        · simp at e
    | true =>
      show let o := (mapLoop groupPlan groupNext (mapPut m k (s.firsts.length + 1) id)
        (groupNext s (k, true) (m k)) rs).2
        Numbering _ o.bins o.firsts
      cases hmk : m k with
      | some v =>
        obtain ⟨j0, h1, h2⟩ := (hm k v).mp hmk
        refine ih (pre ++ [(k, true)]) _ _ (numbering_old N k j0 v h1 h2) fun k' w => ?_
        unfold mapPut
        by_cases hk : k' = k
        · subst hk
          rw [if_pos rfl, hmk]
          simp only [Option.map_some, id, Option.getD_some, Option.some.injEq, groupNext, if_true]
          constructor
          · rintro rfl; exact ⟨j0, lift h1 h2⟩
          · rintro ⟨j, g1, g2⟩
            rcases get_snoc g1 with ⟨hj, g1⟩ | ⟨rfl, _⟩
            · rw [get_snoc_lt (by rw [N.length]; exact hj)] at g2
              have := (hm k' w).mpr ⟨j, g1, g2⟩
              rw [hmk] at this; injection this
            · rw [← N.length, get_snoc_eq] at g2; injection g2
        · rw [if_neg hk, hm k' w]
          constructor
          · rintro ⟨j, g1, g2⟩; exact ⟨j, lift g1 g2⟩
          · rintro ⟨j, g1, g2⟩
            rcases get_snoc g1 with ⟨hj, g1⟩ | ⟨_, e⟩
            · simp only [groupNext, if_true] at g2
              rw [get_snoc_lt (by rw [N.length]; exact hj)] at g2
              exact ⟨j, g1, g2⟩
            · injection e with e _; exact absurd e.symm hk
      | none =>
        have hnew : ∀ j : Nat, pre[j]? ≠ some (k, true) := by
          intro j hj
          obtain ⟨g, hg, _⟩ := N.range j k hj
          have := (hm k (g + 1)).mpr ⟨j, hj, hg⟩
          rw [hmk] at this; simp at this
        refine ih (pre ++ [(k, true)]) _ _ (numbering_new N k hnew) fun k' w => ?_
        unfold mapPut
        by_cases hk : k' = k
        · subst hk
          rw [if_pos rfl, hmk]
          simp only [Option.map_none, Option.getD_none, Option.some.injEq, groupNext, if_true]
          constructor
          · rintro rfl
            exact ⟨pre.length, get_snoc_eq _ _, by rw [← N.length]; exact get_snoc_eq _ _⟩
          · rintro ⟨j, g1, g2⟩
            rcases get_snoc g1 with ⟨hj, g1⟩ | ⟨rfl, _⟩
            · exact absurd g1 (hnew j)
            · rw [← N.length, get_snoc_eq] at g2; injection g2
        · rw [if_neg hk, hm k' w]
          constructor
          · rintro ⟨j, g1, g2⟩; exact ⟨j, lift g1 g2⟩
          · rintro ⟨j, g1, g2⟩
            rcases get_snoc g1 with ⟨hj, g1⟩ | ⟨_, e⟩
            · simp only [groupNext, if_true] at g2
              rw [get_snoc_lt (by rw [N.length]; exact hj)] at g2
              exact ⟨j, g1, g2⟩
            · injection e with e _; exact absurd e.symm hk

/-- The multi-column loop writes the same: its map holds a kept row of the key instead of the bin. -/
theorem groupMk_loop {K : Type} [DecidableEq K] (rs : List (K × Bool)) :
    ∀ (m m' : K → Option Nat) (s : GroupOut),
    (∀ k, m k = (m' k).map fun j => s.bins.getD j 0) → (∀ k j, m' k = some j → j < s.bins.length) →
    (mapLoop groupMkPlan groupMkNext m' s rs).2 = (mapLoop groupPlan groupNext m s rs).2 := by
  induction rs with
  | nil => intro m m' s _ _; rfl
  | cons r rs ih =>
    intro m m' s h hb
    obtain ⟨k, keep⟩ := r
    have getApp : ∀ {j : Nat} {w}, j < s.bins.length → (s.bins ++ [w]).getD j 0 = s.bins.getD j 0 := by
      intro j w hj
      rw [List.getD_eq_getElem?_getD, List.getD_eq_getElem?_getD, get_snoc_lt hj]
    cases keep with
    | false =>
      refine ih m m' _ (fun k' => ?_) fun k' j hj => ?_
      · rw [h k']
        cases hm' : m' k' with
        | none => rfl
        | some j =>
          simp only [Option.map_some, groupMkNext]
          rw [if_neg (by simp), getApp (hb k' j hm')]
      · have := hb k' j hj
        simp only [groupMkNext]
        rw [if_neg (by simp)]; simp; omega
    | true =>
      show (mapLoop groupMkPlan groupMkNext (mapPut m' k s.bins.length id) (groupMkNext s (k, true) (m' k)) rs).2 =
        (mapLoop groupPlan groupNext (mapPut m k (s.firsts.length + 1) id) (groupNext s (k, true) (m k)) rs).2
      have hsame : groupMkNext s (k, true) (m' k) = groupNext s (k, true) (m k) := by
        rw [h k]; cases m' k <;> rfl
      rw [hsame]
      have hlen : (groupNext s (k, true) (m k)).bins.length = s.bins.length + 1 := by
        unfold groupNext; cases m k <;> simp
      have hpre : ∀ {j : Nat}, j < s.bins.length → (groupNext s (k, true) (m k)).bins.getD j 0 = s.bins.getD j 0 := by
        intro j hj
        unfold groupNext
        cases m k <;> simp only [if_true] <;> exact getApp hj
      refine ih _ _ _ (fun k' => ?_) fun k' j hj => ?_
      · unfold mapPut
        by_cases hk : k' = k
        · subst hk
          rw [if_pos rfl, if_pos rfl]
          cases hm' : m' k' with
          | none =>
            have : m k' = none := by rw [h k', hm']; rfl
            rw [this]
            simp [groupNext]
          | some j =>
            have e : m k' = some (s.bins.getD j 0) := by rw [h k', hm']; rfl
            have := hpre (hb k' j hm')
            rw [e] at this ⊢
            simpa using this.symm
        · rw [if_neg hk, if_neg hk, h k']
          cases hm' : m' k' with
          | none => rfl
          | some j => simp only [Option.map_some]; rw [hpre (hb k' j hm')]
      · rw [hlen]
        unfold mapPut at hj
        by_cases hk : k' = k
        · subst hk
          rw [if_pos rfl] at hj
          cases hm' : m' k' with
          | none => rw [hm'] at hj; simp at hj; omega
          | some j' => rw [hm'] at hj; simp at hj; have := hb k' j' hm'; omega
        · rw [if_neg hk] at hj; have := hb k' j hj; omega

end Riptide.Hash
