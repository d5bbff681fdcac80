import Verif.Pack.Lemmas
/-! The counting sort with cursors, for any interleaving of its work items. -/
namespace Riptide.Pack
open Riptide.Work Spec

/-- The steps touching one cursor are the rows to place, then subtractions.  If the regions of the
cursors are disjoint and inside the output, every row lands at its place. -/
theorem exec_run : ∀ (evs : List Ev) (s : St) (rows : Nat → List Nat) (subs : Nat → List Int)
    (start : Nat → Int), (∀ e ∈ evs, e.cur < s.cur.length) →
    (∀ c, evs.filter (fun e => e.cur == c) = (rows c).map (Ev.put c) ++ (subs c).map (Ev.sub c)) →
    (∀ c, c < s.cur.length → s.cur[c]? = some (start c)) →
    (∀ c, c < s.cur.length → rows c ≠ [] →
      0 ≤ start c ∧ start c + ((rows c).length : Int) ≤ (s.group.length : Int)) →
    (∀ c d, c < s.cur.length → d < s.cur.length → c ≠ d → rows c ≠ [] → rows d ≠ [] →
      start c + ((rows c).length : Int) ≤ start d ∨ start d + ((rows d).length : Int) ≤ start c) →
    ∃ s' : St, evs.foldlM exec s = some s' ∧ s'.cur.length = s.cur.length ∧
      s'.group.length = s.group.length ∧
      (∀ c, c < s.cur.length →
        s'.cur[c]? = some (start c + ((rows c).length : Int) - (subs c).sum)) ∧
      (∀ c, c < s.cur.length → ∀ (j r : Nat), (rows c)[j]? = some r →
        ∃ q : Nat, (q : Int) = start c + (j : Int) ∧ s'.group[q]? = some (some (r : Int))) ∧
      (∀ q : Nat, (∀ c, c < s.cur.length →
          ¬ (start c ≤ (q : Int) ∧ (q : Int) < start c + ((rows c).length : Int))) →
        s'.group[q]? = s.group[q]?) := by
  intro evs
  induction evs with
  | nil =>
    intro s rows subs start _ hf hs _ _
    have hr : ∀ c, rows c = [] ∧ subs c = [] := by
      intro c
      have := hf c
      simp only [List.filter_nil] at this
      have h2 := List.append_eq_nil_iff.1 this.symm
      exact ⟨List.map_eq_nil_iff.1 h2.1, List.map_eq_nil_iff.1 h2.2⟩
    refine ⟨s, rfl, rfl, rfl, ?_, ?_, fun _ _ => rfl⟩
    · intro c hc; rw [hs c hc, (hr c).1, (hr c).2]; simp
    · intro c _ j r h; rw [(hr c).1] at h; simp at h
  | cons e evs ih =>
    intro s rows subs start hc hf hs hin hdis
    have hcl := hc e (by simp)
    cases e with
    | put c r =>
      simp only [Ev.cur] at hcl
      have hfc := hf c
      rw [List.filter_cons, if_pos (by simp [Ev.cur])] at hfc
      -- the first row of cursor `c`
      obtain ⟨rs, hrs⟩ : ∃ rs, rows c = r :: rs := by
        cases hrc : rows c with
        | nil =>
          rw [hrc, List.map_nil, List.nil_append] at hfc
          cases hsc : subs c with
          | nil => rw [hsc] at hfc; simp at hfc
          | cons a as => rw [hsc] at hfc; simp at hfc
        | cons x xs =>
          rw [hrc] at hfc
          simp only [List.map_cons, List.cons_append, List.cons.injEq, Ev.put.injEq, true_and] at hfc
          exact ⟨xs, by rw [hfc.1]⟩
      have hine := hin c hcl (by rw [hrs]; simp)
      rw [hrs, List.length_cons] at hine
      have hstep : exec s (.put c r) =
          some ⟨s.cur.set c (start c + 1), s.group.set (start c).toNat (some (r : Int))⟩ := by
        simp only [exec, hs c hcl]
        rw [if_pos (by omega)]
      obtain ⟨s', h1, h2, h3, h4, h5, h6⟩ := ih
        ⟨s.cur.set c (start c + 1), s.group.set (start c).toNat (some (r : Int))⟩
        (fun d => if d = c then rs else rows d) subs
        (fun d => if d = c then start c + 1 else start d)
        (by intro x hx; simpa using hc x (by simp [hx]))
        (by
          intro d
          by_cases hd : d = c
          · subst hd
            rw [hrs] at hfc
            simp only [List.map_cons, List.cons_append, List.cons.injEq, true_and] at hfc
            simpa using hfc
          · have := hf d
            have hne : ¬ c = d := fun h => hd h.symm
            simpa [List.filter_cons, Ev.cur, hd, hne] using this)
        (by
          intro d hd
          simp only [List.length_set] at hd
          by_cases hdc : d = c
          · subst hdc; simp [hd]
          · simp [hdc, List.getElem?_set_ne (Ne.symm hdc), hs d hd])
        (by
          intro d hd hne
          simp only [List.length_set] at hd ⊢
          by_cases hdc : d = c
          · subst hdc; simp only [if_true] at hne ⊢; omega
          · simp only [hdc, if_false] at hne ⊢; exact hin d hd hne)
        (by
          intro d d' hd hd' hdd hne hne'
          simp only [List.length_set] at hd hd'
          by_cases hdc : d = c
          · subst hdc
            have hdc' : ¬ d' = d := fun h => hdd h.symm
            simp only [hdc', if_true, if_false] at hne hne' ⊢
            have := hdis d d' hd hd' hdd (by rw [hrs]; simp) hne'
            rw [hrs, List.length_cons] at this
            omega
          · by_cases hdc' : d' = c
            · subst hdc'
              simp only [hdc, if_true, if_false] at hne hne' ⊢
              have := hdis d d' hd hd' hdd hne (by rw [hrs]; simp)
              rw [hrs, List.length_cons] at this
              omega
            · simp only [hdc, hdc', if_false] at hne hne' ⊢
              exact hdis d d' hd hd' hdd hne hne')
      simp only [List.length_set] at h2 h3 h4 h5 h6
      refine ⟨s', ?_, h2, h3, ?_, ?_, ?_⟩
      · rw [List.foldlM_cons, hstep]; exact h1
      · intro d hd
        rw [h4 d hd]
        by_cases hdc : d = c
        · subst hdc; simp only [if_true, hrs, List.length_cons]; congr 1; omega
        · simp only [hdc, if_false]
      · intro d hd j x hx
        by_cases hdc : d = c
        · subst hdc
          rw [hrs] at hx
          cases j with
          | zero =>
            simp only [List.getElem?_cons_zero, Option.some.injEq] at hx
            refine ⟨(start d).toNat, by omega, ?_⟩
            rw [h6, List.getElem?_set_self (by omega), hx]
            intro e he ⟨he1, he2⟩
            by_cases hed : e = d
            · subst hed; simp only [if_true] at he1; omega
            · simp only [hed, if_false] at he1 he2
              have hne : rows e ≠ [] := by
                intro h0; rw [h0] at he2; simp only [List.length_nil] at he2; omega
              have := hdis e d he hd hed hne (by rw [hrs]; simp)
              rw [hrs, List.length_cons] at this
              omega
          | succ j =>
            simp only [List.getElem?_cons_succ] at hx
            obtain ⟨q, hq, hq'⟩ := h5 d hd j x (by simpa using hx)
            simp only [if_true] at hq
            exact ⟨q, by omega, hq'⟩
        · obtain ⟨q, hq, hq'⟩ := h5 d hd j x (by simpa [hdc] using hx)
          simp only [hdc, if_false] at hq
          exact ⟨q, hq, hq'⟩
      · intro q hq
        have hq0 := hq c hcl
        rw [hrs, List.length_cons] at hq0
        rw [h6, List.getElem?_set_ne (by omega)]
        intro d hd
        by_cases hdc : d = c
        · subst hdc; simp only [if_true]; omega
        · simp only [hdc, if_false]; exact hq d hd
    | sub c a =>
      simp only [Ev.cur] at hcl
      have hfc := hf c
      rw [List.filter_cons, if_pos (by simp [Ev.cur])] at hfc
      obtain ⟨hrc, as, has⟩ : rows c = [] ∧ ∃ as, subs c = a :: as := by
        cases hrc : rows c with
        | nil =>
          rw [hrc, List.map_nil, List.nil_append] at hfc
          cases hsc : subs c with
          | nil => rw [hsc] at hfc; simp at hfc
          | cons x xs =>
            rw [hsc] at hfc
            simp only [List.map_cons, List.cons.injEq, Ev.sub.injEq, true_and] at hfc
            exact ⟨rfl, xs, by rw [hfc.1]⟩
        | cons x xs => rw [hrc] at hfc; simp at hfc
      have hstep : exec s (.sub c a) = some { s with cur := s.cur.set c (start c - a) } := by
        simp only [exec, hs c hcl]
      obtain ⟨s', h1, h2, h3, h4, h5, h6⟩ := ih { s with cur := s.cur.set c (start c - a) } rows
        (fun d => if d = c then as else subs d) (fun d => if d = c then start c - a else start d)
        (by intro x hx; simpa using hc x (by simp [hx]))
        (by
          intro d
          by_cases hd : d = c
          · subst hd
            rw [hrc, has] at hfc
            simp only [List.map_nil, List.nil_append, List.map_cons, List.cons.injEq,
              true_and] at hfc
            simp only [if_true, hrc, List.map_nil, List.nil_append]
            exact hfc
          · have := hf d
            have hne : ¬ c = d := fun h => hd h.symm
            simpa [List.filter_cons, Ev.cur, hd, hne] using this)
        (by
          intro d hd
          simp only [List.length_set] at hd
          by_cases hdc : d = c
          · subst hdc; simp [hd]
          · simp [hdc, List.getElem?_set_ne (Ne.symm hdc), hs d hd])
        (by
          intro d hd hne
          simp only [List.length_set] at hd
          by_cases hdc : d = c
          · subst hdc; exact absurd hrc hne
          · simp only [hdc, if_false]; exact hin d hd hne)
        (by
          intro d d' hd hd' hdd hne hne'
          simp only [List.length_set] at hd hd'
          by_cases hdc : d = c
          · subst hdc; exact absurd hrc hne
          · by_cases hdc' : d' = c
            · subst hdc'; exact absurd hrc hne'
            · simp only [hdc, hdc', if_false]; exact hdis d d' hd hd' hdd hne hne')
      simp only [List.length_set] at h2 h4 h5 h6
      refine ⟨s', ?_, h2, h3, ?_, ?_, ?_⟩
      · rw [List.foldlM_cons, hstep]; exact h1
      · intro d hd
        rw [h4 d hd]
        by_cases hdc : d = c
        · subst hdc; simp only [if_true, hrc, has, List.length_nil, List.sum_cons]
          congr 1; omega
        · simp only [hdc, if_false]
      · intro d hd j x hx
        by_cases hdc : d = c
        · subst hdc; rw [hrc] at hx; simp at hx
        · obtain ⟨q, hq, hq'⟩ := h5 d hd j x hx
          simp only [hdc, if_false] at hq
          exact ⟨q, hq, hq'⟩
      · intro q hq
        rw [h6]
        intro d hd
        by_cases hdc : d = c
        · subst hdc; rw [hrc]; simp only [if_true, List.length_nil]; omega
        · simp only [hdc, if_false]; exact hq d hd

/-- A selection that concerns one work item only is not affected by the interleaving. -/
theorem Interleaves.filter_eq {α : Type} {p : α → Bool} {jobs : List (List α)} {seq : List α}
    (h : Interleaves jobs seq) : ∀ (t : Nat),
    (∀ t', t' ≠ t → ∀ j, jobs[t']? = some j → j.filter p = []) →
    seq.filter p = (jobs[t]?.getD []).filter p := by
  induction h with
  | done h =>
    rename_i jobs
    intro t _
    cases hj : jobs[t]? with
    | none => rfl
    | some j => rw [h j (List.mem_of_getElem? hj)]; rfl
  | step u x xs hu hs ih =>
    rename_i jobs seq
    intro t ht
    have hul := (List.getElem?_eq_some_iff.1 hu).1
    by_cases hut : u = t
    · subst hut
      have := ih u (by
        intro t' hne j hj
        rw [List.getElem?_set_ne (Ne.symm hne)] at hj
        exact ht t' hne j hj)
      rw [List.getElem?_set_self hul] at this
      rw [List.filter_cons, hu]
      simp only [Option.getD_some] at this ⊢
      rw [this, List.filter_cons]
    · have hx := ht u hut _ hu
      rw [List.filter_cons] at hx
      have hpx : ¬ p x = true := by
        intro hp; rw [if_pos hp] at hx; cases hx
      rw [if_neg hpx] at hx
      have := ih t (by
        intro t' hne j hj
        by_cases hut' : u = t'
        · subst hut'
          rw [List.getElem?_set_self hul] at hj
          cases hj; exact hx
        · rw [List.getElem?_set_ne hut'] at hj
          exact ht t' hne j hj)
      rw [List.getElem?_set_ne hut] at this
      rw [List.filter_cons, if_neg hpx, this]

/-- Every step of the sequence belongs to a work item. -/
theorem Interleaves.mem {α : Type} {jobs : List (List α)} {seq : List α}
    (h : Interleaves jobs seq) : ∀ x ∈ seq, ∃ j ∈ jobs, x ∈ j := by
  induction h with
  | done h => simp
  | step u x xs hu hs ih =>
    intro y hy
    rcases List.mem_cons.1 hy with rfl | hy
    · exact ⟨_, List.mem_of_getElem? hu, by simp⟩
    · obtain ⟨j, hj, hy'⟩ := ih y hy
      rcases List.mem_or_eq_of_mem_set hj with hj | rfl
      · exact ⟨j, hj, hy'⟩
      · exact ⟨_, List.mem_of_getElem? hu, by simp [hy']⟩

/-- The same when the items are started in another order. -/
theorem Interleaves.filter_perm {α : Type} {p : α → Bool} {job : Nat → List α} {n : Nat}
    {calls : List Nat} {seq : List α} (hc : calls.Perm (List.range n))
    (h : Interleaves (calls.map job) seq) (t : Nat) (ht : t < n)
    (hj : ∀ t', t' < n → t' ≠ t → (job t').filter p = []) :
    seq.filter p = (job t).filter p := by
  have hm : t ∈ calls := hc.mem_iff.2 (List.mem_range.2 ht)
  obtain ⟨k, hk, hkt⟩ := List.getElem_of_mem hm
  rw [h.filter_eq k, List.getElem?_map, List.getElem?_eq_getElem hk, hkt]
  · rfl
  · intro k' hne j hjj
    rw [List.getElem?_map] at hjj
    cases hk' : calls[k']? with
    | none => rw [hk'] at hjj; cases hjj
    | some t' =>
      rw [hk'] at hjj
      simp only [Option.map_some, Option.some.injEq] at hjj
      subst hjj
      obtain ⟨hkl, hkv⟩ := List.getElem?_eq_some_iff.1 hk'
      apply hj t' (List.mem_range.1 (hc.mem_iff.1 (List.mem_of_getElem? hk')))
      intro he
      have hnd : calls.Nodup := (hc.nodup_iff).2 List.nodup_range
      have := (List.getElem_inj (xs := calls) (h₀ := hkl) (h₁ := hk) hnd).1 (by rw [hkv, hkt, he])
      exact hne this

theorem Interleaves.mem_perm {α : Type} {job : Nat → List α} {n : Nat}
    {calls : List Nat} {seq : List α} (hc : calls.Perm (List.range n))
    (h : Interleaves (calls.map job) seq) : ∀ x ∈ seq, ∃ t, t < n ∧ x ∈ job t := by
  intro x hx
  obtain ⟨j, hj, hxj⟩ := h.mem x hx
  obtain ⟨t, ht, rfl⟩ := List.mem_map.1 hj
  exact ⟨t, List.mem_range.1 (hc.mem_iff.1 ht), hxj⟩

/-- Executing the items one after the other is an interleaving. -/
theorem Interleaves.serial {α : Type} : ∀ (jobs : List (List α)), Interleaves jobs jobs.flatten := by
  intro jobs
  have gen : ∀ (l pre : List (List α)), (∀ j ∈ pre, j = []) → Interleaves (pre ++ l) l.flatten := by
    intro l
    induction l with
    | nil => intro pre h; simpa using Interleaves.done h
    | cons j l ih =>
      intro pre h
      induction j with
      | nil =>
        have := ih (pre ++ [[]]) (by
          intro j hj
          rcases List.mem_append.1 hj with hj | hj
          · exact h j hj
          · simpa using hj)
        simpa using this
      | cons x xs ihx =>
        refine Interleaves.step pre.length x xs (by simp) ?_
        rw [List.set_append_right _ _ (Nat.le_refl _)]
        simpa using ihx
  simpa using gen jobs [] (by simp)

end Riptide.Pack
