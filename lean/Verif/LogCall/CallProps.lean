import Verif.LogCall.CallLemmas
/-! # What logging does -/
namespace Riptide.LogCall

/-! ## Order -/

theorem same_map : ∀ rs : List Rec, Same rs (rs.map msgOf)
  | [] => .nil
  | _ :: rs => .cons rfl rfl rfl (same_map rs)

/-- In every history Python gets the records in the order in which the queue took them, none twice and none which was not
taken. -/
theorem handed_in_order (k : List (Nat × Sink)) (es : List Ev) (s : St) (q : Reply)
    (h : (St.init k).run es = some (.ok s q)) : ∃ rs : List Rec, rs.Sublist s.accepted ∧ Same rs s.handed := by
  have h1 := (run_inv (Inv.init k) h).order
  have h2 : s.handed.Sublist (s.accepted.map msgOf) := List.Sublist.trans (by simp) h1
  obtain ⟨rs, h3, h4⟩ := List.sublist_map_iff.mp h2
  exact ⟨rs, h3, h4 ▸ same_map rs⟩

/-- What the queue took was logged by some thread. -/
theorem accepted_were_logged (k : List (Nat × Sink)) (es : List Ev) (s : St) (q : Reply)
    (h : (St.init k).run es = some (.ok s q)) (r : Rec) (hr : r ∈ s.accepted) : .log r ∈ es := by
  refine (run_keeps (P := fun s => ∀ r, r ∈ s.accepted ++ s.pending → .log r ∈ es) (Q := fun e => e ∈ es) ?_ es _ s q
    (fun e he => he) (by simp [St.init]) h) r (by simp [hr])
  intro s s' e r he hp hs x hx
  cases e with
  | log y =>
    simp only [St.step, Option.some.injEq, Out.ok.injEq] at hs
    obtain ⟨rfl, -⟩ := hs
    unfold St.log at hx
    split at hx
    · simp only [List.mem_append, List.mem_singleton] at hx
      rcases hx with hx | hx | rfl
      · exact hp x (by simp [hx])
      · exact hp x (by simp [hx])
      · exact he
    · exact hp x hx
  | push i =>
    obtain ⟨y, hy, ⟨hm, rfl⟩ | ⟨hm, rfl⟩⟩ := push_cases hs
    · rcases List.mem_append.mp hx with hx | hx
      · exact hp x (by simp [hx])
      · exact hp x (by simp [List.mem_of_mem_eraseIdx hx])
    · simp only [List.mem_append, List.mem_singleton] at hx
      rcases hx with (hx | rfl) | hx
      · exact hp x (by simp [hx])
      · exact hp x (by simp [List.mem_of_getElem? hy])
      · exact hp x (by simp [List.mem_of_mem_eraseIdx hx])
  | tick => obtain ⟨_, rfl⟩ := tick_cases hs; exact hp x hx
  | handle el =>
    rcases handle_cases hs with ⟨_, _, rfl⟩ | ⟨_, _, rfl⟩ | ⟨_, _, _, rfl⟩ | ⟨_, _, _, rfl⟩ | ⟨_, _, _, rfl⟩ |
      ⟨_, _, _, rfl⟩ | ⟨_, _, _, _, _, rfl⟩ | ⟨_, _, _, _, rfl⟩ | ⟨_, _, _, rfl⟩ | ⟨_, _, _, _, _, _, _, rfl⟩ <;> exact hp x hx
  | throw => obtain ⟨_, _, rfl⟩ := throw_cases hs; exact hp x hx
  | enable a =>
    simp only [St.step, Option.some.injEq] at hs
    rcases enable_cases hs with rfl | ⟨_, _, _, _, _, _, _, _, _, rfl⟩ <;> exact hp x hx
  | disable t =>
    simp only [St.step, Option.some.injEq] at hs
    rcases disable_cases hs with rfl | ⟨u, rfl⟩
    · exact hp x hx
    · unfold St.stop at hx
      split at hx <;> exact hp x hx
  | join => obtain ⟨_, _, rfl⟩ := join_cases hs; exact hp x hx
  | expire => obtain ⟨_, rfl⟩ := expire_cases hs; exact hp x hx
  | cancel => obtain ⟨_, rfl⟩ := cancel_cases hs; exact hp x hx
  | python _ => simp only [St.step, Option.some.injEq, Out.ok.injEq] at hs; obtain ⟨rfl, -⟩ := hs; exact hp x hx
  | gone => simp only [St.step, Option.some.injEq, Out.ok.injEq] at hs; obtain ⟨rfl, -⟩ := hs; exact hp x hx
  | finalize => simp only [St.step, Option.some.injEq, Out.ok.injEq] at hs; obtain ⟨rfl, -⟩ := hs; exact hp x hx

/-! ## Calm histories -/

theorem sinkOf_good {names : Nat → Prop} {k : List (Nat × Sink)} (hk : GoodSinks names k) {n : Nat} (hn : names n) :
    ∃ x, sinkOf k n = some x ∧ x.hasLog = true := by
  obtain ⟨s, hs⟩ := hk.1 n hn
  unfold sinkOf
  cases hf : k.find? (·.1 = n) with
  | none =>
    have := List.find?_eq_none.mp hf _ hs
    simp at this
  | some e => exact ⟨e.2, rfl, (hk.2 e (List.mem_of_find?_eq_some hf)).2⟩

theorem update_good {k : List (Nat × Sink)} : ∀ (lv : Nat → Int), (∀ e ∈ k, e.2.level ≠ .missing) → ∃ lv', update k lv = some lv' := by
  induction k with
  | nil => exact fun lv _ => ⟨lv, rfl⟩
  | cons e k ih =>
    intro lv h
    have h1 := h e (by simp)
    cases hl : e.2.level with
    | missing => exact absurd hl h1
    | other =>
      obtain ⟨lv', h2⟩ := ih lv fun x hx => h x (by simp [hx])
      exact ⟨lv', by simpa [update, List.foldlM_cons, updateOne, hl] using h2⟩
    | int z =>
      obtain ⟨lv', h2⟩ := ih ((levelOf z).elim lv (setLevel lv e.1)) fun x hx => h x (by simp [hx])
      exact ⟨lv', by simpa [update, List.foldlM_cons, updateOne, hl] using h2⟩

/-- What holds in calm histories. -/
structure Calm (names : Nat → Prop) (s : St) : Prop where
  fin : s.finalizing = false
  sinks : GoodSinks names s.sinks
  known : ∀ r, r ∈ s.pending ++ (s.hand.batch ++ s.queue) → names r.name
  all : s.accepted.map msgOf = s.handed ++ (s.hand.batch ++ s.queue).map msgOf
  split : ∃ rs, s.accepted = rs ++ (s.hand.batch ++ s.queue)
  ended : s.hand = .ended → s.shutdown = true

theorem Calm.init {names : Nat → Prop} {k : List (Nat × Sink)} (hk : GoodSinks names k) : Calm names (St.init k) := by
  refine ⟨rfl, hk, ?_, ?_, ?_, ?_⟩ <;> simp [St.init, Hand.batch]

theorem step_calm {names : Nat → Prop} {s s' : St} {e : Ev} {q : Reply} (he : e.calm names) (hc : Calm names s)
    (h : s.step e = some (.ok s' q)) : Calm names s' := by
  obtain ⟨h1, h2, h3, h4, h5, h6⟩ := hc
  cases e with
  | log x =>
    simp only [St.step, Option.some.injEq, Out.ok.injEq] at h
    obtain ⟨rfl, -⟩ := h
    unfold St.log
    split
    · refine ⟨h1, h2, fun r hr => ?_, h4, h5, h6⟩
      simp only [List.mem_append, List.mem_singleton] at hr h3
      rcases hr with (hr | rfl) | hr
      · exact h3 r (.inl hr)
      · exact he
      · exact h3 r (.inr hr)
    · exact ⟨h1, h2, h3, h4, h5, h6⟩
  | push i =>
    obtain ⟨x, hx, ⟨hm, rfl⟩ | ⟨hm, rfl⟩⟩ := push_cases h
    · refine ⟨h1, h2, fun r hr => ?_, h4, h5, h6⟩
      simp only [List.mem_append] at hr h3
      rcases hr with hr | hr
      · exact h3 r (.inl (List.mem_of_mem_eraseIdx hr))
      · exact h3 r (.inr hr)
    · refine ⟨h1, h2, fun r hr => ?_, ?_, ?_, h6⟩
      · simp only [List.mem_append, List.mem_singleton] at hr h3
        rcases hr with hr | hr | hr | rfl
        · exact h3 r (.inl (List.mem_of_mem_eraseIdx hr))
        · exact h3 r (.inr (.inl hr))
        · exact h3 r (.inr (.inr hr))
        · exact h3 r (.inl (List.mem_of_getElem? hx))
      · simp [h4]
      · obtain ⟨rs, h5⟩ := h5
        exact ⟨rs, by simp [h5]⟩
  | tick =>
    obtain ⟨_, rfl⟩ := tick_cases h
    exact ⟨h1, h2, h3, h4, h5, h6⟩
  | handle el =>
    rcases handle_cases h with ⟨hh, ha, rfl⟩ | ⟨hh, ha, rfl⟩ | ⟨b, hh, hc, rfl⟩ | ⟨b, hh, hc, rfl⟩ | ⟨b, hh, ha, rfl⟩ |
      ⟨b, hh, ha, rfl⟩ | ⟨b, x, q, hh, hq, rfl⟩ | ⟨b, hh, hq, hw, rfl⟩ | ⟨b, hh, hf, rfl⟩ | ⟨b, lv, out, hh, hf, hu, ho, rfl⟩
    all_goals
      rw [hh] at h3 h4 h5
      simp only [Hand.batch, List.nil_append] at h3 h4 h5
    · exact ⟨h1, h2, h3, h4, h5, fun hx => (by simp at hx)⟩
    · refine ⟨h1, h2, h3, h4, h5, fun _ => ?_⟩
      simp [St.active] at ha
      exact ha.2
    · exact ⟨h1, h2, h3, h4, h5, fun hx => (by simp at hx)⟩
    · exact ⟨h1, h2, h3, h4, h5, fun hx => (by simp at hx)⟩
    · exact ⟨h1, h2, h3, h4, h5, fun hx => (by simp at hx)⟩
    · exact ⟨h1, h2, h3, h4, h5, fun hx => (by simp at hx)⟩
    · rw [hq] at h3 h4 h5
      refine ⟨h1, h2, fun r hr => h3 r (by simpa [Hand.batch] using hr), by simpa [Hand.batch] using h4, ?_,
        fun hx => (by simp at hx)⟩
      obtain ⟨rs, h5⟩ := h5
      exact ⟨rs, by simpa [Hand.batch] using h5⟩
    · exact ⟨h1, h2, h3, h4, h5, fun hx => (by simp at hx)⟩
    · rw [h1] at hf
      cases hf
    · rw [handAll_good s.sinks b s.handed fun r hr => sinkOf_good h2 (h3 r (by simp [hr]))] at ho
      cases ho
      refine ⟨h1, h2, fun r hr => h3 r ?_, by simpa [Hand.batch] using h4, ?_, fun hx => (by simp at hx)⟩
      · simp only [Hand.batch, List.mem_append, List.nil_append] at hr ⊢
        rcases hr with hr | hr
        · exact .inl hr
        · exact .inr (.inr hr)
      · obtain ⟨rs, h5⟩ := h5
        exact ⟨rs ++ b, by simpa [Hand.batch] using h5⟩
  | throw => exact he.elim
  | enable a =>
    simp only [St.step, Option.some.injEq] at h
    rcases enable_cases h with rfl | ⟨ha, hn, i, b, m, f, lv, _, hu, rfl⟩
    · exact ⟨h1, h2, h3, h4, h5, h6⟩
    · rw [hn] at h3 h4 h5
      exact ⟨h1, h2, h3, h4, h5, fun hx => (by simp at hx)⟩
  | disable t =>
    simp only [St.step, Option.some.injEq] at h
    rcases disable_cases h with rfl | ⟨u, rfl⟩
    · exact ⟨h1, h2, h3, h4, h5, h6⟩
    · unfold St.stop
      split
      · exact ⟨h1, h2, h3, h4, h5, h6⟩
      · exact ⟨h1, h2, h3, h4, h5, fun _ => rfl⟩
  | join =>
    obtain ⟨hh, _, rfl⟩ := join_cases h
    rw [hh] at h3 h4 h5
    exact ⟨h1, h2, h3, h4, h5, fun hx => (by simp at hx)⟩
  | expire => exact he.elim
  | cancel =>
    obtain ⟨_, rfl⟩ := cancel_cases h
    exact ⟨h1, h2, h3, h4, h5, h6⟩
  | python k =>
    simp only [St.step, Option.some.injEq, Out.ok.injEq] at h
    obtain ⟨rfl, -⟩ := h
    exact ⟨h1, he, h3, h4, h5, h6⟩
  | gone =>
    simp only [St.step, Option.some.injEq, Out.ok.injEq] at h
    obtain ⟨rfl, -⟩ := h
    exact ⟨h1, h2, h3, h4, h5, h6⟩
  | finalize => exact he.elim

theorem run_calm {names : Nat → Prop} {s s' : St} {es : List Ev} {q : Reply} (he : ∀ e ∈ es, e.calm names) (hc : Calm names s)
    (h : s.run es = some (.ok s' q)) : Calm names s' :=
  run_keeps (P := Calm names) (Q := Ev.calm names) (fun _ _ _ _ h1 h2 h3 => step_calm h1 h2 h3) es s s' q he hc h

/-- Without exceptions, expired timeouts and the end of the interpreter nothing which the queue took is lost: all of it was handed
over, in order, but for what the handler holds and what is still in the queue. -/
theorem nothing_lost_partial (names : Nat → Prop) (k : List (Nat × Sink)) (hk : GoodSinks names k) (es : List Ev)
    (he : ∀ e ∈ es, e.calm names) (s : St) (q : Reply) (h : (St.init k).run es = some (.ok s q)) :
    ∃ rs, s.accepted = rs ++ (s.hand.batch ++ s.queue) ∧ Same rs s.handed := by
  obtain ⟨-, -, -, h4, ⟨rs, h5⟩, -⟩ := run_calm he (Calm.init hk) h
  refine ⟨rs, h5, ?_⟩
  rw [h5, List.map_append] at h4
  rw [← List.append_cancel_right h4]
  exact same_map rs

/-- Such a history is never undefined. -/
theorem calm_is_defined (names : Nat → Prop) (k : List (Nat × Sink)) (hk : GoodSinks names k) (es : List Ev)
    (he : ∀ e ∈ es, e.calm names) : (St.init k).run es ≠ some .undefined := by
  have main : ∀ (es : List Ev) (s : St), Calm names s → (∀ e ∈ es, e.calm names) → s.run es ≠ some .undefined := by
    intro es
    induction es with
    | nil => intro s _ _ h; simp [St.run] at h
    | cons e es ih =>
      intro s hc he h
      simp only [St.run] at h
      cases hs : s.step e with
      | none => simp [hs] at h
      | some o =>
        rw [hs] at h
        cases o with
        | ok t q => exact ih t (step_calm (he e (by simp)) hc hs) (fun x hx => he x (by simp [hx])) h
        | terminated => simp [runOn] at h
        | undefined =>
          obtain ⟨lv, hlv⟩ := update_good s.levels fun e he => (hc.sinks.2 e he).1
          cases e with
          | log r => simp [St.step] at hs
          | push i => simp only [St.step, St.push] at hs; split at hs <;> (try split at hs) <;> simp at hs
          | tick => simp only [St.step] at hs; split at hs <;> simp at hs
          | handle el =>
            simp only [St.step, St.handle] at hs
            split at hs <;> (try simp at hs)
            · split at hs <;> (try simp at hs)
            · rename_i b hb
              have h3 := hc.known
              rw [hb] at h3
              have ho := handAll_good s.sinks b s.handed fun r hr => sinkOf_good hc.sinks (h3 r (by simp [Hand.batch, hr]))
              simp [St.flush, hc.fin, hlv, ho] at hs
          | throw => exact he .throw (by simp)
          | enable a =>
            simp only [St.step, Option.some.injEq, St.enable] at hs
            split at hs
            · cases hs
            · split at hs
              · cases hs
              · split at hs
                · simp only [St.start, hlv] at hs
                  split at hs <;> cases hs
                · cases hs
          | disable t =>
            simp only [St.step, Option.some.injEq, St.disable] at hs
            split at hs
            · split at hs
              · cases hs
              · split at hs <;> cases hs
            · cases hs
          | join => simp only [St.step, St.join] at hs; split at hs <;> simp at hs
          | expire => exact he .expire (by simp)
          | cancel => simp only [St.step, St.cancel] at hs; split at hs <;> simp at hs
          | python k => simp [St.step] at hs
          | gone => simp [St.step] at hs
          | finalize => exact he .finalize (by simp)
  exact main es _ (Calm.init hk) he

/-- The program is ended by a step only when logging is enabled while another thread waits for the handler in `DisableLogging`. -/
theorem terminates_only (k : List (Nat × Sink)) (es : List Ev) (s : St) (q : Reply) (h : (St.init k).run es = some (.ok s q))
    (e : Ev) (he : s.step e = some .terminated) : (∃ i b m f, e = .enable (.given i b m f)) ∧ ∃ t, s.dis = .joining t := by
  have hI : s.hand ≠ .none → s.shutdown = true → ∃ t, s.dis = .joining t := by
    refine run_keeps (P := fun s => s.hand ≠ .none → s.shutdown = true → ∃ t, s.dis = .joining t) (Q := fun _ => True) ?_ es _ s q
      (fun _ _ => trivial) (by simp [St.init]) h
    intro s s' e r _ hp hs
    cases e with
    | log y =>
      simp only [St.step, Option.some.injEq, Out.ok.injEq] at hs
      obtain ⟨rfl, -⟩ := hs
      unfold St.log
      split <;> exact hp
    | push i => obtain ⟨y, hy, ⟨hm, rfl⟩ | ⟨hm, rfl⟩⟩ := push_cases hs <;> exact hp
    | tick => obtain ⟨_, rfl⟩ := tick_cases hs; exact hp
    | handle el =>
      rcases handle_cases hs with ⟨hh, _, rfl⟩ | ⟨hh, _, rfl⟩ | ⟨_, hh, _, rfl⟩ | ⟨_, hh, _, rfl⟩ | ⟨_, hh, _, rfl⟩ |
        ⟨_, hh, _, rfl⟩ | ⟨_, _, _, hh, _, rfl⟩ | ⟨_, hh, _, _, rfl⟩ | ⟨_, hh, _, rfl⟩ | ⟨_, _, _, hh, _, _, _, rfl⟩ <;>
        exact fun _ => hp (by simp [hh])
    | throw => obtain ⟨hh, _, rfl⟩ := throw_cases hs; exact fun _ => hp hh
    | enable a =>
      simp only [St.step, Option.some.injEq] at hs
      rcases enable_cases hs with rfl | ⟨_, _, _, _, _, _, _, _, _, rfl⟩
      · exact hp
      · intro _ hx
        simp at hx
    | disable t =>
      simp only [St.step, Option.some.injEq] at hs
      rcases disable_cases hs with rfl | ⟨u, rfl⟩
      · exact hp
      · unfold St.stop
        split
        · exact hp
        · intro hn _
          exact ⟨u, if_neg hn⟩
    | join =>
      obtain ⟨_, _, rfl⟩ := join_cases hs
      exact fun hx => absurd rfl hx
    | expire => obtain ⟨_, rfl⟩ := expire_cases hs; exact fun _ _ => ⟨none, rfl⟩
    | cancel => obtain ⟨_, rfl⟩ := cancel_cases hs; exact hp
    | python _ => simp only [St.step, Option.some.injEq, Out.ok.injEq] at hs; obtain ⟨rfl, -⟩ := hs; exact hp
    | gone => simp only [St.step, Option.some.injEq, Out.ok.injEq] at hs; obtain ⟨rfl, -⟩ := hs; exact hp
    | finalize => simp only [St.step, Option.some.injEq, Out.ok.injEq] at hs; obtain ⟨rfl, -⟩ := hs; exact hp
  cases e with
  | log r => simp [St.step] at he
  | push i => simp only [St.step, St.push] at he; split at he <;> (try split at he) <;> simp at he
  | tick => simp only [St.step] at he; split at he <;> simp at he
  | handle el =>
    simp only [St.step, St.handle] at he
    split at he <;> (try simp at he)
    · split at he <;> (try simp at he)
    · simp only [St.flush] at he
      split at he
      · cases he
      · split at he <;> cases he
  | throw =>
    simp only [St.step, St.throw] at he
    split at he <;> (try split at he) <;> simp at he
  | enable a =>
    simp only [St.step, Option.some.injEq, St.enable] at he
    split at he
    · cases he
    · rename_i ha
      split at he
      · cases he
      · rename_i i b m f
        split at he
        · simp only [St.start] at he
          split at he
          · cases he
          · split at he
            · cases he
            · rename_i hn
              refine ⟨⟨i, b, m, f, rfl⟩, hI hn ?_⟩
              simp [St.active] at ha
              exact ha.2
        · cases he
  | disable t =>
    simp only [St.step, Option.some.injEq, St.disable] at he
    split at he
    · split at he
      · cases he
      · split at he <;> cases he
    · cases he
  | join => simp only [St.step, St.join] at he; split at he <;> simp at he
  | expire => simp only [St.step, St.expire] at he; split at he <;> simp at he
  | cancel => simp only [St.step, St.cancel] at he; split at he <;> simp at he
  | python k => simp [St.step] at he
  | gone => simp [St.step] at he
  | finalize => simp [St.step] at he

end Riptide.LogCall
