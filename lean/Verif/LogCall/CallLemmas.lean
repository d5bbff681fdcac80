import Verif.LogCall.CallSpec
/-! # Lemmas about logging -/
namespace Riptide.LogCall

/-- What holds in every history. -/
structure Inv (s : St) : Prop where
  on : s.shutdown = false → s.hand ≠ .none
  joining : ∀ t, s.dis = .joining t → s.shutdown = true ∧ s.hand ≠ .none
  order : (s.handed ++ (s.hand.batch ++ s.queue).map msgOf).Sublist (s.accepted.map msgOf)

theorem Inv.init (k : List (Nat × Sink)) : Inv (St.init k) := by
  constructor <;> simp [St.init, Hand.batch]

theorem handAll_sub (k : List (Nat × Sink)) : ∀ (b : List Rec) (out out' : List Msg),
    handAll k out b = some out' → out'.Sublist (out ++ b.map msgOf) ∧ ∃ new, out' = out ++ new
  | [], out, out', h => by
    simp only [handAll, List.foldlM_nil] at h
    cases h
    exact ⟨by simp, [], by simp⟩
  | r :: b, out, out', h => by
    simp only [handAll, List.foldlM_cons, handOne] at h
    cases hk : sinkOf k r.name with
    | none => simp [hk] at h
    | some x =>
      simp only [hk, Option.map_some, Option.bind_eq_bind, Option.bind_some] at h
      have ih := handAll_sub k b _ _ h
      split at ih
      · refine ⟨by simpa using ih.1, ?_⟩
        obtain ⟨new, hn⟩ := ih.2
        exact ⟨msgOf r :: new, by simp [hn]⟩
      · refine ⟨ih.1.trans ?_, ih.2⟩
        simp

theorem handAll_good (k : List (Nat × Sink)) : ∀ (b : List Rec) (out : List Msg),
    (∀ r ∈ b, ∃ x, sinkOf k r.name = some x ∧ x.hasLog = true) → handAll k out b = some (out ++ b.map msgOf)
  | [], out, h => by simp [handAll]
  | r :: b, out, h => by
    obtain ⟨x, hx, hl⟩ := h r (by simp)
    have ih := handAll_good k b (out ++ [msgOf r]) fun q hq => h q (by simp [hq])
    simp only [handAll] at ih ⊢
    simp [List.foldlM_cons, handOne, hx, hl, ih]

theorem flush_cases {s s' : St} {b : List Rec} {r : Reply} (h : s.flush b = .ok s' r) :
    (s.finalizing = true ∧ s' = { s with hand := .ended }) ∨
      (s.finalizing = false ∧ ∃ lv out, update s.sinks s.levels = some lv ∧ handAll s.sinks s.handed b = some out ∧
        s' = { s with levels := lv, handed := out, hand := .top }) := by
  unfold St.flush at h
  split at h
  · rename_i hf
    cases h
    exact .inl ⟨hf, rfl⟩
  · rename_i hf
    split at h
    · rename_i lv out h1 h2
      cases h
      exact .inr ⟨by simpa using hf, lv, out, h1, h2, rfl⟩
    · cases h

theorem start_cases {s s' : St} {i b m : Int} {f : Bool} {r : Reply} (h : s.start i b m f = .ok s' r) :
    s.hand = .none ∧ r = .pyNone ∧ ∃ lv, update s.sinks s.levels = some lv ∧
      s' = { s with callback := (if f then some true else none), shutdown := false, interval := i, batch := (b % 2 ^ 32).toNat, max := (m % 2 ^ 32).toNat, flusher := true, levels := lv, hand := .top } := by
  unfold St.start at h
  split at h
  · cases h
  · rename_i lv h1
    split at h
    · rename_i h2
      cases h
      exact ⟨h2, rfl, lv, h1, rfl⟩
    · cases h

theorem enable_cases {s s' : St} {a : Args} {r : Reply} (h : s.enable a = .ok s' r) :
    s' = s ∨ (s.active = false ∧ s.hand = .none ∧ ∃ i b m f lv, a = .given i b m f ∧ update s.sinks s.levels = some lv ∧
      s' = { s with callback := (if f then some true else none), shutdown := false, interval := i, batch := (b % 2 ^ 32).toNat, max := (m % 2 ^ 32).toNat, flusher := true, levels := lv, hand := .top }) := by
  unfold St.enable at h
  split at h
  · cases h
    exact .inl rfl
  · rename_i ha
    split at h
    · cases h
      exact .inl rfl
    · rename_i i b m f
      split at h
      · obtain ⟨h1, _, lv, h2, h3⟩ := start_cases h
        exact .inr ⟨by simpa using ha, h1, i, b, m, f, lv, rfl, h2, h3⟩
      · cases h
        exact .inl rfl

theorem disable_cases {s s' : St} {t : Option Int} {r : Reply} (h : s.disable t = .ok s' r) :
    s' = s ∨ ∃ u, s' = s.stop u := by
  unfold St.disable at h
  split at h
  · split at h
    · cases h
      exact .inl rfl
    · split at h
      · cases h
        exact .inr ⟨_, rfl⟩
      · cases h
        exact .inl rfl
  · cases h
    exact .inl rfl

/-- The cases of a step of the handler. -/
theorem handle_cases {s s' : St} {e : Int} {r : Reply} (h : s.handle e = some (.ok s' r)) :
    (s.hand = .top ∧ s.active = true ∧ s' = { s with hand := .fill [] }) ∨
    (s.hand = .top ∧ s.active = false ∧ s' = { s with hand := .ended }) ∨
    (∃ b, s.hand = .fill b ∧ (b.length < s.batch ∧ e < s.interval) ∧ s' = { s with hand := .recv b }) ∨
    (∃ b, s.hand = .fill b ∧ ¬ (b.length < s.batch ∧ e < s.interval) ∧ s' = { s with hand := .full b }) ∨
    (∃ b, s.hand = .recv b ∧ s.active = true ∧ s' = { s with hand := .pop b }) ∨
    (∃ b, s.hand = .recv b ∧ s.active = false ∧ s' = { s with hand := .full b }) ∨
    (∃ b x q, s.hand = .pop b ∧ s.queue = x :: q ∧ s' = { s with queue := q, hand := .fill (b ++ [x]) }) ∨
    (∃ b, s.hand = .pop b ∧ s.queue = [] ∧ s.wait = false ∧ s' = { s with wait := true, hand := .full b }) ∨
    (∃ b, s.hand = .full b ∧ s.finalizing = true ∧ s' = { s with hand := .ended }) ∨
    (∃ b lv out, s.hand = .full b ∧ s.finalizing = false ∧ update s.sinks s.levels = some lv ∧
      handAll s.sinks s.handed b = some out ∧ s' = { s with levels := lv, handed := out, hand := .top }) := by
  unfold St.handle at h
  split at h
  · cases h
  · rename_i hh
    cases ha : s.active <;> simp only [ha, Option.some.injEq, Out.ok.injEq] at h <;> obtain ⟨rfl, -⟩ := h
    · exact .inr (.inl ⟨hh, rfl, by simp⟩)
    · exact .inl ⟨hh, rfl, by simp⟩
  · rename_i b hh
    by_cases hc : b.length < s.batch ∧ e < s.interval
    · rw [if_pos hc] at h
      cases h
      exact .inr (.inr (.inl ⟨b, hh, hc, rfl⟩))
    · rw [if_neg hc] at h
      cases h
      exact .inr (.inr (.inr (.inl ⟨b, hh, hc, rfl⟩)))
  · rename_i b hh
    cases ha : s.active <;> simp only [ha, Option.some.injEq, Out.ok.injEq] at h <;> obtain ⟨rfl, -⟩ := h
    · exact .inr (.inr (.inr (.inr (.inr (.inl ⟨b, hh, rfl, by simp⟩)))))
    · exact .inr (.inr (.inr (.inr (.inl ⟨b, hh, rfl, by simp⟩))))
  · rename_i b hh
    split at h
    · rename_i x q hq
      cases h
      exact .inr (.inr (.inr (.inr (.inr (.inr (.inl ⟨b, x, q, hh, hq, rfl⟩))))))
    · rename_i hq
      split at h
      · cases h
      · rename_i hw
        cases h
        exact .inr (.inr (.inr (.inr (.inr (.inr (.inr (.inl ⟨b, hh, hq, by simpa using hw, rfl⟩)))))))
  · rename_i b hh
    have h : s.flush b = .ok s' r := by simpa using h
    rcases flush_cases h with ⟨h1, h2⟩ | ⟨h1, lv, out, h2, h3, h4⟩
    · exact .inr (.inr (.inr (.inr (.inr (.inr (.inr (.inr (.inl ⟨b, hh, h1, h2⟩))))))))
    · exact .inr (.inr (.inr (.inr (.inr (.inr (.inr (.inr (.inr ⟨b, lv, out, hh, h1, h2, h3, h4⟩))))))))
  · cases h

theorem throw_cases {s s' : St} {r : Reply} (h : s.throw = some (.ok s' r)) :
    s.hand ≠ .none ∧ s.hand ≠ .ended ∧ s' = { s with hand := .ended } := by
  unfold St.throw at h
  split at h
  · cases h
  · cases h
  · rename_i h1 h2
    split at h
    · cases h
    · cases h
      exact ⟨h1, h2, rfl⟩

theorem push_cases {s s' : St} {i : Nat} {r : Reply} (h : s.push i = some (.ok s' r)) :
    ∃ x, s.pending[i]? = some x ∧
      ((s.queue.length ≥ s.max ∧ s' = { s with pending := s.pending.eraseIdx i }) ∨
       (s.queue.length < s.max ∧
        s' = { s with pending := s.pending.eraseIdx i, queue := s.queue ++ [x], accepted := s.accepted ++ [x] })) := by
  unfold St.push at h
  split at h
  · cases h
  · rename_i x hx
    split at h
    · rename_i hm
      cases h
      exact ⟨x, hx, .inl ⟨hm, rfl⟩⟩
    · rename_i hm
      cases h
      exact ⟨x, hx, .inr ⟨by omega, rfl⟩⟩

theorem join_cases {s s' : St} {r : Reply} (h : s.join = some (.ok s' r)) :
    s.hand = .ended ∧ (∃ t, s.dis = .joining t) ∧ s' = { s with hand := .none, dis := .idle, stops := s.stops + 1 } := by
  unfold St.join at h
  split at h
  · rename_i t h1 h2
    cases h
    exact ⟨h2, ⟨t, h1⟩, rfl⟩
  · cases h

theorem expire_cases {s s' : St} {r : Reply} (h : s.expire = some (.ok s' r)) :
    (∃ t, s.dis = .joining (some t)) ∧ s' = { s with queue := [], wait := false, dis := .joining none } := by
  unfold St.expire at h
  split at h
  · rename_i t h1
    cases h
    exact ⟨⟨t, h1⟩, rfl⟩
  · cases h

theorem cancel_cases {s s' : St} {r : Reply} (h : s.cancel = some (.ok s' r)) :
    s.stops ≠ 0 ∧ s' = { s with flusher := false, stops := s.stops - 1 } := by
  unfold St.cancel at h
  split at h
  · cases h
  · rename_i h1
    cases h
    exact ⟨h1, rfl⟩

theorem tick_cases {s s' : St} {r : Reply} (h : s.step .tick = some (.ok s' r)) :
    s.flusher = true ∧ s' = { s with wait := false } := by
  simp only [St.step] at h
  split at h
  · rename_i hf
    cases h
    exact ⟨hf, rfl⟩
  · cases h

/-- Every step keeps the invariant. -/
theorem step_inv {s s' : St} {e : Ev} {r : Reply} (hi : Inv s) (h : s.step e = some (.ok s' r)) : Inv s' := by
  obtain ⟨h1, h2, h3⟩ := hi
  cases e with
  | log x =>
    simp only [St.step, Option.some.injEq, Out.ok.injEq] at h
    obtain ⟨rfl, -⟩ := h
    unfold St.log
    split
    · exact ⟨h1, h2, h3⟩
    · exact ⟨h1, h2, h3⟩
  | push i =>
    obtain ⟨x, hx, ⟨hm, rfl⟩ | ⟨hm, rfl⟩⟩ := push_cases h
    · exact ⟨h1, h2, h3⟩
    · refine ⟨h1, h2, ?_⟩
      have := List.Sublist.append h3 (List.Sublist.refl [msgOf x])
      simpa [List.append_assoc] using this
  | tick =>
    obtain ⟨_, rfl⟩ := tick_cases h
    exact ⟨h1, h2, h3⟩
  | handle el =>
    rcases handle_cases h with ⟨hh, ha, rfl⟩ | ⟨hh, ha, rfl⟩ | ⟨b, hh, hc, rfl⟩ | ⟨b, hh, hc, rfl⟩ | ⟨b, hh, ha, rfl⟩ |
      ⟨b, hh, ha, rfl⟩ | ⟨b, x, q, hh, hq, rfl⟩ | ⟨b, hh, hq, hw, rfl⟩ | ⟨b, hh, hf, rfl⟩ | ⟨b, lv, out, hh, hf, hu, ho, rfl⟩
    all_goals
      rw [hh] at h3
      refine ⟨fun _ => (by simp), fun t ht => ⟨(h2 t ht).1, (by simp)⟩, ?_⟩
      simp only [Hand.batch, List.nil_append] at h3 ⊢
    · exact h3
    · exact h3
    · exact h3
    · exact h3
    · exact h3
    · exact h3
    · rw [hq] at h3
      simpa using h3
    · exact h3
    · refine List.Sublist.trans ?_ h3
      simp
    · have := (handAll_sub _ _ _ _ ho).1
      refine List.Sublist.trans ?_ h3
      have := List.Sublist.append this (List.Sublist.refl (s.queue.map msgOf))
      simpa using this
  | throw =>
    obtain ⟨_, _, rfl⟩ := throw_cases h
    refine ⟨fun _ => (by simp), fun t ht => ⟨(h2 t ht).1, (by simp)⟩, ?_⟩
    refine List.Sublist.trans ?_ h3
    simp [Hand.batch]
  | enable a =>
    simp only [St.step, Option.some.injEq] at h
    rcases enable_cases h with rfl | ⟨ha, hn, i, b, m, f, lv, _, hu, rfl⟩
    · exact ⟨h1, h2, h3⟩
    · refine ⟨fun _ => (by simp), fun t ht => ?_, ?_⟩
      · exact absurd hn (h2 t ht).2
      · rw [hn] at h3
        exact h3
  | disable t =>
    simp only [St.step, Option.some.injEq] at h
    rcases disable_cases h with rfl | ⟨u, rfl⟩
    · exact ⟨h1, h2, h3⟩
    · unfold St.stop
      split
      · exact ⟨h1, h2, h3⟩
      · rename_i hs
        have hn := h1 (by simpa using hs)
        refine ⟨fun hx => (by simp at hx), fun t ht => ⟨rfl, hn⟩, h3⟩
  | join =>
    obtain ⟨he, ⟨t, ht⟩, rfl⟩ := join_cases h
    refine ⟨fun hs => ?_, fun t ht => (by simp at ht), ?_⟩
    · have := (h2 t ht).1
      simp only at hs
      rw [this] at hs
      cases hs
    · rw [he] at h3
      exact h3
  | expire =>
    obtain ⟨⟨t, ht⟩, rfl⟩ := expire_cases h
    refine ⟨h1, fun u hu => h2 _ ht, ?_⟩
    refine List.Sublist.trans ?_ h3
    simp
  | cancel =>
    obtain ⟨_, rfl⟩ := cancel_cases h
    exact ⟨h1, h2, h3⟩
  | python k =>
    simp only [St.step, Option.some.injEq, Out.ok.injEq] at h
    obtain ⟨rfl, -⟩ := h
    exact ⟨h1, h2, h3⟩
  | gone =>
    simp only [St.step, Option.some.injEq, Out.ok.injEq] at h
    obtain ⟨rfl, -⟩ := h
    exact ⟨h1, h2, h3⟩
  | finalize =>
    simp only [St.step, Option.some.injEq, Out.ok.injEq] at h
    obtain ⟨rfl, -⟩ := h
    exact ⟨h1, h2, h3⟩

/-- A history is a step and a history. -/
theorem run_cons {s s' : St} {e : Ev} {es : List Ev} {r : Reply} (h : s.run (e :: es) = some (.ok s' r)) :
    ∃ t q, s.step e = some (.ok t q) ∧ t.run es = some (.ok s' r) := by
  simp only [St.run] at h
  cases hs : s.step e with
  | none => simp [hs] at h
  | some o =>
    rw [hs] at h
    cases o with
    | ok t q => exact ⟨t, q, rfl, h⟩
    | terminated => simp [runOn] at h
    | undefined => simp [runOn] at h

/-- What steps keep, histories keep. -/
theorem run_keeps {P : St → Prop} {Q : Ev → Prop}
    (hstep : ∀ s s' e r, Q e → P s → s.step e = some (.ok s' r) → P s') :
    ∀ (es : List Ev) (s s' : St) (r : Reply), (∀ e ∈ es, Q e) → P s → s.run es = some (.ok s' r) → P s'
  | [], s, s', r, _, hp, h => by
    simp only [St.run, Option.some.injEq, Out.ok.injEq] at h
    exact h.1 ▸ hp
  | e :: es, s, s', r, hq, hp, h => by
    obtain ⟨t, q, h1, h2⟩ := run_cons h
    exact run_keeps hstep es t s' r (fun x hx => hq x (by simp [hx])) (hstep s t e q (hq e (by simp)) hp h1) h2

theorem run_inv {s s' : St} {es : List Ev} {r : Reply} (hi : Inv s) (h : s.run es = some (.ok s' r)) : Inv s' :=
  run_keeps (P := Inv) (Q := fun _ => True) (fun _ _ _ _ _ hp h => step_inv hp h) es s s' r (fun _ _ => trivial) hi h

end Riptide.LogCall
