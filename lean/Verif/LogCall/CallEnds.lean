import Verif.LogCall.CallProps
/-! # What `DisableLogging` waits for, levels and names -/
namespace Riptide.LogCall

/-! ## Disabling -/

/-- After logging was disabled and no thread is about to push. -/
structure Closing (a : List Rec) (s : St) : Prop where
  off : s.shutdown = true
  none : s.pending = []
  same : s.accepted = a
  empty : s.hand = .ended ∨ s.hand = .none → s.queue = []
  wakes : ∀ b, s.hand = .pop b → s.queue = [] → s.wait = false

/-- A step other than `EnableLogging`. -/
def Ev.noStart : Ev → Prop
  | .enable _ => False
  | _ => True

theorem step_closing {names : Nat → Prop} {a : List Rec} {s s' : St} {e : Ev} {q : Reply} (he : e.calm names) (hn : e.noStart)
    (hc : Calm names s) (hp : Closing a s) (h : s.step e = some (.ok s' q)) : Closing a s' := by
  obtain ⟨h1, h2, h3, h4, h5⟩ := hp
  cases e with
  | log x =>
    simp only [St.step, Option.some.injEq, Out.ok.injEq] at h
    obtain ⟨rfl, -⟩ := h
    have : s.log x = s := by simp [St.log, St.wants, h1]
    rw [this]
    exact ⟨h1, h2, h3, h4, h5⟩
  | push i =>
    obtain ⟨x, hx, _⟩ := push_cases h
    simp [h2] at hx
  | tick =>
    obtain ⟨_, rfl⟩ := tick_cases h
    exact ⟨h1, h2, h3, h4, fun _ _ _ => rfl⟩
  | handle el =>
    rcases handle_cases h with ⟨hh, ha, rfl⟩ | ⟨hh, ha, rfl⟩ | ⟨b, hh, hc, rfl⟩ | ⟨b, hh, hc, rfl⟩ | ⟨b, hh, ha, rfl⟩ |
      ⟨b, hh, ha, rfl⟩ | ⟨b, x, q, hh, hq, rfl⟩ | ⟨b, hh, hq, hw, rfl⟩ | ⟨b, hh, hf, rfl⟩ | ⟨b, lv, out, hh, hf, hu, ho, rfl⟩
    · exact ⟨h1, h2, h3, fun hx => (by simp at hx), fun b hx => (by simp at hx)⟩
    · refine ⟨h1, h2, h3, fun _ => ?_, fun b hx => (by simp at hx)⟩
      simp [St.active] at ha
      exact ha.1
    · exact ⟨h1, h2, h3, fun hx => (by simp at hx), fun b hx => (by simp at hx)⟩
    · exact ⟨h1, h2, h3, fun hx => (by simp at hx), fun b hx => (by simp at hx)⟩
    · refine ⟨h1, h2, h3, fun hx => (by simp at hx), fun b _ hq => ?_⟩
      simp only at hq
      simp [St.active, h1, hq] at ha
    · exact ⟨h1, h2, h3, fun hx => (by simp at hx), fun b hx => (by simp at hx)⟩
    · exact ⟨h1, h2, h3, fun hx => (by simp at hx), fun b hx => (by simp at hx)⟩
    · exact ⟨h1, h2, h3, fun hx => (by simp at hx), fun b hx => (by simp at hx)⟩
    · rw [hc.fin] at hf
      cases hf
    · exact ⟨h1, h2, h3, fun hx => (by simp at hx), fun b hx => (by simp at hx)⟩
  | throw => exact he.elim
  | enable a => exact hn.elim
  | disable t =>
    simp only [St.step, Option.some.injEq] at h
    rcases disable_cases h with rfl | ⟨u, rfl⟩
    · exact ⟨h1, h2, h3, h4, h5⟩
    · rw [show s.stop u = s from if_pos h1]
      exact ⟨h1, h2, h3, h4, h5⟩
  | join =>
    obtain ⟨hh, _, rfl⟩ := join_cases h
    exact ⟨h1, h2, h3, fun _ => h4 (.inl hh), fun b hx => (by simp at hx)⟩
  | expire => exact he.elim
  | cancel =>
    obtain ⟨_, rfl⟩ := cancel_cases h
    exact ⟨h1, h2, h3, h4, h5⟩
  | python k =>
    simp only [St.step, Option.some.injEq, Out.ok.injEq] at h
    obtain ⟨rfl, -⟩ := h
    exact ⟨h1, h2, h3, h4, h5⟩
  | gone =>
    simp only [St.step, Option.some.injEq, Out.ok.injEq] at h
    obtain ⟨rfl, -⟩ := h
    exact ⟨h1, h2, h3, h4, h5⟩
  | finalize => exact he.elim

/-- `DisableLogging` of an enabled service with an argument which is a `long` sets off the end. -/
theorem disable_step {s : St} {t : Int} (ht : -(2 ^ 63) ≤ t ∧ t < 2 ^ 63) (hs : s.shutdown = false) (hn : s.hand ≠ .none) :
    s.step (.disable (some t)) = some (.ok { s with shutdown := true, wait := false, dis := .joining (if t = -1 then none else some t) } .pyNone) := by
  have ha : s.active = true := by simp [St.active, hs]
  simp only [St.step, St.disable, ha, if_true, if_pos ht]
  unfold St.stop
  rw [if_neg (by simp [hs]), if_neg hn, if_neg hn]

/-- When no thread is between the test of its level and the queue, `DisableLogging` waits until all that was logged has been handed to
Python: when the handler has been joined nothing is in the queue and Python has got every record. -/
theorem disable_flushes_partial (names : Nat → Prop) (k : List (Nat × Sink)) (hk : GoodSinks names k) (es fs : List Ev)
    (he : ∀ e ∈ es, e.calm names) (hf : ∀ e ∈ fs, e.calm names ∧ e.noStart) (s s' : St) (q q' : Reply)
    (h : (St.init k).run es = some (.ok s q)) (hs : s.shutdown = false) (hp : s.pending = []) (t : Int)
    (ht : -(2 ^ 63) ≤ t ∧ t < 2 ^ 63) (h' : s.run (.disable (some t) :: fs) = some (.ok s' q')) (hd : s'.dis = .idle) :
    s'.queue = [] ∧ s'.accepted = s.accepted ∧ Same s'.accepted s'.handed := by
  have hn := (run_inv (Inv.init k) h).on hs
  have hc := run_calm he (Calm.init hk) h
  obtain ⟨u, p, h1, h2⟩ := run_cons h'
  rw [disable_step ht hs hn] at h1
  cases h1
  let u : St := { s with shutdown := true, wait := false, dis := .joining (if t = -1 then none else some t) }
  have hu : Calm names u := ⟨hc.fin, hc.sinks, hc.known, hc.all, hc.split, fun _ => rfl⟩
  have hcl : Closing s.accepted u := by
    refine ⟨rfl, hp, rfl, fun hx => ?_, fun _ _ _ => rfl⟩
    rcases hx with hx | hx
    · have h6 := hc.ended hx
      rw [hs] at h6
      cases h6
    · exact absurd hx hn
  have hj : Calm names s' ∧ Closing s.accepted s' ∧ (s'.dis = .idle → s'.hand = .none) := by
    refine run_keeps (P := fun s' => Calm names s' ∧ Closing s.accepted s' ∧ (s'.dis = .idle → s'.hand = .none))
      (Q := fun e => e.calm names ∧ e.noStart) ?_ fs u s' q' hf ⟨hu, hcl, fun hx => (by simp [u] at hx)⟩ h2
    intro x x' e r hq hx hstep
    refine ⟨step_calm hq.1 hx.1 hstep, step_closing hq.1 hq.2 hx.1 hx.2.1 hstep, ?_⟩
    have hx3 := hx.2.2
    cases e with
    | log y =>
      simp only [St.step, Option.some.injEq, Out.ok.injEq] at hstep
      obtain ⟨rfl, -⟩ := hstep
      unfold St.log
      split <;> exact hx3
    | push i => obtain ⟨y, hy, ⟨hm, rfl⟩ | ⟨hm, rfl⟩⟩ := push_cases hstep <;> exact hx3
    | tick => obtain ⟨_, rfl⟩ := tick_cases hstep; exact hx3
    | handle el =>
      rcases handle_cases hstep with ⟨hh, _, rfl⟩ | ⟨hh, _, rfl⟩ | ⟨_, hh, _, rfl⟩ | ⟨_, hh, _, rfl⟩ | ⟨_, hh, _, rfl⟩ |
        ⟨_, hh, _, rfl⟩ | ⟨_, _, _, hh, _, rfl⟩ | ⟨_, hh, _, _, rfl⟩ | ⟨_, hh, _, rfl⟩ | ⟨_, _, _, hh, _, _, _, rfl⟩ <;>
      · intro hy
        have := hx3 hy
        rw [hh] at this
        cases this
    | throw => exact hq.1.elim
    | enable a => exact hq.2.elim
    | disable t =>
      simp only [St.step, Option.some.injEq] at hstep
      rcases disable_cases hstep with rfl | ⟨u, rfl⟩
      · exact hx3
      · rw [show x.stop u = x from if_pos hx.2.1.off]
        exact hx3
    | join => obtain ⟨_, _, rfl⟩ := join_cases hstep; exact fun _ => rfl
    | expire => exact hq.1.elim
    | cancel => obtain ⟨_, rfl⟩ := cancel_cases hstep; exact hx3
    | python _ => simp only [St.step, Option.some.injEq, Out.ok.injEq] at hstep; obtain ⟨rfl, -⟩ := hstep; exact hx3
    | gone => simp only [St.step, Option.some.injEq, Out.ok.injEq] at hstep; obtain ⟨rfl, -⟩ := hstep; exact hx3
    | finalize => exact hq.1.elim
  obtain ⟨hc', hcl', hd'⟩ := hj
  have hnone := hd' hd
  have hq := hcl'.empty (.inr hnone)
  refine ⟨hq, hcl'.same, ?_⟩
  have hall := hc'.all
  rw [hnone, hq] at hall
  simp only [Hand.batch, List.append_nil, List.map_nil] at hall
  rw [← hall]
  exact same_map _

/-- How many steps the handler needs at most before it returns. -/
def left (n : Nat) : Hand → Nat
  | .none => 0
  | .ended => 0
  | .top => if n = 0 then 1 else 12 * n + 4
  | .fill b => if n = 0 then 6 else if b = [] then 12 * n + 3 else 12 * n + 9
  | .recv b => if n = 0 then 5 else if b = [] then 12 * n + 2 else 12 * n + 8
  | .pop b => if n = 0 then 4 else if b = [] then 12 * n + 1 else 12 * n + 7
  | .full _ => if n = 0 then 3 else 12 * n + 5

/-- After `DisableLogging` set off the end the handler can always go on, and each of its steps brings it nearer to its return, when the
batch size is not 0 and the interval has not passed at the tests of the inner loop. -/
theorem closing_step {names : Nat → Prop} {a : List Rec} {s : St} (hc : Calm names s) (hp : Closing a s) (hb : 0 < s.batch)
    (h1 : s.hand ≠ .ended) (h2 : s.hand ≠ .none) (e : Int) (he : e < s.interval) :
    ∃ s', s.handle e = some (.ok s' .silent) ∧ left s'.queue.length s'.hand < left s.queue.length s.hand ∧
      s'.batch = s.batch ∧ s'.interval = s.interval := by
  obtain ⟨p1, p2, p3, p4, p5⟩ := hp
  have hact : s.active = !s.queue.isEmpty := by simp [St.active, p1]
  cases hh : s.hand with
  | none => exact absurd hh h2
  | ended => exact absurd hh h1
  | top =>
    cases hq : s.queue with
    | nil => exact ⟨{ s with hand := .ended }, by simp [St.handle, hh, hact, hq], by simp [left], rfl, rfl⟩
    | cons x q => exact ⟨{ s with hand := .fill [] }, by simp [St.handle, hh, hact, hq], by simp [hq, left], rfl, rfl⟩
  | fill b =>
    by_cases hl : b.length < s.batch ∧ e < s.interval
    · refine ⟨{ s with hand := .recv b }, by simp only [St.handle, hh, if_pos hl], ?_, rfl, rfl⟩
      simp only [left]
      split
      · omega
      · split <;> omega
    · refine ⟨{ s with hand := .full b }, by simp only [St.handle, hh, if_neg hl], ?_, rfl, rfl⟩
      have hne : b ≠ [] := by
        intro h0
        subst h0
        exact hl ⟨hb, he⟩
      simp only [left, if_neg hne]
      split <;> omega
  | recv b =>
    cases hq : s.queue with
    | nil =>
      refine ⟨{ s with hand := .full b }, by simp [St.handle, hh, hact, hq], ?_, rfl, rfl⟩
      simp [hq, left]
    | cons x q =>
      refine ⟨{ s with hand := .pop b }, by simp [St.handle, hh, hact, hq], ?_, rfl, rfl⟩
      simp only [hq, left, List.length_cons]
      rw [if_neg (show ¬ (q.length + 1 = 0) by omega), if_neg (show ¬ (q.length + 1 = 0) by omega)]
      split <;> omega
  | pop b =>
    cases hq : s.queue with
    | nil =>
      have hw := p5 b hh hq
      refine ⟨{ s with wait := true, hand := .full b }, by simp [St.handle, hh, hq, hw], ?_, rfl, rfl⟩
      simp [hq, left]
    | cons x q =>
      refine ⟨{ s with queue := q, hand := .fill (b ++ [x]) }, by simp [St.handle, hh, hq], ?_, rfl, rfl⟩
      simp only [left, List.length_cons]
      rw [if_neg (show ¬ (q.length + 1 = 0) by omega)]
      have : b ++ [x] ≠ [] := by simp
      rw [if_neg this]
      split <;> split <;> omega
  | full b =>
    obtain ⟨lv, hlv⟩ := update_good s.levels fun e he => (hc.sinks.2 e he).1
    have h3 := hc.known
    rw [hh] at h3
    have ho := handAll_good s.sinks b s.handed fun r hr => sinkOf_good hc.sinks (h3 r (by simp [Hand.batch, hr]))
    refine ⟨{ s with levels := lv, handed := s.handed ++ b.map msgOf, hand := .top }, by simp [St.handle, hh, St.flush, hc.fin, hlv, ho], ?_, rfl, rfl⟩
    simp only [left]
    split <;> omega

/-- A step of a calm history after the end was set off: the handler is not farther from its return than before, and nearer if it is its step. -/
theorem closing_left {names : Nat → Prop} {a : List Rec} {s s' : St} {e : Ev} {q : Reply} (he : e.calm names) (hn : e.noStart)
    (hin : ∀ x, e = .handle x → x < s.interval) (hc : Calm names s) (hp : Closing a s) (hb : 0 < s.batch)
    (h : s.step e = some (.ok s' q)) :
    left s'.queue.length s'.hand + (if e.own then 1 else 0) ≤ left s.queue.length s.hand ∧ s'.batch = s.batch ∧ s'.interval = s.interval := by
  cases e with
  | log x =>
    simp only [St.step, Option.some.injEq, Out.ok.injEq] at h
    obtain ⟨rfl, -⟩ := h
    have : s.log x = s := by simp [St.log, St.wants, hp.off]
    rw [this]
    simp [Ev.own]
  | push i =>
    obtain ⟨x, hx, _⟩ := push_cases h
    simp [hp.none] at hx
  | tick => obtain ⟨_, rfl⟩ := tick_cases h; simp [Ev.own]
  | handle el =>
    have h1 : s.hand ≠ .ended := by intro h0; simp [St.step, St.handle, h0] at h
    have h2 : s.hand ≠ .none := by intro h0; simp [St.step, St.handle, h0] at h
    obtain ⟨t, h3, h4, h5, h6⟩ := closing_step hc hp hb h1 h2 el (hin el rfl)
    simp only [St.step] at h
    rw [h3] at h
    cases h
    simp only [Ev.own, if_true]
    exact ⟨by omega, h5, h6⟩
  | throw => exact he.elim
  | enable a => exact hn.elim
  | disable t =>
    simp only [St.step, Option.some.injEq] at h
    rcases disable_cases h with rfl | ⟨u, rfl⟩
    · simp [Ev.own]
    · rw [show s.stop u = s from if_pos hp.off]
      simp [Ev.own]
  | join => obtain ⟨hh, _, rfl⟩ := join_cases h; simp [Ev.own, left]
  | expire => exact he.elim
  | cancel => obtain ⟨_, rfl⟩ := cancel_cases h; simp [Ev.own]
  | python _ => simp only [St.step, Option.some.injEq, Out.ok.injEq] at h; obtain ⟨rfl, -⟩ := h; simp [Ev.own]
  | gone => simp only [St.step, Option.some.injEq, Out.ok.injEq] at h; obtain ⟨rfl, -⟩ := h; simp [Ev.own]
  | finalize => exact he.elim

/-- `DisableLogging` comes to its end: whatever the other threads do, the handler makes at most `12 * n + 9` steps for a queue of `n`
records, and until it has returned it can make a further one; when it has returned it can be joined. This is for a batch size which is not
0, an interval which has not passed when the handler looks, and no thread which is about to push. -/
theorem disable_ends_partial (names : Nat → Prop) (k : List (Nat × Sink)) (hk : GoodSinks names k) (es fs : List Ev)
    (he : ∀ e ∈ es, e.calm names) (hf : ∀ e ∈ fs, e.calm names ∧ e.noStart) (s s' : St) (q q' : Reply)
    (h : (St.init k).run es = some (.ok s q)) (hs : s.shutdown = false) (hp : s.pending = []) (hb : 0 < s.batch)
    (hi : ∀ x, .handle x ∈ fs → x < s.interval) (t : Int) (ht : -(2 ^ 63) ≤ t ∧ t < 2 ^ 63)
    (h' : s.run (.disable (some t) :: fs) = some (.ok s' q')) :
    (fs.filter Ev.own).length ≤ 12 * s.queue.length + 9 ∧
      (s'.hand = .none ∨ (s'.hand = .ended ∧ ∀ u, s'.dis = .joining u → ∃ w, s'.step .join = some (.ok w .silent)) ∨
        ∀ x, x < s.interval → ∃ w, s'.step (.handle x) = some (.ok w .silent)) := by
  have hn := (run_inv (Inv.init k) h).on hs
  have hc := run_calm he (Calm.init hk) h
  obtain ⟨u, p, h1, h2⟩ := run_cons h'
  rw [disable_step ht hs hn] at h1
  cases h1
  have hu : Calm names { s with shutdown := true, wait := false, dis := .joining (if t = -1 then none else some t) } :=
    ⟨hc.fin, hc.sinks, hc.known, hc.all, hc.split, fun _ => rfl⟩
  have hcl : Closing s.accepted { s with shutdown := true, wait := false, dis := .joining (if t = -1 then none else some t) } := by
    refine ⟨rfl, hp, rfl, fun hx => ?_, fun _ _ _ => rfl⟩
    rcases hx with hx | hx
    · have h6 := hc.ended hx
      rw [hs] at h6
      cases h6
    · exact absurd hx hn
  have main : ∀ (fs : List Ev) (x x' : St) (r : Reply), (∀ e ∈ fs, e.calm names ∧ e.noStart) →
      (∀ y, .handle y ∈ fs → y < s.interval) → Calm names x → Closing s.accepted x → x.batch = s.batch → x.interval = s.interval →
      x.run fs = some (.ok x' r) →
      (fs.filter Ev.own).length ≤ left x.queue.length x.hand ∧ Calm names x' ∧ Closing s.accepted x' ∧ x'.batch = s.batch ∧
        x'.interval = s.interval := by
    intro fs
    induction fs with
    | nil =>
      intro x x' r _ _ c1 c2 c3 c4 hr
      simp only [St.run, Option.some.injEq, Out.ok.injEq] at hr
      obtain ⟨rfl, -⟩ := hr
      exact ⟨by simp, c1, c2, c3, c4⟩
    | cons e fs ih =>
      intro x x' r hq hi c1 c2 c3 c4 hr
      obtain ⟨y, p, g1, g2⟩ := run_cons hr
      have hqe := hq e (by simp)
      have g3 := closing_left hqe.1 hqe.2 (fun z hz => by rw [c4]; exact hi z (by simp [hz])) c1 c2 (by omega) g1
      obtain ⟨k1, k2⟩ := ih y x' r (fun z hz => hq z (by simp [hz])) (fun z hz => hi z (by simp [hz])) (step_calm hqe.1 c1 g1)
        (step_closing hqe.1 hqe.2 c1 c2 g1) (by omega) (by omega) g2
      refine ⟨?_, k2⟩
      cases ho : e.own
      · simp only [List.filter_cons, ho]
        simp only [ho] at g3
        have := g3.1
        simp at this ⊢
        omega
      · simp only [List.filter_cons, ho, if_true, List.length_cons]
        simp only [ho, if_true] at g3
        omega
  obtain ⟨m1, m2, m3, m4, m5⟩ := main fs _ s' q' hf hi hu hcl rfl rfl h2
  refine ⟨?_, ?_⟩
  · refine Nat.le_trans m1 ?_
    show left s.queue.length s.hand ≤ _
    cases s.hand <;> simp only [left] <;> (try split) <;> (try split) <;> omega
  · by_cases e1 : s'.hand = .none
    · exact .inl e1
    · by_cases e2 : s'.hand = .ended
      · refine .inr (.inl ⟨e2, fun u hu => ⟨{ s' with hand := .none, dis := .idle, stops := s'.stops + 1 }, ?_⟩⟩)
        simp [St.step, St.join, hu, e2]
      · refine .inr (.inr fun x hx => ?_)
        obtain ⟨w, hw, _⟩ := closing_step m2 m3 (by omega) e2 e1 x (by omega)
        exact ⟨w, hw⟩

/-! ## What is logged -/

/-- A record goes on to the queue exactly when logging is enabled and its level is not below the one of the logger. -/
theorem log_when_wanted (s : St) (r : Rec) : s.step (.log r) = some (.ok
    { s with pending := if s.shutdown = false ∧ s.levels r.name ≤ r.level then s.pending ++ [r] else s.pending } .silent) := by
  simp only [St.step, St.log]
  by_cases h : s.shutdown = false ∧ s.levels r.name ≤ r.level
  · rw [if_pos h, if_pos (show s.wants r = true by simp [St.wants, h.1, h.2])]
  · rw [if_neg h, if_neg (show ¬ s.wants r = true by simpa [St.wants] using h)]

/-- `push_back` takes a record exactly when there are fewer than the greatest size. -/
theorem push_when_room (s : St) (i : Nat) (r : Rec) (h : s.pending[i]? = some r) : ∃ s', s.step (.push i) = some (.ok s' .silent) ∧
    s'.queue = (if s.queue.length < s.max then s.queue ++ [r] else s.queue) ∧ s'.pending = s.pending.eraseIdx i := by
  simp only [St.step, St.push, h]
  by_cases hm : s.queue.length < s.max
  · rw [if_neg (by omega), if_pos hm]
    exact ⟨_, rfl, rfl, rfl⟩
  · rw [if_pos (by omega), if_neg hm]
    exact ⟨_, rfl, rfl, rfl⟩

/-! ## Levels -/

/-- The level of each logger whose Python logger has one from 0 to 50 becomes that one, and the others keep theirs. -/
theorem levels_follow : ∀ (k : List (Nat × Sink)) (lv lv' : Nat → Int), (k.map (·.1)).Nodup → update k lv = some lv' →
    (∀ n s z, (n, s) ∈ k → s.level = .int z → 0 ≤ z → z ≤ 50 → lv' n = z) ∧ (∀ n, n ∉ k.map (·.1) → lv' n = lv n) ∧
    ∀ n s, (n, s) ∈ k → (s.level = .other ∨ ∃ z, s.level = .int z ∧ (z < 0 ∧ -(2 ^ 31) ≤ z ∨ 50 < z ∧ z < 2 ^ 31)) → lv' n = lv n := by
  intro k
  induction k with
  | nil =>
    intro lv lv' _ h
    simp only [update, List.foldlM_nil] at h
    cases h
    simp
  | cons e k ih =>
    intro lv lv' hd h
    simp only [List.map_cons, List.nodup_cons] at hd
    simp only [update, List.foldlM_cons, updateOne] at h
    cases hl : e.2.level with
    | missing => simp [hl] at h
    | other =>
      simp only [hl, Option.bind_eq_bind, Option.bind_some] at h
      obtain ⟨h1, h2, h3⟩ := ih lv lv' hd.2 h
      refine ⟨fun n s z hm hz => ?_, fun n hn => h2 n (by simp at hn ⊢; exact hn.2), fun n s hm hz => ?_⟩
      · rcases List.mem_cons.mp hm with rfl | hm
        · exact absurd ((show s.level = _ from hl).symm.trans hz) (by simp)
        · exact h1 n s z hm hz
      · rcases List.mem_cons.mp hm with rfl | hm
        · exact h2 n hd.1
        · exact h3 n s hm hz
    | int y =>
      simp only [hl, Option.bind_eq_bind, Option.bind_some] at h
      obtain ⟨h1, h2, h3⟩ := ih _ lv' hd.2 h
      have hne : ∀ n, n ≠ e.1 → (levelOf y).elim lv (setLevel lv e.1) n = lv n := by
        intro n hn
        cases levelOf y with
        | none => rfl
        | some v => exact if_neg hn
      have hkey : ∀ {n s}, (n, s) ∈ k → n ≠ e.1 := by
        intro n s hm h0
        exact hd.1 (by rw [← h0]; exact List.mem_map.mpr ⟨(n, s), hm, rfl⟩)
      refine ⟨fun n s z hm hz z0 z1 => ?_, fun n hn => ?_, fun n s hm hz => ?_⟩
      · rcases List.mem_cons.mp hm with rfl | hm
        · rw [h2 n hd.1]
          have : y = z := Attr.int.inj ((show s.level = _ from hl).symm.trans hz)
          subst this
          have hv : levelOf y = some y := by
            unfold levelOf toI32
            simp only
            rw [if_pos (by omega), if_pos (by omega)]
            congr 1
            omega
          simp [hv, setLevel]
        · exact h1 n s z hm hz z0 z1
      · simp only [List.map_cons, List.mem_cons, not_or] at hn
        rw [h2 n hn.2, hne n hn.1]
      · rcases List.mem_cons.mp hm with rfl | hm
        · rw [h2 n hd.1]
          rcases hz with hz | ⟨z, hz, hr⟩
          · exact absurd ((show s.level = _ from hl).symm.trans hz) (by simp)
          · have : y = z := Attr.int.inj ((show s.level = _ from hl).symm.trans hz)
            subst this
            have hv : levelOf y = none := by
              have hv : toI32 y = y := by
                unfold toI32
                omega
              unfold levelOf
              simp only
              rw [if_pos (show -(2 ^ 63) ≤ y ∧ y < 2 ^ 63 by omega), hv, if_neg (by omega)]
            simp [hv]
        · rw [h3 n s hm hz, hne n (hkey hm)]

/-- Handing over a batch sets the levels by the Python loggers as they are then. -/
theorem levels_after_batch (s s' : St) (q : Reply) (b : List Rec) (e : Int) (hb : s.hand = .full b) (hf : s.finalizing = false)
    (hk : (s.sinks.map (·.1)).Nodup) (h : s.step (.handle e) = some (.ok s' q)) (n : Nat) (x : Sink) (hm : (n, x) ∈ s.sinks) (z : Int)
    (hz : x.level = .int z) (h0 : 0 ≤ z) (h1 : z ≤ 50) : s'.levels n = z := by
  simp only [St.step, St.handle, hb, Option.some.injEq] at h
  rcases flush_cases h with ⟨h2, _⟩ | ⟨_, lv, out, hu, _, rfl⟩
  · rw [hf] at h2
    cases h2
  · exact (levels_follow _ _ _ hk hu).1 n x z hm hz h0 h1

/-! ## The calls -/

/-- `EnableLogging` of a service which is not active, without a handler, sets what it was given and starts the threads. -/
theorem enable_starts (s : St) (hs : s.shutdown = true) (hq : s.queue = []) (hn : s.hand = .none)
    (hk : ∀ e ∈ s.sinks, e.2.level ≠ .missing) (i b m : Int) (f : Bool) (hi : -(2 ^ 63) ≤ i ∧ i < 2 ^ 63) (hb : 0 ≤ b ∧ b < 2 ^ 32)
    (hm : 0 ≤ m ∧ m < 2 ^ 32) : ∃ s', s.step (.enable (.given i b m f)) = some (.ok s' .pyNone) ∧ s'.shutdown = false ∧
      s'.interval = i ∧ (s'.batch : Int) = b ∧ (s'.max : Int) = m ∧ s'.hand = .top ∧ s'.flusher = true ∧ s'.queue = [] ∧
      s'.callback = (if f then some true else none) := by
  have ha : s.active = false := by simp [St.active, hs, hq]
  obtain ⟨lv, hlv⟩ := update_good s.levels hk
  simp only [St.step, St.enable, ha, if_pos hi, St.start, hlv, if_pos hn]
  refine ⟨_, rfl, rfl, rfl, ?_, ?_, rfl, rfl, hq, rfl⟩ <;> simp <;> omega

/-- Bad arguments of a service which is not active are a `ValueError`. -/
theorem enable_refuses (s : St) (hs : s.shutdown = true) (hq : s.queue = []) (i b m : Int) (f : Bool)
    (hi : i < -(2 ^ 63) ∨ 2 ^ 63 ≤ i) :
    s.step (.enable .bad) = some (.ok s .valueError) ∧ s.step (.enable (.given i b m f)) = some (.ok s .valueError) := by
  have ha : s.active = false := by simp [St.active, hs, hq]
  simp only [St.step, St.enable, ha]
  refine ⟨rfl, ?_⟩
  rw [if_neg (show ¬ (-(2 ^ 63) ≤ i ∧ i < 2 ^ 63) by omega)]
  rfl

/-- Different loggers have different Python loggers, all below `riptable.riptide_cpp`. -/
theorem names_differ (a b : List Char) (h : pyName a = pyName b) : a = b := by
  unfold pyName at h
  have h := List.append_cancel_left h
  cases a <;> cases b <;> simp_all

/-- `GetRiptideLoggers` names the Python logger of each logger. -/
theorem loggers_are (names : List (List Char)) (h : names.Nodup) : (loggers names).Nodup ∧
    ∀ n ∈ names, ("riptable.riptide_cpp".toList ++ (if n = [] then [] else '.' :: n)) ∈ loggers names := by
  constructor
  · unfold loggers List.Nodup
    rw [List.pairwise_map]
    exact List.Pairwise.imp (fun hab hn => hab (names_differ _ _ hn)) h
  · intro n hn
    refine List.mem_map.mpr ⟨n, hn, ?_⟩
    unfold pyName
    cases n <;> simp

end Riptide.LogCall
