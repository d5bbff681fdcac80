import Verif.LogQueue.Model
/-! Property C37: the queue of log records. -/
namespace Riptide.LogQueue

/-- The invariant. -/
structure Inv {α : Type} (s : Q α) : Prop where
  /-- accepted = removed, then still queued, in order -/
  fifo : s.accepted = s.removed.map Prod.fst ++ s.deque
  /-- what was delivered is what `pop_front` returned -/
  delivered : s.results.filterMap id = (s.removed.filter Prod.snd).map Prod.fst
  /-- dropped only when full -/
  full : ∀ d ∈ s.dropped, d.2.1 ≥ d.2.2
  /-- a consumer about to take has something to take or was cancelled -/
  taking : s.phase = .taking → s.deque ≠ [] ∨ s.wait = false
  /-- a consumer about to block found nothing -/
  blocking : s.phase = .blocking → s.deque = [] ∧ (s.wait = true ∨ s.lost = true)
  /-- a blocked consumer with something to see will be notified -/
  wakes : s.phase = .blocked → (s.deque ≠ [] → s.pending ≥ 1) ∧ (s.wait = false → s.pending ≥ 1 ∨ s.lost = true)
  /-- only a consumer about to block or blocked can have lost a cancellation -/
  lost : s.lost = true → s.phase = .blocking ∨ s.phase = .blocked

theorem Inv.init (α : Type) (max : Nat) : Inv (Q.init α max) :=
  ⟨rfl, rfl, (fun _ h => by cases h), (fun h => by cases h), (fun h => by cases h), (fun h => by cases h), (fun h => by cases h)⟩

theorem take_inv {α : Type} {s : Q α} (h : Inv s) (hp : s.phase = .taking) : Inv s.take := by
  have hl : s.lost = false := by
    cases hl : s.lost with
    | false => rfl
    | true => rcases h.lost hl with e | e <;> rw [hp] at e <;> cases e
  unfold Q.take
  cases hd : s.deque with
  | nil =>
    dsimp only
    refine ⟨?_, ?_, h.full, (fun e => by cases e), (fun e => by cases e), (fun e => by cases e), fun e => ?_⟩
    · show s.accepted = s.removed.map Prod.fst ++ []
      rw [h.fifo, hd]
    · show (s.results ++ [none]).filterMap id = _
      rw [List.filterMap_append, h.delivered]; simp
    · rw [show s.lost = false from hl] at e; cases e
  | cons t rest =>
    dsimp only
    refine ⟨?_, ?_, h.full, (fun e => by cases e), (fun e => by cases e), (fun e => by cases e), fun e => ?_⟩
    · show s.accepted = (s.removed ++ [(t, true)]).map Prod.fst ++ rest
      rw [h.fifo, hd]; simp
    · show (s.results ++ [some t]).filterMap id = ((s.removed ++ [(t, true)]).filter Prod.snd).map Prod.fst
      rw [List.filterMap_append, List.filter_append, List.map_append, h.delivered]; simp
    · rw [show s.lost = false from hl] at e; cases e

/-- Every step keeps the invariant. -/
theorem step_inv {α : Type} {s s' : Q α} {e : Step α} (h : Inv s) (he : s.step e = some s') : Inv s' := by
  cases e with
  | push t =>
    unfold Q.step at he
    dsimp only at he
    split at he
    · cases he
    · rename_i hlk
      injection he with he
      subst he
      unfold Q.push
      split
      · rename_i hf
        refine ⟨h.fifo, h.delivered, ?_, h.taking, h.blocking, h.wakes, h.lost⟩
        intro d hd
        rcases List.mem_append.1 hd with h1 | h1
        · exact h.full d h1
        · rw [List.mem_singleton.1 h1]; exact hf
      · refine ⟨?_, h.delivered, h.full, ?_, ?_, ?_, h.lost⟩
        · show s.accepted ++ [t] = _ ++ (s.deque ++ [t])
          rw [h.fifo, List.append_assoc]
        · intro _; exact .inl (by simp)
        · intro hp
          replace hp : s.phase = .blocking := hp
          exact absurd (by unfold Q.locked; rw [hp]) hlk
        · intro _
          exact ⟨fun _ => Nat.le_add_left 1 s.pending, fun _ => .inl (Nat.le_add_left 1 s.pending)⟩
  | notify =>
    unfold Q.step at he
    dsimp only at he
    split at he
    · cases he
    · injection he with he
      subst he
      unfold Q.notify
      by_cases hp : s.phase = .blocked
      · simp only [hp, if_true]
        exact ⟨h.fifo, h.delivered, h.full, (fun e => by cases e), (fun e => by cases e), (fun e => by cases e),
          (fun e => by cases e)⟩
      · simp only [if_neg hp]
        exact ⟨h.fifo, h.delivered, h.full, h.taking, h.blocking, fun e => absurd e hp, h.lost⟩
  | cancel =>
    unfold Q.step at he
    injection he with he
    subst he
    unfold Q.cancel
    refine ⟨h.fifo, h.delivered, h.full, fun _ => .inr rfl, ?_, ?_, ?_⟩
    · intro hp
      replace hp : s.phase = .blocking := hp
      exact ⟨(h.blocking hp).1, .inr (by simp [hp])⟩
    · intro _
      exact ⟨fun _ => Nat.le_add_left 1 s.pending, fun _ => .inl (Nat.le_add_left 1 s.pending)⟩
    · intro hl
      replace hl : (s.lost || decide (s.phase = .blocking)) = true := hl
      rw [Bool.or_eq_true, decide_eq_true_eq] at hl
      rcases hl with hl | hl
      · exact h.lost hl
      · exact .inl hl
  | clear =>
    unfold Q.step at he
    dsimp only at he
    split at he
    · cases he
    · rename_i hlk
      injection he with he
      subst he
      refine ⟨?_, ?_, h.full, ?_, ?_, ?_, h.lost⟩
      · show s.accepted = (s.removed ++ s.deque.map fun t => (t, false)).map Prod.fst ++ []
        have e : (Prod.fst ∘ fun t : α => (t, false)) = id := rfl
        rw [h.fifo, List.map_append, List.map_map, e, List.map_id, List.append_nil]
      · show _ = ((s.removed ++ s.deque.map fun t => (t, false)).filter Prod.snd).map Prod.fst
        rw [List.filter_append, List.map_append, ← h.delivered]; simp
      · intro hp
        replace hp : s.phase = .taking := hp
        exact absurd (by unfold Q.locked; rw [hp]) hlk
      · intro hp
        replace hp : s.phase = .blocking := hp
        exact absurd (by unfold Q.locked; rw [hp]) hlk
      · intro hp
        exact ⟨fun e => absurd rfl e, (h.wakes hp).2⟩
  | setMax n =>
    unfold Q.step at he
    injection he with he
    subst he
    exact ⟨h.fifo, h.delivered, h.full, h.taking, h.blocking, h.wakes, h.lost⟩
  | spurious =>
    unfold Q.step at he
    dsimp only at he
    split at he
    · injection he with he
      subst he
      exact ⟨h.fifo, h.delivered, h.full, (fun e => by cases e), (fun e => by cases e), (fun e => by cases e),
          (fun e => by cases e)⟩
    · cases he
  | consumer =>
    unfold Q.step at he
    dsimp only at he
    unfold Q.consume at he
    have nl : s.phase ≠ .blocking → s.phase ≠ .blocked → s.lost = false := by
      intro h1 h2
      cases hl : s.lost with
      | false => rfl
      | true => rcases h.lost hl with e | e <;> contradiction
    cases hp : s.phase with
    | idle =>
      rw [hp] at he
      injection he with he
      subst he
      have := nl (by rw [hp]; exact Phase.noConfusion) (by rw [hp]; exact Phase.noConfusion)
      exact ⟨h.fifo, h.delivered, h.full, (fun e => by cases e), (fun e => by cases e), (fun e => by cases e),
          fun e => by rw [show s.lost = false from this] at e; cases e⟩
    | testing =>
      rw [hp] at he
      dsimp only at he
      have := nl (by rw [hp]; exact Phase.noConfusion) (by rw [hp]; exact Phase.noConfusion)
      split at he
      · rename_i hc
        injection he with he
        subst he
        refine ⟨h.fifo, h.delivered, h.full, fun _ => ?_, (fun e => by cases e), (fun e => by cases e),
          fun e => by rw [show s.lost = false from this] at e; cases e⟩
        show s.deque ≠ [] ∨ s.wait = false
        simpa using hc
      · rename_i hc
        injection he with he
        subst he
        refine ⟨h.fifo, h.delivered, h.full, (fun e => by cases e), fun _ => ?_, (fun e => by cases e), fun _ => .inl rfl⟩
        show s.deque = [] ∧ (s.wait = true ∨ s.lost = true)
        simp at hc
        exact ⟨hc.1, .inl hc.2⟩
    | taking =>
      rw [hp] at he
      injection he with he
      subst he
      exact take_inv h hp
    | blocking =>
      rw [hp] at he
      injection he with he
      subst he
      obtain ⟨h1, h2⟩ := h.blocking hp
      refine ⟨h.fifo, h.delivered, h.full, (fun e => by cases e), (fun e => by cases e), fun _ => ?_, fun _ => .inr rfl⟩
      refine ⟨fun e => absurd h1 e, fun e => ?_⟩
      replace e : s.wait = false := e
      rcases h2 with h2 | h2
      · rw [e] at h2; cases h2
      · exact .inr h2
    | blocked => rw [hp] at he; cases he
    | woken =>
      rw [hp] at he
      injection he with he
      subst he
      have := nl (by rw [hp]; exact Phase.noConfusion) (by rw [hp]; exact Phase.noConfusion)
      exact ⟨h.fifo, h.delivered, h.full, (fun e => by cases e), (fun e => by cases e), (fun e => by cases e),
          fun e => by rw [show s.lost = false from this] at e; cases e⟩

theorem run_inv {α : Type} : ∀ (es : List (Step α)) {s s' : Q α}, Inv s → s.run es = some s' → Inv s'
  | [], s, s', h, he => by injection he with he; exact he ▸ h
  | e :: es, s, s', h, he => by
    unfold Q.run at he
    cases h1 : s.step e with
    | none => rw [h1] at he; cases he
    | some s1 => rw [h1] at he; exact run_inv es (step_inv h h1) he

/-- **C37, first half.** In every interleaving of producers, consumer, cancellations and clears: the records returned
by `pop_front` are, in order, a sublist of the accepted pushes, the others being still queued or cleared; nothing
is returned twice; and a push is turned away only when the queue is full. -/
theorem log_fifo {α : Type} (max : Nat) (es : List (Step α)) (s : Q α) (h : (Q.init α max).run es = some s) :
    (s.results.filterMap id).Sublist s.accepted ∧
    (∃ gone : List (α × Bool), s.accepted = gone.map Prod.fst ++ s.deque ∧
      s.results.filterMap id = (gone.filter Prod.snd).map Prod.fst) ∧
    ∀ d ∈ s.dropped, d.2.2 ≤ d.2.1 := by
  have hi := run_inv es (Inv.init α max) h
  refine ⟨?_, ⟨s.removed, hi.fifo, hi.delivered⟩, hi.full⟩
  rw [hi.delivered, hi.fifo]
  exact (List.Sublist.map _ List.filter_sublist).trans (List.sublist_append_left ..)

/-- Without `clear` nothing is lost: delivered, then queued, is exactly what was accepted. -/
theorem log_lossless {α : Type} (max : Nat) (es : List (Step α)) (hc : .clear ∉ es) (s : Q α)
    (h : (Q.init α max).run es = some s) : s.accepted = s.results.filterMap id ++ s.deque := by
  have key : ∀ (es : List (Step α)), .clear ∉ es → ∀ s s' : Q α, (∀ r ∈ s.removed, r.2 = true) →
      s.run es = some s' → ∀ r ∈ s'.removed, r.2 = true := by
    intro es
    induction es with
    | nil => intro _ s s' hs he; injection he with he; exact he ▸ hs
    | cons e es ih =>
      intro hc s s' hs he
      unfold Q.run at he
      cases h1 : s.step e with
      | none => rw [h1] at he; cases he
      | some s1 =>
        rw [h1] at he
        refine ih (fun hh => hc (List.mem_cons_of_mem _ hh)) s1 s' ?_ he
        have same : s1.removed = s.removed → ∀ r ∈ s1.removed, r.2 = true := fun e => e ▸ hs
        cases e with
        | push t =>
          unfold Q.step at h1; dsimp only at h1
          split at h1
          · cases h1
          · injection h1 with h1; subst h1; apply same; unfold Q.push; split <;> rfl
        | notify =>
          unfold Q.step at h1; dsimp only at h1
          split at h1
          · cases h1
          · injection h1 with h1; subst h1; exact same rfl
        | cancel => injection h1 with h1; subst h1; exact same rfl
        | clear => exact absurd (List.mem_cons_self ..) hc
        | setMax n => injection h1 with h1; subst h1; exact same rfl
        | spurious =>
          unfold Q.step at h1; dsimp only at h1
          split at h1
          · injection h1 with h1; subst h1; exact same rfl
          · cases h1
        | consumer =>
          unfold Q.step at h1; dsimp only at h1; unfold Q.consume at h1
          cases hp : s.phase <;> rw [hp] at h1 <;> dsimp only at h1
          case idle => injection h1 with h1; subst h1; exact same rfl
          case testing => split at h1 <;> (injection h1 with h1; subst h1; exact same rfl)
          case taking =>
            injection h1 with h1; subst h1
            unfold Q.take
            cases s.deque with
            | nil => exact hs
            | cons t rest =>
              intro r hr
              rcases List.mem_append.1 hr with hr | hr
              · exact hs r hr
              · rw [List.mem_singleton.1 hr]
          case blocking => injection h1 with h1; subst h1; exact same rfl
          case blocked => cases h1
          case woken => injection h1 with h1; subst h1; exact same rfl
  have hi := run_inv es (Inv.init α max) h
  have hall := key es hc _ s (fun _ hr => (by cases hr)) h
  have : s.removed.filter Prod.snd = s.removed := List.filter_eq_self.2 hall
  rw [hi.delivered, this]; exact hi.fifo

/-- With a fixed limit the queue never holds more. -/
theorem log_bounded {α : Type} (max : Nat) (es : List (Step α)) (hm : ∀ n, .setMax n ∉ es) (s : Q α)
    (h : (Q.init α max).run es = some s) : s.deque.length ≤ max := by
  have key : ∀ (es : List (Step α)), (∀ n, .setMax n ∉ es) → ∀ s s' : Q α, s.max = max ∧ s.deque.length ≤ max →
      s.run es = some s' → s'.max = max ∧ s'.deque.length ≤ max := by
    intro es
    induction es with
    | nil => intro _ s s' hs he; injection he with he; exact he ▸ hs
    | cons e es ih =>
      intro hc s s' hs he
      unfold Q.run at he
      cases h1 : s.step e with
      | none => rw [h1] at he; cases he
      | some s1 =>
        rw [h1] at he
        refine ih (fun n hh => hc n (List.mem_cons_of_mem _ hh)) s1 s' ?_ he
        cases e with
        | push t =>
          unfold Q.step at h1; dsimp only at h1
          split at h1
          · cases h1
          · injection h1 with h1; subst h1
            unfold Q.push
            split
            · exact hs
            · refine ⟨hs.1, ?_⟩
              show (s.deque ++ [t]).length ≤ max
              rw [List.length_append, List.length_singleton]; omega
        | notify =>
          unfold Q.step at h1; dsimp only at h1
          split at h1
          · cases h1
          · injection h1 with h1; subst h1; exact hs
        | cancel => injection h1 with h1; subst h1; exact hs
        | clear =>
          unfold Q.step at h1; dsimp only at h1
          split at h1
          · cases h1
          · injection h1 with h1; subst h1; exact ⟨hs.1, Nat.zero_le _⟩
        | setMax n => exact absurd (List.mem_cons_self ..) (hc n)
        | spurious =>
          unfold Q.step at h1; dsimp only at h1
          split at h1
          · injection h1 with h1; subst h1; exact hs
          · cases h1
        | consumer =>
          unfold Q.step at h1; dsimp only at h1; unfold Q.consume at h1
          cases hp : s.phase <;> rw [hp] at h1 <;> dsimp only at h1
          case idle => injection h1 with h1; subst h1; exact hs
          case testing => split at h1 <;> (injection h1 with h1; subst h1; exact hs)
          case taking =>
            injection h1 with h1; subst h1
            unfold Q.take
            cases hd : s.deque with
            | nil => exact ⟨hs.1, by rw [hd] at hs; exact hs.2⟩
            | cons t rest =>
              refine ⟨hs.1, ?_⟩
              have := hs.2
              rw [hd, List.length_cons] at this
              exact Nat.le_of_succ_le this
          case blocking => injection h1 with h1; subst h1; exact hs
          case blocked => cases h1
          case woken => injection h1 with h1; subst h1; exact hs
  exact (key es hm _ s ⟨rfl, Nat.zero_le _⟩ h).2

/-! ### Wake-ups -/

/-- The consumer is on its way out of `pop_front`: it needs that many more steps of its own. -/
def Phase.left : Phase → Option Nat
  | .idle => some 0
  | .taking => some 1
  | .testing => some 2
  | .woken => some 3
  | .blocking | .blocked => none

/-- There is something for the consumer to see. -/
def Ready {α : Type} (s : Q α) : Prop := s.deque ≠ [] ∨ s.wait = false

/-- **C37, second half**, for a push: a blocked consumer facing a record has a notification coming, and once a
notification is made the consumer is on its way out. No push is lost. -/
theorem push_wakes {α : Type} (max : Nat) (es : List (Step α)) (s : Q α) (h : (Q.init α max).run es = some s)
    (hd : s.deque ≠ []) : s.phase ≠ .blocking ∧ (s.phase = .blocked → s.pending ≥ 1) := by
  have hi := run_inv es (Inv.init α max) h
  exact ⟨fun hp => hd (hi.blocking hp).1, fun hp => (hi.wakes hp).1 hd⟩

/-- **C37, second half**, for a cancellation: a blocked consumer that was cancelled has a notification coming, unless
the cancellation fell between its test and its blocking (`lost`). -/
theorem cancel_wakes_partial {α : Type} (max : Nat) (es : List (Step α)) (s : Q α)
    (h : (Q.init α max).run es = some s) (hc : s.wait = false) (hl : s.lost = false) :
    s.phase ≠ .blocking ∧ (s.phase = .blocked → s.pending ≥ 1) := by
  have hi := run_inv es (Inv.init α max) h
  refine ⟨fun hp => ?_, fun hp => ?_⟩
  · rcases (hi.blocking hp).2 with e | e
    · rw [hc] at e; cases e
    · rw [hl] at e; cases e
  · rcases (hi.wakes hp).2 hc with e | e
    · exact e
    · rw [hl] at e; cases e

/-- A notification brings a blocked consumer on its way. -/
theorem notify_wakes {α : Type} (s s' : Q α) (hp : s.phase = .blocked) (he : s.step .notify = some s') :
    s'.phase = .woken ∧ s'.lost = false := by
  unfold Q.step at he
  dsimp only at he
  split at he
  · cases he
  · injection he with he
    subst he
    unfold Q.notify
    exact ⟨if_pos hp, if_pos hp⟩

/-- A consumer on its way with something to see: its own next step brings it closer to the return, and then
`pop_front` returns. -/
theorem consumer_progress {α : Type} (s : Q α) (n : Nat) (hl : s.phase.left = some (n + 1)) (hr : Ready s) :
    ∃ s', s.step .consumer = some s' ∧ s'.phase.left = some n ∧
      (n = 0 → s'.results.length = s.results.length + 1) ∧ (n ≠ 0 → Ready s') := by
  show ∃ s', s.consume = some s' ∧ _
  unfold Q.consume
  cases hp : s.phase <;> rw [hp] at hl <;> unfold Phase.left at hl <;> dsimp only at hl ⊢
  case idle => injection hl with hl; omega
  case testing =>
    injection hl with hl
    have hc : (!s.deque.isEmpty || !s.wait) = true := by
      rcases hr with h | h
      · cases hd : s.deque with
        | nil => exact absurd hd h
        | cons t r => rfl
      · simp [h]
    rw [if_pos hc]
    exact ⟨_, rfl, by show some 1 = some n; congr 1; omega, fun e => by omega, fun _ => hr⟩
  case taking =>
    injection hl with hl
    refine ⟨_, rfl, ?_, fun _ => ?_, fun e => by omega⟩
    · unfold Q.take
      cases s.deque <;> (show some 0 = some n; congr 1; omega)
    · unfold Q.take
      cases s.deque <;> simp
  case blocking => cases hl
  case blocked => cases hl
  case woken =>
    injection hl with hl
    exact ⟨_, rfl, by show some 2 = some n; congr 1; omega, fun e => by omega, fun _ => hr⟩

/-- No other step holds the consumer up: it stays as near to the return, and a cancellation is only taken back by the
consumer itself. (A `clear` may empty the queue, so this is stated for a cancelled consumer.) -/
theorem others_keep {α : Type} (s s' : Q α) (e : Step α) (hne : e ≠ .consumer) (n : Nat)
    (hl : s.phase.left = some n) (hc : s.wait = false) (he : s.step e = some s') :
    s'.phase.left = some n ∧ s'.wait = false := by
  cases e with
  | push t =>
    unfold Q.step at he; dsimp only at he
    split at he
    · cases he
    · injection he with he; subst he; unfold Q.push; split <;> exact ⟨hl, hc⟩
  | notify =>
    unfold Q.step at he; dsimp only at he
    split at he
    · cases he
    · injection he with he; subst he
      have : s.phase ≠ .blocked := by intro hp; rw [hp] at hl; cases hl
      unfold Q.notify
      rw [if_neg this, if_neg this]
      exact ⟨hl, hc⟩
  | cancel => injection he with he; subst he; exact ⟨hl, rfl⟩
  | clear =>
    unfold Q.step at he; dsimp only at he
    split at he
    · cases he
    · injection he with he; subst he; exact ⟨hl, hc⟩
  | setMax n => injection he with he; subst he; exact ⟨hl, hc⟩
  | spurious =>
    unfold Q.step at he; dsimp only at he
    split at he
    · rename_i hp; rw [hp] at hl; cases hl
    · cases he
  | consumer => exact absurd rfl hne

/-- Whether a step is the consumer's own. -/
def Step.own {α : Type} : Step α → Bool
  | .consumer => true
  | _ => false

/-- A cancelled consumer on its way returns after at most three of its own steps, whatever the others do in
between. -/
theorem cancelled_returns {α : Type} : ∀ (es : List (Step α)) (s s' : Q α) (n : Nat),
    s.phase.left = some n → n ≠ 0 → s.wait = false → s.run es = some s' → es.countP Step.own = n →
    s'.results.length = s.results.length + 1 ∧ s'.phase = .idle := by
  have idle : ∀ (es : List (Step α)) (s s' : Q α), s.phase = .idle → s.run es = some s' → es.countP Step.own = 0 →
      s'.phase = .idle ∧ s'.results = s.results := by
    intro es
    induction es with
    | nil => intro s s' hp he _; injection he with he; subst he; exact ⟨hp, rfl⟩
    | cons e es ih =>
      intro s s' hp he hn
      unfold Q.run at he
      rw [List.countP_cons] at hn
      cases h1 : s.step e with
      | none => rw [h1] at he; cases he
      | some s1 =>
        rw [h1] at he
        have h2 : s1.phase = .idle ∧ s1.results = s.results := by
          cases e with
          | push t =>
            unfold Q.step at h1; dsimp only at h1
            split at h1
            · cases h1
            · injection h1 with h1; subst h1; unfold Q.push; split <;> exact ⟨hp, rfl⟩
          | notify =>
            unfold Q.step at h1; dsimp only at h1
            split at h1
            · cases h1
            · injection h1 with h1; subst h1; unfold Q.notify; exact ⟨by simp [hp], rfl⟩
          | cancel => injection h1 with h1; subst h1; exact ⟨hp, rfl⟩
          | clear =>
            unfold Q.step at h1; dsimp only at h1
            split at h1
            · cases h1
            · injection h1 with h1; subst h1; exact ⟨hp, rfl⟩
          | setMax n => injection h1 with h1; subst h1; exact ⟨hp, rfl⟩
          | spurious =>
            unfold Q.step at h1; dsimp only at h1
            split at h1
            · rename_i hb; rw [hp] at hb; cases hb
            · cases h1
          | consumer => simp [Step.own] at hn
        obtain ⟨h3, h4⟩ := ih s1 s' h2.1 he (by omega)
        exact ⟨h3, h4.trans h2.2⟩
  have results : ∀ (s s' : Q α) (e : Step α), e.own = false → s.step e = some s' → s'.results = s.results := by
    intro s s' e ho h1
    cases e with
    | push t =>
      unfold Q.step at h1; dsimp only at h1
      split at h1
      · cases h1
      · injection h1 with h1; subst h1; unfold Q.push; split <;> rfl
    | notify =>
      unfold Q.step at h1; dsimp only at h1
      split at h1
      · cases h1
      · injection h1 with h1; subst h1; rfl
    | cancel => injection h1 with h1; subst h1; rfl
    | clear =>
      unfold Q.step at h1; dsimp only at h1
      split at h1
      · cases h1
      · injection h1 with h1; subst h1; rfl
    | setMax n => injection h1 with h1; subst h1; rfl
    | spurious =>
      unfold Q.step at h1; dsimp only at h1
      split at h1
      · injection h1 with h1; subst h1; rfl
      · cases h1
    | consumer => cases ho
  intro es
  induction es with
  | nil => intro s s' n _ h0 _ _ hn; exact absurd hn.symm h0
  | cons e es ih =>
    intro s s' n hl h0 hc he hn
    unfold Q.run at he
    rw [List.countP_cons] at hn
    cases h1 : s.step e with
    | none => rw [h1] at he; cases he
    | some s1 =>
      rw [h1] at he
      replace he : s1.run es = some s' := he
      cases ho : e.own with
      | false =>
        rw [ho] at hn
        have hne : e ≠ .consumer := by rintro rfl; cases ho
        obtain ⟨h2, h3⟩ := others_keep s s1 e hne n hl hc h1
        have := ih s1 s' n h2 h0 h3 he (by simpa using hn)
        rw [results s s1 e ho h1] at this
        exact this
      | true =>
        rw [ho] at hn
        have hcons : e = .consumer := by cases e <;> first | rfl | cases ho
        subst hcons
        obtain ⟨m, rfl⟩ : ∃ m, n = m + 1 := ⟨n - 1, by omega⟩
        obtain ⟨s2, h2, h3, h4, h5⟩ := consumer_progress s m hl (.inr hc)
        have e12 : s2 = s1 := Option.some.inj (h2.symm.trans h1)
        subst e12
        have hn' : es.countP Step.own = m := by simpa using hn
        rcases Nat.eq_zero_or_pos m with hm | hm
        · subst hm
          have hid : s2.phase = .idle := by
            cases hp : s2.phase <;> rw [hp] at h3 <;> simp [Phase.left] at h3
          obtain ⟨g1, g2⟩ := idle es s2 s' hid he hn'
          exact ⟨by rw [g2]; exact h4 rfl, g1⟩
        · have hw : s2.wait = false ∧ s2.results = s.results := by
            replace h2 : s.consume = some s2 := h2
            unfold Q.consume at h2
            cases hp : s.phase <;> rw [hp] at h2 hl <;> dsimp only at h2
            case idle => simp [Phase.left] at hl
            case testing =>
              split at h2 <;> (injection h2 with h2; subst h2; exact ⟨hc, rfl⟩)
            case taking => simp [Phase.left] at hl; omega
            case blocking => simp [Phase.left] at hl
            case blocked => cases h2
            case woken => injection h2 with h2; subst h2; exact ⟨hc, rfl⟩
          have := ih s2 s' m h3 (by omega) hw.1 he hn'
          rw [hw.2] at this
          exact this

/-- A run: two producers and a consumer that blocks, is woken and takes both records. -/
example : ((Q.init Nat 2).run [.consumer, .consumer, .consumer, .push 7, .push 8, .push 9, .notify, .consumer, .consumer,
      .consumer, .consumer, .consumer, .consumer]).map
    (fun s => (s.results, s.accepted, s.deque, s.dropped)) =
    some ([some 7, some 8], [7, 8], [], [(9, 2, 2)]) := by rfl

/-- A cancellation that works: the consumer is blocked, is notified and returns nothing. -/
example : ((Q.init Nat 2).run [.consumer, .consumer, .consumer, .cancel, .notify, .consumer, .consumer, .consumer]).map
    (fun s => (s.results, s.phase, s.lost)) = some ([none], .idle, false) := by decide

/-! ### The lost cancellation -/

/-- The cancellation is made between the consumer's test and its blocking. -/
def exLost : List (Step Nat) := [.consumer, .consumer, .cancel, .notify, .consumer]

/-- The consumer is then blocked although it was cancelled, with no notification to come: it sleeps until a further
push, cancellation or spurious wake-up. The statement of C37 is false of `cancel_wait`, which
sets the flag without the lock. -/
theorem cancel_lost : ((Q.init Nat 2).run exLost).map
    (fun s => (s.phase, s.wait, s.pending, s.lost, (s.step .consumer).isNone, (s.step .notify).isNone)) =
    some (.blocked, false, 0, true, true, true) := by decide

/-- Until such a step nothing moves the consumer. -/
theorem blocked_stays {α : Type} (s s' : Q α) (e : Step α) (hp : s.phase = .blocked) (h0 : s.pending = 0)
    (hp' : ∀ t, e ≠ .push t) (hc : e ≠ .cancel) (hs : e ≠ .spurious) (he : s.step e = some s') :
    s'.phase = .blocked ∧ s'.pending = 0 := by
  cases e with
  | push t => exact absurd rfl (hp' t)
  | notify => unfold Q.step at he; rw [if_pos h0] at he; cases he
  | cancel => exact absurd rfl hc
  | clear =>
    unfold Q.step at he; dsimp only at he
    split at he
    · cases he
    · injection he with he; subst he; exact ⟨hp, h0⟩
  | setMax n => injection he with he; subst he; exact ⟨hp, h0⟩
  | spurious => exact absurd rfl hs
  | consumer =>
    replace he : s.consume = some s' := he
    unfold Q.consume at he
    rw [hp] at he; cases he

/-- A second cancellation (the flush timer of `logging_service.h:118-124` makes one every interval) repairs it: once the
consumer is blocked, a cancellation and its notification bring it on its way, cancelled. -/
theorem cancel_again {α : Type} (s : Q α) (hp : s.phase = .blocked) :
    ∃ s', s.run [.cancel, .notify] = some s' ∧ s'.phase.left = some 3 ∧ s'.wait = false ∧ s'.lost = false := by
  refine ⟨s.cancel.notify, ?_, ?_, ?_, ?_⟩
  · show (some s.cancel).bind (fun s => (s.step .notify).bind fun s => s.run []) = _
    show (s.cancel.step .notify).bind (fun s => s.run []) = _
    unfold Q.step
    dsimp only
    rw [if_neg (by show s.pending + 1 ≠ 0; omega)]
    rfl
  · show (if s.phase = .blocked then Phase.woken else s.phase).left = some 3
    rw [if_pos hp]; rfl
  · rfl
  · show (if s.phase = .blocked then false else _) = false
    rw [if_pos hp]

end Riptide.LogQueue
