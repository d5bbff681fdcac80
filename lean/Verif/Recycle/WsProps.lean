import Verif.Recycle.WsModel
/-! Property C35: a work space has a single owner. -/
namespace Riptide.Recycle

/-- The property: no two holders share a block, and every held block is allocated and at least as large as
asked for. -/
def SingleOwner (s : Ws) : Prop :=
  (s.live.map Prod.fst).Nodup ∧ ∀ u ∈ s.live, ∃ size, s.heap u.1 = some size ∧ u.2 ≤ size

/-- The recycled block is held by nobody. -/
def GlobalIdle (s : Ws) : Prop := ∀ g, s.global = some g → g.1 ∉ s.live.map Prod.fst

/-- The calls for which the property is kept: with caching, nothing that touches the recycled block while it is
held; without caching, neither a free of the recycled block nor a collection while there is one. -/
def Safe (s : Ws) : WsOp → Prop
  | .alloc _ => s.off = true ∨ GlobalIdle s
  | .free p size => (p, size) ∈ s.live ∧
      ∀ g, s.global = some g → (s.off = true → g.1 ≠ p) ∧
        (s.off = false → g.1 = p ∨ size ≤ g.2 ∨ g.1 ∉ s.live.map Prod.fst)
  | .collect => GlobalIdle s ∧ (s.off = true → s.global = none)
  | .mode _ => True

/-- All calls of a history are safe when they are made. -/
def AllSafe (s : Ws) : List WsOp → Prop
  | [] => True
  | op :: ops => Safe s op ∧ ∀ s', s.step op = some s' → AllSafe s' ops

/-- The invariant. -/
structure WsInv (s : Ws) : Prop where
  owner : SingleOwner s
  fresh : ∀ p, s.next ≤ p → s.heap p = none
  glob : ∀ g, s.global = some g → ∃ size, s.heap g.1 = some size ∧ g.2 ≤ size

theorem WsInv.live_lt {s : Ws} (h : WsInv s) {u : Nat × Nat} (hu : u ∈ s.live) : u.1 < s.next := by
  obtain ⟨size, h1, -⟩ := h.owner.2 u hu
  rcases Nat.lt_or_ge u.1 s.next with h2 | h2
  · exact h2
  · rw [h.fresh _ h2] at h1; cases h1

theorem WsInv.global_lt {s : Ws} (h : WsInv s) {g : Nat × Nat} (hg : s.global = some g) : g.1 < s.next := by
  obtain ⟨size, h1, -⟩ := h.glob g hg
  rcases Nat.lt_or_ge g.1 s.next with h2 | h2
  · exact h2
  · rw [h.fresh _ h2] at h1; cases h1

/-- Freeing a block that nobody holds and that is not the recycled one. -/
theorem WsInv.mfree {s : Ws} (h : WsInv s) {p size : Nat} (hp : s.heap p = some size)
    (hl : p ∉ s.live.map Prod.fst) (hg : ∀ g, s.global = some g → g.1 ≠ p) :
    s.mfree p = some { s with heap := fun q => if q = p then none else s.heap q } ∧
    WsInv { s with heap := fun q => if q = p then none else s.heap q } := by
  refine ⟨by unfold Ws.mfree; rw [hp]; rfl, ⟨⟨h.owner.1, fun u hu => ?_⟩, fun q hq => ?_, fun g hg' => ?_⟩⟩
  · obtain ⟨sz, h1, h2⟩ := h.owner.2 u hu
    have : u.1 ≠ p := fun e => hl (List.mem_map.2 ⟨u, hu, e⟩)
    exact ⟨sz, by show (if u.1 = p then none else s.heap u.1) = _; rw [if_neg this]; exact h1, h2⟩
  · show (if q = p then none else s.heap q) = none
    split
    · rfl
    · exact h.fresh q hq
  · obtain ⟨sz, h1, h2⟩ := h.glob g hg'
    exact ⟨sz, by show (if g.1 = p then none else s.heap g.1) = _; rw [if_neg (hg g hg')]; exact h1, h2⟩

/-- A new block for a new holder. -/
theorem WsInv.malloc_live {s : Ws} (h : WsInv s) (size : Nat) :
    WsInv { (s.malloc size).1 with live := (s.next, size) :: s.live } := by
  refine ⟨⟨?_, ?_⟩, ?_, ?_⟩
  · show ((s.next, size) :: s.live |>.map Prod.fst).Nodup
    rw [List.map_cons, List.nodup_cons]
    refine ⟨fun hm => ?_, h.owner.1⟩
    obtain ⟨u, hu, e⟩ := List.mem_map.1 hm
    have := h.live_lt hu
    have e' : u.1 = s.next := e
    omega
  · intro u hu
    rcases List.mem_cons.1 hu with rfl | hu
    · exact ⟨size, by show (if s.next = s.next then some size else _) = _; rw [if_pos rfl], Nat.le_refl _⟩
    · obtain ⟨sz, h1, h2⟩ := h.owner.2 u hu
      have := h.live_lt hu
      exact ⟨sz, by show (if u.1 = s.next then some size else s.heap u.1) = _; rw [if_neg (by omega)]; exact h1, h2⟩
  · intro p hp
    have hp' : s.next + 1 ≤ p := hp
    show (if p = s.next then some size else s.heap p) = none
    rw [if_neg (by omega)]; exact h.fresh p (by omega)
  · intro g hg
    obtain ⟨sz, h1, h2⟩ := h.glob g hg
    have := h.global_lt hg
    exact ⟨sz, by show (if g.1 = s.next then some size else s.heap g.1) = _; rw [if_neg (by omega)]; exact h1, h2⟩

theorem WsInv.erase {s : Ws} (h : WsInv s) (u : Nat × Nat) : WsInv { s with live := s.live.erase u } :=
  ⟨⟨h.owner.1.sublist (List.Sublist.map _ List.erase_sublist),
    fun v hv => h.owner.2 v (List.mem_of_mem_erase hv)⟩, h.fresh, h.glob⟩

theorem WsInv.forget {s : Ws} (h : WsInv s) : WsInv { s with global := none } :=
  ⟨h.owner, h.fresh, fun _ hg => by cases hg⟩

/-- After a holder has let go, its block is held by nobody. -/
theorem not_live_after {l : List (Nat × Nat)} (h : (l.map Prod.fst).Nodup) {p size : Nat} (hm : (p, size) ∈ l) :
    p ∉ (l.erase (p, size)).map Prod.fst := by
  intro hp
  obtain ⟨u, hu, e⟩ := List.mem_map.1 hp
  have hperm := List.perm_cons_erase hm
  have h2 : (((p, size) :: l.erase (p, size)).map Prod.fst).Nodup := (hperm.map Prod.fst).nodup_iff.1 h
  rw [List.map_cons, List.nodup_cons] at h2
  exact h2.1 hp

/-- One safe call keeps the invariant and has no undefined behaviour. -/
theorem step_safe {s : Ws} (h : WsInv s) {op : WsOp} (hs : Safe s op) : ∃ s', s.step op = some s' ∧ WsInv s' := by
  cases op with
  | mode b => exact ⟨_, rfl, ⟨h.owner, h.fresh, h.glob⟩⟩
  | collect =>
    obtain ⟨h1, h2⟩ := hs
    show ∃ s', s.freeGlobal = some s' ∧ _
    unfold Ws.freeGlobal
    cases hg : s.global with
    | none => exact ⟨s, rfl, h⟩
    | some g =>
      dsimp only
      have hoff : s.off = false := by
        cases ho : s.off with
        | false => rfl
        | true => rw [h2 ho] at hg; cases hg
      rw [hoff, if_neg Bool.false_ne_true]
      obtain ⟨sz, hz, -⟩ := h.glob g hg
      unfold Ws.mfree
      rw [hz]
      refine ⟨_, rfl, ?_⟩
      exact (h.forget.mfree (p := g.1) hz (h1 g hg) (fun _ hg => by cases hg)).2
  | alloc size =>
    show ∃ s', (s.alloc size).map Prod.fst = some s' ∧ _
    unfold Ws.alloc
    cases ho : s.off with
    | true =>
      rw [if_pos rfl]
      exact ⟨_, rfl, h.malloc_live size⟩
    | false =>
      rw [if_neg Bool.false_ne_true]
      have hidle : GlobalIdle s := by
        rcases hs with hs | hs
        · rw [ho] at hs; cases hs
        · exact hs
      cases hg : s.global with
      | none => exact ⟨_, rfl, h.malloc_live size⟩
      | some g =>
        dsimp only
        obtain ⟨sz, hz, hle⟩ := h.glob g hg
        by_cases hsz : size ≤ g.2
        · rw [if_pos hsz]
          refine ⟨_, rfl, ⟨⟨?_, ?_⟩, h.fresh, fun g' hg' => h.glob g' (by rw [hg]; exact hg')⟩⟩
          · show ((g.1, size) :: s.live |>.map Prod.fst).Nodup
            rw [List.map_cons, List.nodup_cons]
            exact ⟨hidle g hg, h.owner.1⟩
          · intro u hu
            rcases List.mem_cons.1 hu with rfl | hu
            · exact ⟨sz, hz, Nat.le_trans hsz hle⟩
            · exact h.owner.2 u hu
        · rw [if_neg hsz]
          have hlt := h.global_lt hg
          have hm := h.malloc_live size
          have hfg : (s.malloc size).1.freeGlobal = some
              { heap := fun q => if q = g.1 then none else (s.malloc size).1.heap q, next := s.next + 1,
                global := none, off := s.off, live := s.live } := by
            unfold Ws.freeGlobal
            have e1 : (s.malloc size).1.global = some g := hg
            have e2 : (s.malloc size).1.off = false := ho
            rw [e1]
            dsimp only
            rw [e2, if_neg Bool.false_ne_true]
            unfold Ws.mfree
            have e3 : (s.malloc size).1.heap g.1 = some sz := by
              show (if g.1 = s.next then some size else s.heap g.1) = _
              rw [if_neg (by omega)]; exact hz
            rw [e3]; rfl
          rw [hfg]
          refine ⟨_, rfl, ?_⟩
          refine (hm.forget.mfree (p := g.1) (size := sz) ?_ ?_ (fun _ hg => by cases hg)).2
          · show (if g.1 = s.next then some size else s.heap g.1) = _
            rw [if_neg (by omega)]; exact hz
          · show g.1 ∉ ((s.next, size) :: s.live).map Prod.fst
            rw [List.map_cons, List.mem_cons]
            rintro (e | e)
            · have e' : g.1 = s.next := e
              omega
            · exact hidle g hg e
  | free p size =>
    obtain ⟨hl, hg⟩ := hs
    show ∃ s', (if (p, size) ∈ s.live then s.free p size else none) = some s' ∧ _
    rw [if_pos hl]
    obtain ⟨sz, hz, hle⟩ := h.owner.2 _ hl
    have hnl := not_live_after h.owner.1 hl
    have he := h.erase (p, size)
    unfold Ws.free
    dsimp only
    cases ho : s.off with
    | true =>
      rw [if_pos rfl]
      have := he.mfree (p := p) (size := sz) hz hnl (fun g hg' => (hg g hg').1 ho)
      rw [ho] at this
      exact ⟨_, this.1, this.2⟩
    | false =>
      rw [if_neg Bool.false_ne_true]
      cases hgl : s.global with
      | none =>
        refine ⟨_, rfl, ⟨he.owner, he.fresh, fun g hg' => ?_⟩⟩
        cases hg'
        exact ⟨sz, hz, hle⟩
      | some g =>
        dsimp only
        obtain ⟨gz, hgz, hgle⟩ := h.glob g hgl
        by_cases hp : g.1 = p
        · rw [if_neg (by simpa using hp)]
          rw [ho, hgl] at he
          exact ⟨_, rfl, he⟩
        · rw [if_pos hp]
          by_cases hsz : size > g.2
          · rw [if_pos hsz]
            have hgl' : g.1 ∉ s.live.map Prod.fst := by
              rcases (hg g hgl).2 ho with h' | h' | h'
              · exact absurd h' hp
              · omega
              · exact h'
            have hgl'' : g.1 ∉ (s.live.erase (p, size)).map Prod.fst := fun h' =>
              hgl' ((List.Sublist.map _ List.erase_sublist).subset h')
            have := he.forget.mfree (p := g.1) (size := gz) hgz hgl'' (fun _ hg => by cases hg)
            unfold Ws.mfree
            rw [show s.heap g.1 = some gz from hgz]
            refine ⟨_, rfl, ⟨this.2.owner, this.2.fresh, fun g' hg' => ?_⟩⟩
            cases hg'
            refine ⟨sz, ?_, hle⟩
            show (if p = g.1 then none else s.heap p) = _
            rw [if_neg (fun e => hp e.symm)]; exact hz
          · rw [if_neg hsz]
            have := he.mfree (p := p) (size := sz) hz hnl (fun g' hg' => by
              have e : s.global = some g' := hg'
              rw [hgl] at e; cases e; exact hp)
            rw [ho, hgl] at this
            exact ⟨_, this.1, this.2⟩

/-- **C35.** In every history of safe calls no two holders share a block, every held block stays allocated, and
nothing is freed twice. -/
theorem workspace_single_owner_partial : ∀ (ops : List WsOp) (s : Ws), WsInv s → AllSafe s ops →
    ∃ s', s.run ops = some s' ∧ SingleOwner s' ∧ WsInv s'
  | [], s, h, _ => ⟨s, rfl, h.owner, h⟩
  | op :: ops, s, h, hs => by
    obtain ⟨s1, h1, h2⟩ := step_safe h hs.1
    obtain ⟨s2, h3, h4⟩ := workspace_single_owner_partial ops s1 h2 (hs.2 s1 h1)
    exact ⟨s2, by unfold Ws.run; rw [h1]; exact h3, h4⟩

theorem WsInv.init : WsInv .init :=
  ⟨⟨List.nodup_nil, fun _ hu => by cases hu⟩, fun _ _ => rfl, fun _ hg => by cases hg⟩

/-- What a state looks like from outside: blocks held, the recycled block, and which of the first `n` block names
are allocated. -/
def Ws.view (s : Ws) (n : Nat) : List (Nat × Nat) × Option (Nat × Nat) × List Nat :=
  (s.live, s.global, (List.range n).filter fun p => (s.heap p).isSome)

/-- Two tables held at once without caching, then single ones with caching. -/
def exSafe : List WsOp :=
  [.mode true, .alloc 10, .alloc 20, .free 0 10, .free 1 20, .mode false, .alloc 30, .free 2 30, .alloc 5, .free 2 5,
   .alloc 40, .free 3 40, .collect]

example : AllSafe .init exSafe := by
  simp [exSafe, AllSafe, Safe, GlobalIdle, Ws.step, Ws.alloc, Ws.free, Ws.malloc, Ws.mfree, Ws.freeGlobal, Ws.init]

example : (Ws.init.run (exSafe.take 9)).map (·.view 4) = some ([(2, 5)], some (2, 30), [2]) := by decide

/-! ### Where the full statement of C35 fails -/

/-- With caching the recycled block is handed out again while it is held: two holders share block 0. -/
theorem workspace_shared :
    (Ws.init.run [.alloc 10, .free 0 10, .alloc 5, .alloc 7]).map (·.view 2) =
      some ([(0, 7), (0, 5)], some (0, 10), [0]) := by decide

/-- A larger request frees the recycled block while it is held. -/
theorem workspace_replaced_in_use :
    (Ws.init.run [.alloc 10, .free 0 10, .alloc 5, .alloc 20]).map (·.view 2) =
      some ([(1, 20), (0, 5)], none, [1]) := by decide

/-- A collection frees the recycled block while it is held. -/
theorem workspace_collected_in_use :
    (Ws.init.run [.alloc 10, .free 0 10, .alloc 5, .collect]).map (·.view 2) = some ([(0, 5)], none, []) := by decide

/-- A block obtained with caching and released without is freed, but stays recorded as the recycled block, and is
handed out when caching is on again. -/
theorem workspace_mode_switch :
    (Ws.init.run [.alloc 10, .free 0 10, .alloc 5, .mode true, .free 0 5, .mode false, .alloc 5]).map (·.view 2) =
      some ([(0, 5)], some (0, 10), []) := by decide

/-- `RecycleGarbageCollectNow` with threading off frees the recycled block without forgetting it: the next
hash table lives in freed memory … -/
theorem workspace_collect_dangling :
    (Ws.init.run [.alloc 10, .free 0 10, .mode true, .collect, .mode false, .alloc 5]).map (·.view 2) =
      some ([(0, 5)], some (0, 10), []) := by decide

/-- … and a second collection frees it twice. -/
theorem workspace_double_free :
    Ws.init.run [.alloc 10, .free 0 10, .mode true, .collect, .collect] = none := rfl

theorem shared_not_single : ∀ s, (s.view 2).1 = [(0, 7), (0, 5)] → ¬ SingleOwner s := by
  intro s h hs
  have h' : s.live = [(0, 7), (0, 5)] := h
  have := hs.1
  rw [h'] at this
  exact absurd this (by decide)

end Riptide.Recycle
