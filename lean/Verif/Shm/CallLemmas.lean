import Verif.Shm.CallSpec
/-! # Lemmas about the life of shares -/
namespace Riptide.Shm

theorem modify_ne {α : Type} (l : List α) (g : α → α) {o i : Nat} (h : o ≠ i) : (l.modify o g)[i]? = l[i]? := by
  rw [List.getElem?_modify]
  simp [h]

theorem modify_eq {α : Type} (l : List α) (g : α → α) (o : Nat) : (l.modify o g)[o]? = l[o]?.map g := by
  rw [List.getElem?_modify]
  simp

theorem lowest_iff (fds : List (Option Fd)) (f : Nat) : lowest fds = some f ↔ IsLowest fds f := by
  unfold lowest IsLowest
  rw [List.findIdx?_eq_some_iff_getElem]
  constructor
  · rintro ⟨h, h1, h2⟩
    refine ⟨?_, fun g hg e => ?_⟩
    · rw [List.getElem?_eq_getElem h]
      cases hx : fds[f] with
      | none => rfl
      | some d => rw [hx] at h1; cases h1
    · have := h2 g hg
      rw [List.getElem?_eq_getElem (by omega)] at e
      rw [Option.some.inj e] at this
      exact this rfl
  · rintro ⟨h1, h2⟩
    obtain ⟨h, h3⟩ := List.getElem?_eq_some_iff.1 h1
    refine ⟨h, by rw [h3]; rfl, fun j hj => ?_⟩
    have := h2 j hj
    rw [List.getElem?_eq_getElem (by omega)] at this
    cases hx : fds[j] with
    | none => rw [hx] at this; exact absurd rfl this
    | some d => simp

theorem lowest_free {fds : List (Option Fd)} {f : Nat} (h : lowest fds = some f) : fds[f]? = some none :=
  ((lowest_iff fds f).1 h).1

theorem lowest_none (fds : List (Option Fd)) (h : ∀ f : Nat, fds[f]? ≠ some none) : lowest fds = none := by
  cases hl : lowest fds with
  | none => rfl
  | some f => exact absurd (lowest_free hl) (h f)

theorem shmName_iff (n : Name) : Sds.shmName n = true ↔ GoodName n := by
  unfold Sds.shmName GoodName
  simp

theorem ready_lowest {fds : List (Option Fd)} (h : Ready fds) : ∃ f, f ≠ 0 ∧ lowest fds = some f := by
  obtain ⟨⟨d, hd⟩, g, hg⟩ := h
  cases hl : lowest fds with
  | none =>
    unfold lowest at hl
    rw [List.findIdx?_eq_none_iff] at hl
    obtain ⟨hlt, he⟩ := List.getElem?_eq_some_iff.1 hg
    have := hl none (he ▸ List.getElem_mem hlt)
    simp at this
  | some f =>
    refine ⟨f, fun e => ?_, rfl⟩
    subst e
    rw [lowest_free hl] at hd
    cases hd

/-- All that stays, from a start on: see `KernelKept`, `ProcKept`. -/
structure Grows (n : Name) (k : Kernel) (p : Proc) (k' : Kernel) (p' : Proc) : Prop where
  objs : ∃ ex, k'.objs = k.objs ++ ex
  names : ∀ m, m ≠ n → k'.names m = k.names m
  user : p'.user = p.user
  fds : ∀ (f : Nat) (d : Fd), p.fds[f]? = some (some d) → p'.fds[f]? = some (some d)
  views : ∀ (v : Nat) (x : View), p.views[v]? = some x → ∃ c, p'.views[v]? = some { x with count := c }
  shares : ∀ m, m ≠ n → p'.shares m = p.shares m

theorem Grows.refl (n : Name) (k : Kernel) (p : Proc) : Grows n k p k p :=
  ⟨⟨[], by simp⟩, fun _ _ => rfl, rfl, fun _ _ h => h, fun _ x h => ⟨x.count, h⟩, fun _ _ => rfl⟩

theorem Grows.trans {n : Name} {k k' k'' : Kernel} {p p' p'' : Proc} (a : Grows n k p k' p') (b : Grows n k' p' k'' p'') :
    Grows n k p k'' p'' := by
  refine ⟨?_, fun m hm => (b.names m hm).trans (a.names m hm), b.user.trans a.user, fun f d h => b.fds f d (a.fds f d h), fun v x h => ?_,
    fun m hm => (b.shares m hm).trans (a.shares m hm)⟩
  · obtain ⟨e1, h1⟩ := a.objs
    obtain ⟨e2, h2⟩ := b.objs
    exact ⟨e1 ++ e2, by rw [h2, h1, List.append_assoc]⟩
  · obtain ⟨c, hc⟩ := a.views v x h
    obtain ⟨c', hc'⟩ := b.views v _ hc
    exact ⟨c', hc'⟩

theorem Grows.cur {n : Name} {k k' : Kernel} {p p' : Proc} (a : Grows n k p k' p') (c : Option Nat) : Grows n k p k' { p' with cur := c } :=
  ⟨a.objs, a.names, a.user, a.fds, a.views, a.shares⟩

theorem Grows.block {n : Name} {k k' : Kernel} {p p' : Proc} (a : Grows n k p k' p') (c : Bool) :
    Grows n k p k' { p' with blocked := c } :=
  ⟨a.objs, a.names, a.user, a.fds, a.views, a.shares⟩

/-- A descriptor which was not taken at the start may be anything. -/
theorem Grows.setFd {n : Name} {k k' : Kernel} {p p' : Proc} (a : Grows n k p k' p') (f : Nat) (d : Option Fd)
    (h : ∀ d, p.fds[f]? ≠ some (some d)) : Grows n k p k' (p'.setFd f d) := by
  refine ⟨a.objs, a.names, a.user, fun g c hg => ?_, a.views, a.shares⟩
  have : f ≠ g := fun e => h c (e ▸ hg)
  show (p'.fds.set f d)[g]? = _
  rw [List.getElem?_set_ne this]
  exact a.fds g c hg

theorem Grows.modify {n : Name} {k k' : Kernel} {p p' : Proc} (a : Grows n k p k' p') (o : Nat) (g : Obj → Obj)
    (h : k.objs.length ≤ o) : Grows n k p { k' with objs := k'.objs.modify o g } p' := by
  refine ⟨?_, a.names, a.user, a.fds, a.views, a.shares⟩
  obtain ⟨ex, he⟩ := a.objs
  refine ⟨(k'.objs.modify o g).drop k.objs.length, ?_⟩
  show k'.objs.modify o g = _
  have h1 : (k'.objs.modify o g).take k.objs.length = k.objs := by
    apply List.ext_getElem?
    intro i
    rw [List.getElem?_take]
    by_cases hi : i < k.objs.length
    · rw [if_pos hi, modify_ne _ _ (by omega), he, List.getElem?_append_left hi]
    · rw [if_neg hi, List.getElem?_eq_none (by omega)]
  rw [← h1]
  conv => lhs; rw [← List.take_append_drop k.objs.length (k'.objs.modify o g)]
  rw [h1]

theorem Grows.fill {n : Name} {k k' : Kernel} {p p' : Proc} (a : Grows n k p k' p') (o : Nat) (c : Content)
    (h : k.objs.length ≤ o) : Grows n k p (k'.fill o c) p' := a.modify o _ h

theorem Grows.resize {n : Name} {k k' : Kernel} {p p' : Proc} (a : Grows n k p k' p') (o s : Nat)
    (h : k.objs.length ≤ o) : Grows n k p (k'.resize o s) p' := a.modify o _ h

theorem Grows.unlink {n : Name} {k k' : Kernel} {p p' : Proc} (a : Grows n k p k' p') (u : Nat) : Grows n k p (unlink k' u n) p' := by
  unfold Shm.unlink
  split
  · exact a
  split
  · split
    · exact ⟨a.objs, fun m hm => by show (if m = n then _ else _) = _; rw [if_neg hm]; exact a.names m hm, a.user, a.fds, a.views, a.shares⟩
    · exact a
  · exact a

theorem Grows.newView {n : Name} {k k' : Kernel} {p p' : Proc} (a : Grows n k p k' p') (f size o : Nat) (w : Bool) :
    Grows n k p k' (p'.newView f size o w) := by
  refine ⟨a.objs, a.names, a.user, a.fds, fun v x h => ?_, a.shares⟩
  obtain ⟨c, hc⟩ := a.views v x h
  refine ⟨c, ?_⟩
  show (p'.views ++ _)[v]? = _
  rw [List.getElem?_append_left (List.getElem?_eq_some_iff.1 hc).1]
  exact hc

/-- A structure which was not there at the start, with a descriptor which was free then, may be ended. -/
theorem Grows.endView {n : Name} {k k' : Kernel} {p p' : Proc} (a : Grows n k p k' p') (v : Nat) (hv : p.views.length ≤ v)
    (h : ∀ x d, p'.views[v]? = some x → p.fds[x.fd]? ≠ some (some d)) : Grows n k p k' (p'.endView v) := by
  unfold Proc.endView
  split
  · rename_i x hx
    refine ⟨a.objs, a.names, a.user, fun g c hg => ?_, fun w y hw => ?_, a.shares⟩
    · have : x.fd ≠ g := fun e => h x c hx (e ▸ hg)
      show (p'.fds.set x.fd none)[g]? = _
      rw [List.getElem?_set_ne this]
      exact a.fds g c hg
    · obtain ⟨c, hc⟩ := a.views w y hw
      have hl := (List.getElem?_eq_some_iff.1 hw).1
      refine ⟨c, ?_⟩
      show (p'.views.modify v _)[w]? = _
      rw [modify_ne _ _ (by omega), hc]
  · exact a

theorem Grows.addShared {n : Name} {k k' : Kernel} {p p' p'' : Proc} (a : Grows n k p k' p') (v : Nat)
    (h : addShared p' n v = some p'') : Grows n k p k' p'' := by
  have key : ∀ w (g : View → View), (∀ x, ∃ c, g x = { x with count := c }) → ∀ (i : Nat) (x : View), p.views[i]? = some x →
      ∃ c, (p'.views.modify w g)[i]? = some { x with count := c } := by
    intro w g hg i x hx
    obtain ⟨c, hc⟩ := a.views i x hx
    by_cases hi : w = i
    · subst hi
      obtain ⟨c', hc'⟩ := hg { x with count := c }
      exact ⟨c', by rw [modify_eq, hc]; exact congrArg some hc'⟩
    · exact ⟨c, by rw [modify_ne _ _ hi, hc]⟩
  unfold Shm.addShared at h
  split at h
  · cases h
    exact ⟨a.objs, a.names, a.user, a.fds, key v _ fun x => ⟨_, rfl⟩,
      fun m hm => by show (if m = n then _ else _) = _; rw [if_neg hm]; exact a.shares m hm⟩
  · split at h
    · split at h
      · cases h
        exact ⟨a.objs, a.names, a.user, a.fds, key _ _ fun x => ⟨_, rfl⟩, a.shares⟩
      · cases h
    · cases h

theorem openNew_some {k k' : Kernel} {p p' : Proc} {n : Name} {f : Nat} (h : openNew k p n = some (k', p', f)) :
    k'.objs = k.objs ++ [⟨p.user, p.read, p.write, 0, .blank⟩] ∧ k'.names n = some k.objs.length ∧ k.names n = none ∧
      p' = p.setFd f (some (.shm k.objs.length)) ∧ p.fds[f]? = some none ∧ Grows n k p k' p' := by
  unfold openNew at h
  split at h
  · rename_i g hg hn
    split at h
    · cases h
      refine ⟨rfl, ?_, hn, rfl, lowest_free hg, ?_⟩
      · show (if n = n then _ else _) = _
        rw [if_pos rfl]
      · have := Grows.refl n k p
        have h2 := this.setFd f (some (.shm k.objs.length)) (fun d e => by rw [lowest_free hg] at e; cases e)
        exact ⟨⟨_, rfl⟩, fun m hm => by show (if m = n then _ else _) = _; rw [if_neg hm], h2.user, h2.fds, h2.views, h2.shares⟩
    · cases h
  · cases h

/-- What `judge` leaves. -/
def Opened.grows (n : Name) (k : Kernel) (p : Proc) : Opened → Prop
  | .no k' p' => Grows n k p k' p' ∧ p'.views = p.views ∧ p'.cur = p.cur ∧ p'.shares = p.shares ∧ p'.blocked = p.blocked
  | .yes k' p' f => Grows n k p k' p' ∧ p'.views = p.views ∧ p'.shares = p.shares ∧ p'.cur = p.cur ∧ f ≠ 0 ∧
      (∀ d, p.fds[f]? ≠ some (some d)) ∧ k.objs.length < k'.objs.length ∧ k'.names n = some (k'.objs.length - 1)

theorem judge_grows (n : Name) (k : Kernel) (p : Proc) (a : Kernel) (b : Proc) (g : Grows n k p a b) (h1 : b.views = p.views)
    (h2 : b.cur = p.cur) (h3 : b.shares = p.shares) (h4 : b.blocked = p.blocked) :
    (judge a b (openNew a b n)).grows n k p := by
  unfold judge
  split
  · exact ⟨g, h1, h2, h3, h4⟩
  · rename_i k' p' f he
    obtain ⟨e1, e2, e3, e4, e5, e6⟩ := openNew_some he
    subst e4
    split
    · exact ⟨g.trans e6, h1, h2, h3, h4⟩
    · rename_i hf
      refine ⟨g.trans e6, h1, h3, h2, hf, fun d hd => ?_, ?_, ?_⟩
      · rw [g.fds f d hd] at e5
        cases e5
      · obtain ⟨ex, hx⟩ := g.objs
        rw [e1, hx]
        simp
      · rw [e2, e1]
        simp

theorem openFresh_grows (k : Kernel) (p : Proc) (n : Name) : (openFresh k p n).grows n k p := by
  have h := judge_grows n k p k p (Grows.refl n k p) rfl rfl rfl rfl
  unfold openFresh openAgain
  cases hj : judge k p (openNew k p n) with
  | yes k' p' f => rw [hj] at h; exact h
  | no k' p' =>
    rw [hj] at h
    obtain ⟨g, h1, h2, h3, h4⟩ := h
    exact judge_grows n k p _ _ (g.unlink p'.user) h1 h2 h3 h4

/-- What `begin` leaves when it worked: the new structure is the last one. -/
structure Made (n : Name) (k : Kernel) (p : Proc) (k' : Kernel) (p' : Proc) : Prop where
  grows : Grows n k p k' p'
  len : p'.views.length = p.views.length + 1
  cur : p'.cur = some p.views.length
  view : ∃ x, p'.views[p.views.length]? = some x ∧ x.live = true ∧ k.objs.length ≤ x.obj ∧ x.obj < k'.objs.length ∧
    ∀ d, p.fds[x.fd]? ≠ some (some d)

theorem begin_cases (k : Kernel) (p : Proc) (n : Name) (size : Nat) (e : Env) :
    (begin k p n size e = .ub → e.heap = false) ∧
      (∀ k', begin k p n size e ≠ .killed k') ∧
      (∀ k' p', begin k p n size e = .ok k' p' false → Grows n k p k' p' ∧ p'.views = p.views ∧ p'.shares = p.shares ∧ p'.cur = none) ∧
      ∀ k' p', begin k p n size e = .ok k' p' true → Made n k p k' p' ∧ p'.shares = p.shares ∧ p'.views.take p.views.length = p.views := by
  have h := openFresh_grows k { p with cur := none } n
  have g0 : Grows n k p k { p with cur := none } := (Grows.refl n k p).cur none
  cases hj : openFresh k { p with cur := none } n with
  | no a b =>
    rw [hj] at h
    obtain ⟨g, h1, h2, h3, h4⟩ := h
    have hb : begin k p n size e = .ok a b false := by unfold begin; rw [hj]
    rw [hb]
    refine ⟨fun e => (by cases e), fun k' e => (by cases e), fun k' p' e => ?_, fun k' p' e => (by cases e)⟩
    cases e
    exact ⟨g0.trans g, h1, h3, h2⟩
  | yes a b f =>
    rw [hj] at h
    obtain ⟨g, h1, h3, h4, h5, h6, h7, h8⟩ := h
    have gk : Grows n k p (if e.trunc = true then a.resize (a.objs.length - 1) size else a) b := by
      split
      · exact (g0.trans g).resize _ _ (by omega)
      · exact g0.trans g
    have hlen : (if e.trunc = true then a.resize (a.objs.length - 1) size else a).objs.length = a.objs.length := by
      split
      · exact List.length_modify _ _ _
      · rfl
    have hb : begin k p n size e = beginRest a b f (a.objs.length - 1) size e := by unfold begin; rw [hj]
    rw [hb]
    unfold beginRest
    refine ⟨?_, ?_, ?_, ?_⟩
    · intro hu
      split at hu
      · split at hu
        · cases hu
        · rename_i hh; simpa using hh
      · cases hu
    · intro k' hu
      split at hu
      · split at hu <;> cases hu
      · cases hu
    · intro k' p' hu
      split at hu
      · split at hu <;> cases hu
      · cases hu
        exact ⟨gk, h1, h3, h4⟩
    · intro k' p' hu
      split at hu
      · split at hu
        · cases hu
          refine ⟨⟨gk.newView _ _ _ _, ?_, ?_, ?_⟩, h3, ?_⟩
          · show (b.views ++ _).length = _
            rw [h1]; simp
          · show some b.views.length = _
            rw [h1]
          · refine ⟨⟨true, f, size, a.objs.length - 1, true, none⟩, ?_, rfl, ?_, ?_, h6⟩
            · show (b.views ++ _)[_]? = _
              rw [h1]; simp
            · show k.objs.length ≤ a.objs.length - 1
              omega
            · show a.objs.length - 1 < _
              rw [hlen]; omega
          · show (b.views ++ _).take _ = _
            rw [h1]; simp
        · cases hu
      · cases hu

/-- The structure of a new share after it was counted. -/
theorem addShared_made {n : Name} {k k' : Kernel} {p p' p'' : Proc} (m : Made n k p k' p')
    (h : addShared p' n (p'.views.length - 1) = some p'') :
    Made n k p k' p'' ∧ p''.blocked = p'.blocked ∧
      (Countable p n → p'.shares = p.shares → ∀ v, p''.shares n = some v → ∃ x, p''.views[v]? = some x ∧ x.live = true) := by
  have g := m.grows.addShared _ h
  obtain ⟨x, hx, hlive, h1, h2, h3⟩ := m.view
  have hlen := m.len
  have he : p'.views.length - 1 = p.views.length := by omega
  rw [he] at h
  have key : ∀ w (gg : View → View), (∀ x, ∃ c, gg x = { x with count := c }) →
      ∃ x, (p'.views.modify w gg)[p.views.length]? = some x ∧ x.live = true ∧ k.objs.length ≤ x.obj ∧ x.obj < k'.objs.length ∧
        ∀ d, p.fds[x.fd]? ≠ some (some d) := by
    intro w gg hg
    by_cases hi : w = p.views.length
    · subst hi
      obtain ⟨c, hc⟩ := hg x
      refine ⟨gg x, by rw [modify_eq, hx]; rfl, ?_⟩
      rw [hc]
      exact ⟨hlive, h1, h2, h3⟩
    · exact ⟨x, by rw [modify_ne _ _ hi, hx], hlive, h1, h2, h3⟩
  unfold addShared at h
  split at h
  · rename_i hs
    cases h
    have hk := key p.views.length (fun x => { x with count := some 1 }) fun x => ⟨_, rfl⟩
    refine ⟨⟨g, ?_, m.cur, hk⟩, rfl, fun _ _ v hv => ?_⟩
    · show (p'.views.modify _ _).length = _
      rw [List.length_modify]; exact hlen
    · have hv : (if n = n then some p.views.length else p'.shares n) = some v := hv
      rw [if_pos rfl] at hv
      cases hv
      obtain ⟨y, hy, hy2, _⟩ := hk
      exact ⟨y, hy, hy2⟩
  · rename_i v0 hs
    split at h
    · rename_i y hy
      split at h
      · rename_i hl
        cases h
        have hk := key v0 (fun x => { x with count := x.count.map (· + 1) }) fun x => ⟨_, rfl⟩
        refine ⟨⟨g, ?_, m.cur, hk⟩, rfl, fun _ _ v hv => ?_⟩
        · show (p'.views.modify _ _).length = _
          rw [List.length_modify]; exact hlen
        · have hv : p'.shares n = some v := hv
          rw [hs] at hv
          cases hv
          refine ⟨{ y with count := y.count.map (· + 1) }, ?_, hl⟩
          show (p'.views.modify v0 _)[v0]? = _
          rw [modify_eq, hy]; rfl
      · cases h
    · cases h

theorem addShared_some {n : Name} {k k' : Kernel} {p p' : Proc} (m : Made n k p k' p') (hs : p'.shares = p.shares)
    (hc : Countable p n) (v : Nat) : ∃ p'', addShared p' n v = some p'' := by
  unfold addShared
  cases h : p'.shares n with
  | none => exact ⟨_, rfl⟩
  | some v0 =>
    rw [hs] at h
    obtain ⟨x, hx, hl⟩ := hc v0 h
    obtain ⟨c, hc'⟩ := m.grows.views v0 x hx
    simp only [hc']
    rw [if_pos hl]
    exact ⟨_, rfl⟩

/-- `Begin` as a whole. -/
theorem counted_cases (k : Kernel) (p : Proc) (n : Name) (size : Nat) (e : Env) :
    (counted n (begin k p n size e) = .ub → e.heap = true → ¬ Countable p n) ∧
      (∀ k', counted n (begin k p n size e) ≠ .killed k') ∧
      (∀ k' p', counted n (begin k p n size e) = .ok k' p' false →
        Grows n k p k' p' ∧ p'.views = p.views ∧ p'.shares = p.shares ∧ p'.cur = none) ∧
      ∀ k' p', counted n (begin k p n size e) = .ok k' p' true → Made n k p k' p' ∧
        (Countable p n → ∀ v, p'.shares n = some v → ∃ x, p'.views[v]? = some x ∧ x.live = true) := by
  obtain ⟨h1, h2, h3, h4⟩ := begin_cases k p n size e
  cases hb : begin k p n size e with
  | ub => exact ⟨fun _ hh => (by rw [h1 hb] at hh; cases hh), fun _ e => (by cases e), fun _ _ e => (by cases e), fun _ _ e => (by cases e)⟩
  | killed k' => exact absurd hb (h2 k')
  | ok k' p' b =>
    cases b with
    | false =>
      refine ⟨fun e => (by cases e), fun _ e => (by cases e), fun _ _ e => ?_, fun _ _ e => (by cases e)⟩
      cases e
      exact h3 _ _ hb
    | true =>
      obtain ⟨m, hs, ht⟩ := h4 _ _ hb
      show ((match addShared p' n (p'.views.length - 1) with
        | some p => Res.ok k' p true
        | none => .ub) = _ → _) ∧ (∀ _, (match addShared p' n (p'.views.length - 1) with
        | some p => Res.ok k' p true
        | none => .ub) ≠ _) ∧ (∀ _ _, (match addShared p' n (p'.views.length - 1) with
        | some p => Res.ok k' p true
        | none => .ub) = _ → _) ∧ (∀ _ _, (match addShared p' n (p'.views.length - 1) with
        | some p => Res.ok k' p true
        | none => .ub) = _ → _)
      cases ha : addShared p' n (p'.views.length - 1) with
      | none =>
        refine ⟨fun _ _ hc => ?_, fun _ e => (by cases e), fun _ _ e => (by cases e), fun _ _ e => (by cases e)⟩
        obtain ⟨p'', hp⟩ := addShared_some m hs hc (p'.views.length - 1)
        rw [ha] at hp
        cases hp
      | some p'' =>
        refine ⟨fun e => (by cases e), fun _ e => (by cases e), fun _ _ e => (by cases e), fun _ _ e => ?_⟩
        cases e
        obtain ⟨a, _, b⟩ := addShared_made m ha
        exact ⟨a, fun hc => b hc hs⟩

theorem written_made {n : Name} {k k' : Kernel} {p p' : Proc} (m : Made n k p k' p') (t : Nat) (e : Env) :
    Made n k p (written k' p' t e).1 p' := by
  obtain ⟨x, hx, hlive, h1, h2, h3⟩ := m.view
  have he : p'.views.length - 1 = p.views.length := by have := m.len; omega
  have hf : ∀ c, Made n k p (k'.fill x.obj c) p' := fun c =>
    ⟨m.grows.fill _ _ h1, m.len, m.cur, x, hx, hlive, h1, by show x.obj < (k'.objs.modify _ _).length; rw [List.length_modify]; exact h2, h3⟩
  unfold written
  rw [he, hx]
  simp only
  split
  · exact m
  split
  · exact hf _
  · exact hf _

/-- A share which was made can be let go of. -/
theorem made_destroy {n : Name} {k k' : Kernel} {p p' : Proc} (m : Made n k p k' p') : Grows n k p k' p'.destroy := by
  unfold Proc.destroy
  rw [m.cur]
  obtain ⟨x, hx, hlive, h1, h2, h3⟩ := m.view
  refine (m.grows.endView p.views.length (Nat.le_refl _) fun y d hy => ?_).cur none
  rw [hx] at hy
  cases hy
  exact h3 d

theorem made_block {n : Name} {k k' : Kernel} {p p' : Proc} (m : Made n k p k' p') (b : Bool) :
    Made n k p k' { p' with blocked := b } := ⟨m.grows.block b, m.len, m.cur, m.view⟩

theorem saveFill_cases {n : Name} {k k' : Kernel} {p p' : Proc} (m : Made n k p k' p') (t : Nat) (e : Env) :
    saveFill k' p' t e ≠ .ub ∧ (∀ k'', saveFill k' p' t e = .killed k'' → ∃ p'', Grows n k p k'' p'') ∧
      ∀ k'' p'' a, saveFill k' p' t e = .ok k'' p'' a → Grows n k p k'' p'' := by
  have hw := written_made m t e
  unfold saveFill
  cases hq : written k' p' t e with
  | mk q b =>
    rw [hq] at hw
    cases b with
    | true =>
      refine ⟨fun e => (by cases e), fun _ e => (by cases e), fun _ _ _ e => ?_⟩
      cases e
      exact made_destroy hw
    | false =>
      simp only
      split
      · refine ⟨fun e => (by cases e), fun _ e => ?_, fun _ _ _ e => (by cases e)⟩
        cases e
        exact ⟨p', hw.grows⟩
      · refine ⟨fun e => (by cases e), fun _ e => (by cases e), fun _ _ _ e => ?_⟩
        cases e
        exact made_destroy (made_block hw true)

theorem save_cases (k : Kernel) (p : Proc) (n : Name) (t size : Nat) (e : Env) :
    (save k p n t size e = .ub → e.heap = true → ¬ Countable p n) ∧
      (∀ k', save k p n t size e = .killed k' → ∃ p', Grows n k p k' p') ∧
      ∀ k' p' a, save k p n t size e = .ok k' p' a → Grows n k p k' p' := by
  obtain ⟨h1, h2, h3, h4⟩ := counted_cases k p n size e
  unfold save
  cases hc : counted n (begin k p n size e) with
  | ub => exact ⟨fun _ => h1 hc, fun _ e => (by cases e), fun _ _ _ e => (by cases e)⟩
  | killed k' => exact absurd hc (h2 k')
  | ok k' p' b =>
    cases b with
    | false =>
      refine ⟨fun e => (by cases e), fun _ e => (by cases e), fun _ _ _ e => ?_⟩
      cases e
      exact (h3 _ _ hc).1.cur none
    | true =>
      obtain ⟨m, _⟩ := h4 _ _ hc
      obtain ⟨a, b, c⟩ := saveFill_cases m t e
      exact ⟨fun e => absurd e a, b, c⟩

/-- What `find` leaves. -/
def Found.grows (n : Name) (k : Kernel) (p : Proc) : Found → Prop
  | .no p' => Grows n k p k p' ∧ p'.views = p.views ∧ p'.shares = p.shares ∧ p'.cur = p.cur
  | .yes p' _ o _ => Grows n k p k p' ∧ p'.views = p.views ∧ p'.shares = p.shares ∧ p'.cur = p.cur ∧ o < k.objs.length

theorem openOld_some {k : Kernel} {p p' : Proc} {n : Name} {w : Bool} {f o : Nat} (h : openOld k p n w = some (p', f, o)) :
    p' = p.setFd f (some (.shm o)) ∧ p.fds[f]? = some none ∧ o < k.objs.length := by
  unfold openOld at h
  split at h
  · rename_i g q hg hn
    split at h
    · rename_i x hx
      split at h
      · cases h
        exact ⟨rfl, lowest_free hg, (List.getElem?_eq_some_iff.1 hx).1⟩
      · cases h
    · cases h
  · cases h

theorem Grows.openOld {n : Name} {k : Kernel} {p p' p'' : Proc} {w : Bool} {f o : Nat} (a : Grows n k p k p')
    (h : openOld k p' n w = some (p'', f, o)) : Grows n k p k p'' := by
  obtain ⟨h1, h2, _⟩ := openOld_some h
  rw [h1]
  exact a.setFd f _ fun d e => by rw [a.fds f d e] at h2; cases h2

theorem findRead_grows (n : Name) (k : Kernel) (p p' : Proc) (g : Grows n k p k p') (h1 : p'.views = p.views)
    (h2 : p'.shares = p.shares) (h3 : p'.cur = p.cur) : (findRead k p' n).grows n k p := by
  unfold findRead
  split
  · exact ⟨g, h1, h2, h3⟩
  · rename_i p'' f o he
    have ho := openOld_some he
    obtain ⟨e1, e2, e3⟩ := ho
    have g' := g.openOld he
    subst e1
    split
    · exact ⟨g', h1, h2, h3⟩
    · exact ⟨g', h1, h2, h3, e3⟩

theorem find_grows (k : Kernel) (p : Proc) (n : Name) : (find k p n).grows n k p := by
  unfold find
  split
  · exact findRead_grows n k p p (Grows.refl n k p) rfl rfl rfl
  · rename_i p'' f o he
    obtain ⟨e1, e2, e3⟩ := openOld_some he
    have g' := (Grows.refl n k p).openOld he
    subst e1
    split
    · exact findRead_grows n k p _ g' rfl rfl rfl
    · exact ⟨g', rfl, rfl, rfl, e3⟩

theorem mapExisting_cases (k : Kernel) (p : Proc) (n : Name) (e : Env) :
    (mapExisting k p n e = .ub → e.heap = false) ∧
      (∀ k', mapExisting k p n e ≠ .killed k') ∧
      ∀ k' p' b, mapExisting k p n e = .ok k' p' b → k' = k ∧ Grows n k p k p' ∧ p'.shares = p.shares ∧
        (b = false → p'.views = p.views ∧ p'.cur = none) ∧
        (b = true → ∃ v x, p'.cur = some v ∧ p'.views[v]? = some x ∧ x.obj < k.objs.length) := by
  have h := find_grows k { p with cur := none } n
  have g0 : Grows n k p k { p with cur := none } := (Grows.refl n k p).cur none
  unfold mapExisting
  cases hj : find k { p with cur := none } n with
  | no q =>
    rw [hj] at h
    obtain ⟨g, h1, h2, h3⟩ := h
    refine ⟨fun e => (by cases e), fun _ e => (by cases e), fun _ _ _ e => ?_⟩
    cases e
    exact ⟨rfl, g0.trans g, h2, fun _ => ⟨h1, h3⟩, fun e => (by cases e)⟩
  | yes q f o w =>
    rw [hj] at h
    obtain ⟨g, h1, h2, hcur, h3⟩ := h
    simp only
    split
    · split
      · refine ⟨fun e => (by cases e), fun _ e => (by cases e), fun _ _ _ e => ?_⟩
        cases e
        refine ⟨rfl, (g0.trans g).newView _ _ _ _, h2, fun e => (by cases e), fun _ => ⟨q.views.length, ⟨true, f, k.sizeOf o, o, w, none⟩, rfl, ?_, h3⟩⟩
        show (q.views ++ _)[q.views.length]? = _
        simp
      · rename_i hh
        exact ⟨fun _ => (by simpa using hh), fun _ e => (by cases e), fun _ _ _ e => (by cases e)⟩
    · refine ⟨fun e => (by cases e), fun _ e => (by cases e), fun _ _ _ e => ?_⟩
      cases e
      exact ⟨rfl, g0.trans g, h2, fun _ => ⟨h1, hcur⟩, fun e => (by cases e)⟩

theorem openFile_cases (n : Name) (k : Kernel) (p : Proc) (file : Option FileIn) :
    Grows n k p k (openFile p file).1 ∧ (openFile p file).1.views = p.views ∧ (openFile p file).1.shares = p.shares ∧
      (openFile p file).1.cur = p.cur ∧ ∀ f, (openFile p file).2 = some f → p.fds[f]? = some none := by
  unfold openFile
  split
  · exact ⟨Grows.refl n k p, rfl, rfl, rfl, fun _ e => (by cases e)⟩
  split
  · exact ⟨Grows.refl n k p, rfl, rfl, rfl, fun _ e => (by cases e)⟩
  rename_i f hf
  have h := lowest_free hf
  have hne : ∀ d, p.fds[f]? ≠ some (some d) := fun d e => by rw [h] at e; cases e
  split
  · rename_i h0
    subst h0
    exact ⟨(Grows.refl n k p).setFd _ _ hne, rfl, rfl, rfl, fun _ e => (by cases e)⟩
  · refine ⟨(Grows.refl n k p).setFd _ _ hne, rfl, rfl, rfl, fun g e => ?_⟩
    cases e
    exact h

theorem readPlain_cases (n : Name) (k : Kernel) (p : Proc) (file : Option FileIn) :
    ∃ p' r, readPlain k p file = .ok k p' r ∧ Grows n k p k p' ∧ p'.views = p.views ∧ p'.shares = p.shares := by
  obtain ⟨h1, h2, h3, h4, h5⟩ := openFile_cases n k p file
  unfold readPlain
  cases ho : openFile p file with
  | mk q fo =>
    rw [ho] at h1 h2 h3 h4 h5
    cases fo with
    | none => exact ⟨q, .error, rfl, h1, h2, h3⟩
    | some f =>
      cases file with
      | none => exact ⟨q, .error, rfl, h1, h2, h3⟩
      | some x =>
        have hf := h5 f rfl
        exact ⟨_, _, rfl, h1.setFd f none fun d e => (by rw [hf] at e; cases e), h2, h3⟩

/-- Copying of a file: what is left may be let go of. -/
theorem copyIn_cases (k : Kernel) (p : Proc) (n : Name) (file : Option FileIn) (e : Env) (hcur : p.cur = none) :
    (copyIn k p n file e = .ub → e.heap = true → ¬ Countable p n) ∧
      (∀ k', copyIn k p n file e = .killed k' → ∃ p', Grows n k p k' p') ∧
      (∀ k' p', copyIn k p n file e = .ok k' p' true → Grows n k p k' p' ∧
        (∃ v x, p'.cur = some v ∧ p'.views[v]? = some x ∧ x.obj < k'.objs.length) ∧
        (Countable p n → Countable p' n)) ∧
      ∀ k' p', copyIn k p n file e = .ok k' p' false → Grows n k p k' p'.destroy ∧
        ((∀ x, file = some x → x.good = true) → Countable p n → Countable p'.destroy n) := by
  obtain ⟨g0, h1, h2, h3, h5⟩ := openFile_cases n k p file
  unfold copyIn
  cases ho : openFile p file with
  | mk q fo =>
    rw [ho] at g0 h1 h2 h3 h5
    have hq : q.cur = none := h3.trans hcur
    have hd : q.destroy = q := by unfold Proc.destroy; rw [hq]
    have hcq : Countable p n → Countable q n := fun hc v hv => by
      rw [h1]
      exact hc v (h2 ▸ hv)
    cases fo with
    | none =>
      refine ⟨fun e => (by cases e), fun _ e => (by cases e), fun _ _ e => (by cases e), fun _ _ e => ?_⟩
      cases e
      rw [hd]
      exact ⟨g0, fun _ => hcq⟩
    | some f =>
      have hf : p.fds[f]? = some none := h5 f rfl
      have hff : ∀ d, p.fds[f]? ≠ some (some d) := fun d e => by rw [hf] at e; cases e
      cases file with
      | none =>
        refine ⟨fun e => (by cases e), fun _ e => (by cases e), fun _ _ e => (by cases e), fun _ _ e => ?_⟩
        cases e
        rw [hd]
        exact ⟨g0, fun _ => hcq⟩
      | some x =>
        obtain ⟨c1, c2, c3, c4⟩ := counted_cases k q n x.size e
        simp only
        cases hb : counted n (begin k q n x.size e) with
        | ub =>
          exact ⟨fun _ hh hc => c1 hb hh (hcq hc), fun _ e => (by cases e), fun _ _ e => (by cases e), fun _ _ e => (by cases e)⟩
        | killed k' => exact absurd hb (c2 k')
        | ok k' p' b =>
          cases b with
          | false =>
            obtain ⟨d1, d2, d3, d4⟩ := c3 _ _ hb
            refine ⟨fun e => (by cases e), fun _ e => (by cases e), fun _ _ e => (by cases e), fun _ _ e => ?_⟩
            cases e
            refine ⟨((g0.trans d1).cur none).setFd f none hff, fun _ hc v hv => ?_⟩
            have hv : p'.shares n = some v := hv
            show ∃ x, p'.views[v]? = some x ∧ _
            rw [d2, h1]
            exact hc v (by rw [d3, h2] at hv; exact hv)
          | true =>
            obtain ⟨m, hm⟩ := c4 _ _ hb
            have hw := written_made m x.table e
            obtain ⟨y, hy, hlive, y1, y2, y3⟩ := hw.view
            have hy3 : ∀ d, p.fds[y.fd]? ≠ some (some d) := fun d e => y3 d (g0.fds _ d e)
            show (copyFill k' p' f x e = _ → _) ∧ _
            have hcc : Countable p n → Countable p' n := fun hc v hv => hm (hcq hc) v hv
            have hvl : p'.views.length - 1 = q.views.length := by have := m.len; omega
            obtain ⟨ex, hex⟩ := g0.objs
            show (copyFill k' p' f x e = _ → _) ∧ (∀ _, copyFill k' p' f x e = _ → _) ∧ (∀ _ _, copyFill k' p' f x e = _ → _) ∧
              (∀ _ _, copyFill k' p' f x e = _ → _)
            unfold copyFill
            cases hwq : written k' p' x.table e with
            | mk kk b =>
              rw [hwq] at hw y2
              cases b with
              | false =>
                refine ⟨fun e => (by cases e), fun _ e => ?_, fun _ _ e => (by cases e), fun _ _ e => (by cases e)⟩
                cases e
                exact ⟨p', g0.trans hw.grows⟩
              | true =>
                simp only
                split
                · refine ⟨fun e => (by cases e), fun _ e => (by cases e), fun _ _ e => ?_, fun _ _ e => (by cases e)⟩
                  cases e
                  exact ⟨(g0.trans hw.grows).setFd f none hff, ⟨q.views.length, y, m.cur, hy, y2⟩, hcc⟩
                · rename_i hbad
                  rw [hvl, hy]
                  refine ⟨fun e => (by cases e), fun _ e => (by cases e), fun _ _ e => (by cases e), fun _ _ e => ?_⟩
                  cases e
                  refine ⟨?_, fun hg => absurd (hg x rfl) hbad⟩
                  have g1 : Grows n k p (kk.fill y.obj (.torn x.table)) (p'.setFd f none) :=
                    ((g0.trans hw.grows).setFd f none hff).fill _ _ (by omega)
                  unfold Proc.destroy
                  have hc' : (p'.setFd f none).cur = some q.views.length := m.cur
                  rw [hc']
                  refine (g1.endView q.views.length (by rw [h1]; exact Nat.le_refl _) fun z d hz => ?_).cur none
                  have hz : p'.views[q.views.length]? = some z := hz
                  rw [hy] at hz
                  cases hz
                  exact hy3 d

theorem readShared_ok {k : Kernel} {p : Proc} (h : ∃ v x, p.cur = some v ∧ p.views[v]? = some x ∧ x.obj < k.objs.length) :
    ∃ c, readShared k p = .ok k p (.shared c) := by
  obtain ⟨v, x, h1, h2, h3⟩ := h
  unfold readShared
  rw [h1]
  simp only [h2]
  rw [List.getElem?_eq_getElem h3]
  exact ⟨_, rfl⟩

theorem load_cases (k : Kernel) (p : Proc) (n : Name) (info : Bool) (file : Option FileIn) (e : Env) :
    (load k p n info file e = .ub → e.heap = true → info = false ∧ ¬ Countable p n) ∧
      (∀ k', load k p n info file e = .killed k' → ∃ p', Grows n k p k' p') ∧
      ∀ k' p' r, load k p n info file e = .ok k' p' r → Grows n k p k' p' ∧
        ((info = true ∨ ∀ x, file = some x → x.good = true) → Countable p n → Countable p' n) := by
  obtain ⟨a1, a2, a3⟩ := mapExisting_cases k p n e
  unfold load
  cases hm : mapExisting k p n e with
  | ub => exact ⟨fun _ hh => (by rw [a1 hm] at hh; cases hh), fun _ e => (by cases e), fun _ _ _ e => (by cases e)⟩
  | killed k' => exact absurd hm (a2 k')
  | ok k' q b =>
    obtain ⟨rfl, g0, hs, hf, ht⟩ := a3 _ _ _ hm
    have hcq : Countable p n → Countable q n := fun hc v hv => by
      obtain ⟨x, hx, hl⟩ := hc v (hs ▸ hv)
      obtain ⟨c, hx'⟩ := g0.views v x hx
      exact ⟨_, hx', hl⟩
    cases b with
    | true =>
      obtain ⟨c, hr⟩ := readShared_ok (ht rfl)
      show (readShared k' q = _ → _) ∧ (∀ _, readShared k' q = _ → _) ∧ (∀ _ _ _, readShared k' q = _ → _)
      rw [hr]
      refine ⟨fun e => (by cases e), fun _ e => (by cases e), fun _ _ _ e => ?_⟩
      cases e
      exact ⟨g0, fun _ => hcq⟩
    | false =>
      obtain ⟨hv, hc⟩ := hf rfl
      unfold loadMapped
      simp only
      split
      · obtain ⟨p', r, h1, h2, h3, h4⟩ := readPlain_cases n k' q file
        rw [h1]
        refine ⟨fun e => (by cases e), fun _ e => (by cases e), fun _ _ _ e => ?_⟩
        cases e
        exact ⟨g0.trans h2, fun _ hc v hv => (by rw [h3]; exact hcq hc v (h4 ▸ hv))⟩
      · rename_i hi
        obtain ⟨c1, c2, c3, c4⟩ := copyIn_cases k' q n file e hc
        cases hb : copyIn k' q n file e with
        | ub =>
          exact ⟨fun _ hh => ⟨by simpa using hi, fun hc => c1 hb hh (hcq hc)⟩, fun _ e => (by cases e), fun _ _ _ e => (by cases e)⟩
        | killed k2 =>
          obtain ⟨p2, h2⟩ := c2 _ hb
          refine ⟨fun e => (by cases e), fun _ e => ?_, fun _ _ _ e => (by cases e)⟩
          cases e
          exact ⟨p2, g0.trans h2⟩
        | ok k2 p2 b =>
          cases b with
          | true =>
            obtain ⟨d1, d2, d3⟩ := c3 _ _ hb
            obtain ⟨c, hr⟩ := readShared_ok d2
            show (readShared k2 p2 = _ → _) ∧ (∀ _, readShared k2 p2 = _ → _) ∧ (∀ _ _ _, readShared k2 p2 = _ → _)
            rw [hr]
            refine ⟨fun e => (by cases e), fun _ e => (by cases e), fun _ _ _ e => ?_⟩
            cases e
            exact ⟨g0.trans d1, fun _ hc => d3 (hcq hc)⟩
          | false =>
            obtain ⟨d1, d2⟩ := c4 _ _ hb
            obtain ⟨p', r, h1, h2, h3, h4⟩ := readPlain_cases n k2 p2.destroy file
            show (readPlain k2 p2.destroy file = _ → _) ∧ (∀ _, readPlain k2 p2.destroy file = _ → _) ∧
              (∀ _ _ _, readPlain k2 p2.destroy file = _ → _)
            rw [h1]
            refine ⟨fun e => (by cases e), fun _ e => (by cases e), fun _ _ _ e => ?_⟩
            cases e
            refine ⟨(g0.trans d1).trans h2, fun hg hc v hv => ?_⟩
            rw [h3]
            exact d2 (hg.resolve_left hi) (hcq hc) v (h4 ▸ hv)

/-- The new object of a process which may have one. -/
theorem openFresh_ready (k : Kernel) (p : Proc) (n : Name) (f : Nat) (hf : lowest p.fds = some f) (h0 : f ≠ 0) (hn : GoodName n)
    (ho : Own k p.user n) :
    openFresh k p n = .yes ⟨fun m => if m = n then some k.objs.length else k.names m, k.objs ++ [⟨p.user, p.read, p.write, 0, .blank⟩]⟩
      (p.setFd f (some (.shm k.objs.length))) f := by
  have hn' := (shmName_iff n).2 hn
  have key : ∀ k' : Kernel, k'.names n = none → k'.objs = k.objs → (∀ m, m ≠ n → k'.names m = k.names m) →
      judge k' p (openNew k' p n) = .yes ⟨fun m => if m = n then some k.objs.length else k.names m,
        k.objs ++ [⟨p.user, p.read, p.write, 0, .blank⟩]⟩ (p.setFd f (some (.shm k.objs.length))) f := by
    intro k' h1 h2 h3
    unfold openNew
    rw [hf, h1]
    simp only
    rw [if_pos hn']
    unfold judge
    simp only
    rw [if_neg h0, h2]
    congr 1
    unfold Kernel.setName
    simp only [Kernel.mk.injEq, and_true]
    funext m
    by_cases hm : m = n
    · rw [if_pos hm, if_pos hm]
    · rw [if_neg hm, if_neg hm, h3 m hm]
  unfold openFresh
  rcases ho with ho | ⟨o, x, h1, h2, h3⟩
  · rw [key k ho rfl fun _ _ => rfl]
    rfl
  · have : openNew k p n = none := by
      unfold openNew
      rw [hf, h1]
    rw [this]
    show judge (unlink k p.user n) p (openNew (unlink k p.user n) p n) = _
    have hu : unlink k p.user n = k.setName n none := by
      unfold unlink
      rw [h1]
      simp only [h2]
      rw [if_pos h3]
    rw [hu]
    refine key _ ?_ rfl fun m hm => ?_
    · show (if n = n then _ else _) = _
      rw [if_pos rfl]
    · show (if m = n then _ else _) = _
      rw [if_neg hm]

theorem modify_last {α : Type} (l : List α) (a : α) (g : α → α) : (l ++ [a]).modify l.length g = l ++ [g a] := by
  induction l with
  | nil => rfl
  | cons b l ih => exact congrArg (b :: ·) ih

theorem set_back (l : List (Option Fd)) (f : Nat) (d : Option Fd) (h : l[f]? = some none) : (l.set f d).set f none = l := by
  rw [List.set_set]
  apply List.ext_getElem?
  intro i
  by_cases hi : f = i
  · subst hi
    rw [List.getElem?_set_self (List.getElem?_eq_some_iff.1 h).1, h]
  · rw [List.getElem?_set_ne hi]

theorem find_ready (k : Kernel) (p : Proc) (n : Name) (f o : Nat) (x : Obj) (hf : lowest p.fds = some f) (h0 : f ≠ 0) (hn : GoodName n)
    (ho : k.names n = some o) (hx : k.objs[o]? = some x) (hr : Readable p.user x) :
    find k p n = .yes (p.setFd f (some (.shm o))) f o (mayOpen p.user true x) := by
  have hn' := (shmName_iff n).2 hn
  have hr' : mayOpen p.user false x = true := by
    unfold mayOpen
    rcases hr with h | h
    · simp [h]
    · simp [h]
  have h1 : ∀ w, openOld k p n w = if mayOpen p.user w x then some (p.setFd f (some (.shm o)), f, o) else none := by
    intro w
    unfold openOld
    rw [hf, ho]
    simp only [hx]
    rw [hn', Bool.true_and]
  unfold find
  rw [h1]
  by_cases hw : mayOpen p.user true x = true
  · rw [if_pos hw, hw]
    simp only
    rw [if_neg h0]
  · rw [if_neg hw]
    simp only [Bool.not_eq_true] at hw
    rw [hw]
    unfold findRead
    rw [h1, if_pos hr']
    simp only
    rw [if_neg h0]

theorem find_full (k : Kernel) (p : Proc) (n : Name) (h : lowest p.fds = none) : find k p n = .no p := by
  have h1 : ∀ w, openOld k p n w = none := by
    intro w
    unfold openOld
    rw [h]
  unfold find findRead
  rw [h1, h1]

theorem grows_kept {n : Name} {k k' : Kernel} {p p' : Proc} (g : Grows n k p k' p') : KernelKept n k k' ∧ ProcKept p p' :=
  ⟨⟨g.objs, g.names⟩, g.fds, g.views⟩

theorem procKept_refl (p : Proc) : ProcKept p p := ⟨fun _ _ h => h, fun _ x h => ⟨x.count, h⟩⟩

theorem procKept_trans {p q r : Proc} (a : ProcKept p q) (b : ProcKept q r) : ProcKept p r := by
  refine ⟨fun f d h => b.1 f d (a.1 f d h), fun v x h => ?_⟩
  obtain ⟨c, hc⟩ := a.2 v x h
  obtain ⟨c', hc'⟩ := b.2 v _ hc
  exact ⟨c', hc'⟩

/-- What one call of a world leaves. -/
theorem call_kept (w w' : World) (who : Nat) (c : Call) (h : w.call who c = some w') :
    KernelKept c.name w.k w'.k ∧ (∀ q, q ≠ who → w'.procs q = w.procs q) ∧ (w.procs who = none → w'.procs who = none) ∧
      ∀ p p', w.procs who = some p → w'.procs who = some p' → ProcKept p p' := by
  unfold World.call at h
  cases hp : w.procs who with
  | none =>
    rw [hp] at h
    cases h
    exact ⟨⟨⟨[], by simp⟩, fun _ _ => rfl⟩, fun _ _ => rfl, fun _ => hp, fun p p' e => (by cases e)⟩
  | some p =>
    rw [hp] at h
    have set_other : ∀ k q' q, q ≠ who → (w.setProc who k q').procs q = w.procs q := fun k q' q hq => if_neg hq
    have set_self : ∀ k q', (w.setProc who k q').procs who = q' := fun k q' => if_pos rfl
    have fin : ∀ {α : Type} (r : Res α), (∀ k', r = .killed k' → ∃ p', Grows c.name w.k p k' p') →
        (∀ k' p' a, r = .ok k' p' a → Grows c.name w.k p k' p') → w.after who r = some w' →
        KernelKept c.name w.k w'.k ∧ (∀ q, q ≠ who → w'.procs q = w.procs q) ∧ (some p = none → w'.procs who = none) ∧
          ∀ p0 p', some p = some p0 → w'.procs who = some p' → ProcKept p0 p' := by
      intro α r h1 h2 h3
      cases r with
      | ok k' p' a =>
        cases h3
        have g := grows_kept (h2 k' p' a rfl)
        refine ⟨g.1, set_other _ _, fun e => (by cases e), fun p0 q e e' => ?_⟩
        cases e
        rw [set_self] at e'
        cases e'
        exact g.2
      | killed k' =>
        cases h3
        obtain ⟨q, hq⟩ := h1 k' rfl
        refine ⟨(grows_kept hq).1, set_other _ _, fun e => (by cases e), fun p0 q e e' => ?_⟩
        rw [set_self] at e'
        cases e'
      | ub => cases h3
    cases c with
    | save n t size e =>
      obtain ⟨_, a, b⟩ := save_cases w.k p n t size e
      exact fin _ a b h
    | load n info file e =>
      obtain ⟨_, a, b⟩ := load_cases w.k p n info file e
      exact fin _ a (fun k' p' r hr => (b k' p' r hr).1) h

theorem addShared_fds {p p' : Proc} {n : Name} {v : Nat} (h : addShared p n v = some p') : p'.fds = p.fds := by
  unfold addShared at h
  split at h
  · cases h; rfl
  split at h
  · split at h
    · cases h; rfl
    · cases h
  · cases h

theorem addShared_views {p p' : Proc} {n : Name} {v : Nat} (h : addShared p n v = some p') (i : Nat) (x : View)
    (hx : p.views[i]? = some x) : ∃ c, p'.views[i]? = some { x with count := c } :=
  (((Grows.refl n ⟨fun _ => none, []⟩ p)).addShared v h).views i x hx

theorem addShared_none {n : Name} {k k' : Kernel} {p p' : Proc} (m : Made n k p k' p') (hs : p'.shares = p.shares)
    (ht : p'.views.take p.views.length = p.views) (hv : ∀ v, p.shares n = some v → v < p.views.length) (hc : ¬ Countable p n) : addShared p' n (p'.views.length - 1) = none := by
  have hex : ∃ v, p.shares n = some v ∧ ∀ x, p.views[v]? = some x → x.live = false := by
    apply Classical.byContradiction
    intro hno
    apply hc
    intro v hv
    apply Classical.byContradiction
    intro hnx
    refine hno ⟨v, hv, fun x hx => ?_⟩
    cases hl : x.live with
    | false => rfl
    | true => exact absurd ⟨x, hx, hl⟩ hnx
  obtain ⟨v, he, hdead⟩ := hex
  have hlt := hv v he
  have hx : p.views[v]? = some p.views[v] := List.getElem?_eq_getElem hlt
  have hx' : p'.views[v]? = some p.views[v] := by
    rw [← hx, ← ht, List.getElem?_take, if_pos hlt]
  unfold addShared
  rw [hs, he]
  simp only [hx']
  rw [if_neg (by simp [hdead _ hx])]

theorem grows_countable {n m : Name} {k k' : Kernel} {p p' : Proc} (g : Grows n k p k' p') (hm : m ≠ n) (h : Countable p m) :
    Countable p' m := by
  intro v hv
  rw [g.shares m hm] at hv
  obtain ⟨x, hx, hl⟩ := h v hv
  obtain ⟨c, hc⟩ := g.views v x hx
  exact ⟨_, hc, hl⟩

theorem freeFds_set (l : List (Option Fd)) (f : Nat) (d : Fd) (h : l[f]? = some none) :
    (l.set f (some d)).countP (fun f => f.isNone) + 1 = l.countP fun f => f.isNone := by
  induction l generalizing f with
  | nil => cases h
  | cons a l ih =>
    cases f with
    | zero =>
      have : a = none := by simpa using h
      subst this
      simp
    | succ f =>
      have := ih f (by simpa using h)
      rw [List.set_cons_succ, List.countP_cons, List.countP_cons]
      omega

theorem run_dead (w w' : World) (cs : List (Nat × Call)) (who : Nat) (h : w.run cs = some w') (hd : w.procs who = none) :
    w'.procs who = none := by
  induction cs generalizing w with
  | nil => cases h; exact hd
  | cons c cs ih =>
    unfold World.run at h
    cases hc : w.call c.1 c.2 with
    | none => rw [hc] at h; cases h
    | some v =>
      rw [hc] at h
      obtain ⟨_, k2, k3, _⟩ := call_kept w v c.1 c.2 hc
      refine ih v h ?_
      by_cases hw : who = c.1
      · subst hw
        exact k3 hd
      · rw [k2 who hw]
        exact hd

theorem addShared_shares {p p' : Proc} {n : Name} {v : Nat} (h : addShared p n v = some p') (hn : p.shares n = none) :
    p'.shares n = some v := by
  unfold addShared at h
  rw [hn] at h
  cases h
  exact if_pos rfl

theorem openNew_full (k : Kernel) (p : Proc) (n : Name) (h : lowest p.fds = none) : openNew k p n = none := by
  unfold openNew
  rw [h]

theorem openNew_taken (k : Kernel) (p : Proc) (n : Name) (o : Nat) (h : k.names n = some o) : openNew k p n = none := by
  unfold openNew
  cases lowest p.fds with
  | none => rfl
  | some f => rw [h]

theorem unlink_own (k : Kernel) (u : Nat) (n : Name) (o : Nat) (x : Obj) (h1 : k.names n = some o) (h2 : k.objs[o]? = some x)
    (h3 : x.owner = u) : unlink k u n = ⟨fun m => if m = n then none else k.names m, k.objs⟩ := by
  unfold unlink
  rw [h1]
  simp only [h2]
  rw [if_pos h3]
  rfl

theorem unlink_foreign (k : Kernel) (u : Nat) (n : Name) (o : Nat) (x : Obj) (h1 : k.names n = some o) (h2 : k.objs[o]? = some x)
    (h3 : x.owner ≠ u) : unlink k u n = k := by
  unfold unlink
  rw [h1]
  simp only [h2]
  rw [if_neg h3]

theorem find_absent (k : Kernel) (p : Proc) (n : Name) (h : k.names n = none) : find k p n = .no p := by
  have h1 : ∀ w, openOld k p n w = none := by
    intro w
    unfold openOld
    rw [h]
    cases lowest p.fds <;> rfl
  unfold find findRead
  rw [h1, h1]

theorem find_forbidden (k : Kernel) (p : Proc) (n : Name) (o : Nat) (x : Obj) (h : k.names n = some o) (hx : k.objs[o]? = some x)
    (h1 : x.owner ≠ p.user) (h2 : x.read = false) : find k p n = .no p := by
  have h1 : ∀ w, openOld k p n w = none := by
    intro w
    unfold openOld
    rw [h]
    cases lowest p.fds with
    | none => rfl
    | some f =>
      simp only [hx]
      rw [if_neg (by simp [mayOpen, h1, h2])]
  unfold find findRead
  rw [h1, h1]

end Riptide.Shm
