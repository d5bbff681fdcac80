import Verif.Shm.CallLemmas
/-! # What the calls which make, find and let go of shares do -/
namespace Riptide.Shm

/-- A table which is saved is in a new object which has the name from then on; what was under the name before and all other objects stay, and
the process holds as much as before. -/
theorem save_shares (k : Kernel) (p : Proc) (n : Name) (t size : Nat) (hr : Ready p.fds) (hn : GoodName n) (ho : Own k p.user n)
    (hc : Countable p n) (hs : size ≠ 0) :
    ∃ p', save k p n t size Env.fine = .ok ⟨fun m => if m = n then some k.objs.length else k.names m,
        k.objs ++ [⟨p.user, p.read, p.write, size, .whole t⟩]⟩ p' () ∧
      p'.fds = p.fds ∧ p'.cur = none ∧ p'.blocked = p.blocked ∧ p'.user = p.user ∧ ProcKept p p' ∧
      (p.shares n = none → p'.shares n = some p.views.length) ∧ p'.views.length = p.views.length + 1 ∧
      ∃ x, p'.views[p.views.length]? = some x ∧ x.live = false := by
  obtain ⟨f, h0, hf⟩ := ready_lowest hr
  have hfree := lowest_free hf
  have hopen := openFresh_ready k { p with cur := none } n f hf h0 hn ho
  have hb : begin k p n size Env.fine = .ok ⟨fun m => if m = n then some k.objs.length else k.names m,
      k.objs ++ [⟨p.user, p.read, p.write, size, .blank⟩]⟩
      (({ p with cur := none }.setFd f (some (.shm k.objs.length))).newView f size k.objs.length true) true := by
    unfold begin
    rw [hopen]
    simp only
    unfold beginRest
    rw [if_pos ⟨hs, rfl⟩]
    simp only [Env.fine, if_true]
    unfold Kernel.resize
    simp only [List.length_append, List.length_singleton, Nat.add_sub_cancel]
    rw [modify_last]
  obtain ⟨_, _, _, h4⟩ := begin_cases k p n size Env.fine
  obtain ⟨m, hsh, _⟩ := h4 _ _ hb
  obtain ⟨q, hq⟩ := addShared_some m hsh hc
    ((({ p with cur := none }.setFd f (some (.shm k.objs.length))).newView f size k.objs.length true).views.length - 1)
  obtain ⟨mq, hbl, _⟩ := addShared_made m hq
  have hcount : counted n (begin k p n size Env.fine) = .ok ⟨fun m => if m = n then some k.objs.length else k.names m,
      k.objs ++ [⟨p.user, p.read, p.write, size, .blank⟩]⟩ q true := by
    rw [hb]
    show (match addShared _ n _ with
      | some p => Res.ok _ p true
      | none => .ub) = _
    rw [hq]
  have hqf : q.fds = p.fds.set f (some (.shm k.objs.length)) := by
    have := addShared_fds hq
    exact this
  have hqv : ∃ c, q.views[p.views.length]? = some ⟨true, f, size, k.objs.length, true, c⟩ := by
    have := addShared_views hq p.views.length ⟨true, f, size, k.objs.length, true, none⟩ (by
      show (p.views ++ _)[_]? = _
      simp)
    exact this
  obtain ⟨c, hqv⟩ := hqv
  have hl : q.views.length - 1 = p.views.length := by have := mq.len; omega
  have hw : written ⟨fun m => if m = n then some k.objs.length else k.names m,
      k.objs ++ [⟨p.user, p.read, p.write, size, .blank⟩]⟩ q t Env.fine = (⟨fun m => if m = n then some k.objs.length else k.names m,
      k.objs ++ [⟨p.user, p.read, p.write, size, .whole t⟩]⟩, true) := by
    unfold written
    rw [hl, hqv]
    simp only
    have hsz : Kernel.sizeOf ⟨fun m => if m = n then some k.objs.length else k.names m,
      k.objs ++ [⟨p.user, p.read, p.write, size, .blank⟩]⟩ k.objs.length = size := by
      unfold Kernel.sizeOf
      simp
    rw [hsz, if_neg (by omega)]
    simp only [Env.fine, if_true]
    unfold Kernel.fill
    simp only
    rw [modify_last]
  have hkept := (grows_kept (made_destroy mq)).2
  have hdes : q.destroy =
      { q with views := q.views.modify p.views.length (fun x => { x with live := false }), fds := q.fds.set f none, cur := none } := by
    unfold Proc.destroy Proc.endView
    rw [mq.cur]
    simp only [hqv]
  refine ⟨q.destroy, ?_, ?_, ?_, ?_, (made_destroy mq).user, hkept, fun hno => ?_, ?_, ?_⟩
  · unfold save
    rw [hcount]
    show saveFill _ _ _ _ = _
    unfold saveFill
    rw [hw]
  · rw [hdes]
    show q.fds.set f none = _
    rw [hqf]
    exact set_back _ _ _ hfree
  · rw [hdes]
  · rw [hdes]
    exact hbl
  · rw [hdes]
    have := addShared_shares hq (by rw [hsh]; exact hno)
    show q.shares n = _
    rw [this]
    show some ((p.views ++ _).length - 1) = _
    simp
  · rw [hdes]
    show (q.views.modify _ _).length = _
    rw [List.length_modify]
    exact mq.len
  · rw [hdes]
    refine ⟨⟨false, f, size, k.objs.length, true, c⟩, ?_, rfl⟩
    show (q.views.modify _ _)[_]? = _
    rw [modify_eq, hqv]
    rfl

/-- A share which is there is read, whatever the file is; nothing of the system changes; the process has one more descriptor and one more
structure, which is not counted. -/
theorem load_reads (k : Kernel) (p : Proc) (n : Name) (info : Bool) (file : Option FileIn) (e : Env) (o : Nat) (x : Obj) (f : Nat)
    (h0 : ∃ d, p.fds[0]? = some (some d)) (hf : IsLowest p.fds f) (hn : GoodName n) (ho : k.names n = some o)
    (hx : k.objs[o]? = some x) (hr : Readable p.user x) (hs : x.size ≠ 0) (hm : e.map = true) (hh : e.heap = true) :
    ∃ p', load k p n info file e = .ok k p' (.shared x.content) ∧ p'.fds = p.fds.set f (some (.shm o)) ∧
      p'.shares = p.shares ∧ p'.cur = some p.views.length ∧ p'.user = p.user ∧
      ∃ w, p'.views = p.views ++ [⟨true, f, x.size, o, w, none⟩] ∧ (w = true ↔ Writable p.user x) := by
  have hf' := (lowest_iff _ _).2 hf
  have hf0 : f ≠ 0 := by
    rintro rfl
    obtain ⟨d, hd⟩ := h0
    rw [hf.1] at hd
    cases hd
  have hsz : k.sizeOf o = x.size := by unfold Kernel.sizeOf; rw [hx]
  have hmap : mapExisting k p n e = .ok k (({ p with cur := none }.setFd f (some (.shm o))).newView f x.size o (mayOpen p.user true x)) true := by
    unfold mapExisting
    rw [find_ready k { p with cur := none } n f o x hf' hf0 hn ho hx hr]
    simp only
    rw [hsz, if_pos ⟨hs, hm⟩, if_pos hh]
  refine ⟨({ p with cur := none }.setFd f (some (.shm o))).newView f x.size o (mayOpen p.user true x), ?_, rfl, rfl, rfl, rfl,
    mayOpen p.user true x, rfl, ?_⟩
  · unfold load
    rw [hmap]
    unfold loadMapped
    simp only
    unfold readShared
    have : (({ p with cur := none }.setFd f (some (.shm o))).newView f x.size o (mayOpen p.user true x)).views[p.views.length]? =
        some ⟨true, f, x.size, o, mayOpen p.user true x, none⟩ := by
      show (p.views ++ _)[_]? = _
      simp
    simp only [Proc.newView, Proc.setFd] at this ⊢
    rw [this]
    simp only
    rw [hx]
  · unfold mayOpen Writable
    simp

/-- What one process saves another one reads, if it may. -/
theorem saved_is_loaded (k : Kernel) (p q : Proc) (n : Name) (t size : Nat) (info : Bool) (file : Option FileIn)
    (hr : Ready p.fds) (hn : GoodName n) (ho : Own k p.user n) (hc : Countable p n) (hs : size ≠ 0)
    (hq : Ready q.fds) (hu : q.user = p.user ∨ p.read = true) :
    ∃ k' p' q', save k p n t size Env.fine = .ok k' p' () ∧ load k' q n info file Env.fine = .ok k' q' (.shared (.whole t)) := by
  obtain ⟨p', h1, _⟩ := save_shares k p n t size hr hn ho hc hs
  obtain ⟨f, _, hf⟩ := ready_lowest hq
  obtain ⟨q', h2, _⟩ := load_reads ⟨fun m => if m = n then some k.objs.length else k.names m,
    k.objs ++ [⟨p.user, p.read, p.write, size, .whole t⟩]⟩ q n info file Env.fine k.objs.length
    ⟨p.user, p.read, p.write, size, .whole t⟩ f hq.1 ((lowest_iff _ _).1 hf) hn (if_pos rfl) (by simp)
    (hu.imp Eq.symm id) hs rfl rfl
  exact ⟨_, p', q', h1, h2⟩

/-- No call changes an object which was there before, so that what a reader holds stays what it was whatever is saved later under the same
name; and no call takes away a descriptor or a structure which a process had before. -/
theorem readers_keep (w w' : World) (cs : List (Nat × Call)) (h : w.run cs = some w') :
    (∃ new, w'.k.objs = w.k.objs ++ new) ∧
      ∀ who p p', w.procs who = some p → w'.procs who = some p' → ProcKept p p' := by
  induction cs generalizing w with
  | nil =>
    cases h
    exact ⟨⟨[], by simp⟩, fun who p p' h1 h2 => (by rw [h1] at h2; cases h2; exact procKept_refl p)⟩
  | cons c cs ih =>
    unfold World.run at h
    cases hc : w.call c.1 c.2 with
    | none => rw [hc] at h; cases h
    | some v =>
      rw [hc] at h
      obtain ⟨⟨⟨e1, k1⟩, _⟩, k2, k3, k4⟩ := call_kept w v c.1 c.2 hc
      obtain ⟨⟨e2, i1⟩, i2⟩ := ih v h
      refine ⟨⟨e1 ++ e2, by rw [i1, k1, List.append_assoc]⟩, fun who p p' h1 h2 => ?_⟩
      by_cases hw : who = c.1
      · subst hw
        cases hv : v.procs c.1 with
        | none =>
          have := run_dead v w' cs c.1 h hv
          rw [this] at h2
          cases h2
        | some q => exact procKept_trans (k4 p q h1 hv) (i2 c.1 q p' hv h2)
      · exact i2 who p p' (by rw [k2 who hw]; exact h1) h2

/-- What a reader sees through a structure stays what it was. -/
theorem readers_see (w w' : World) (cs : List (Nat × Call)) (h : w.run cs = some w') (who : Nat) (p p' : Proc) (v : Nat) (x : View) (o : Obj)
    (hp : w.procs who = some p) (hp' : w'.procs who = some p') (hx : p.views[v]? = some x) (hl : x.live = true) (ho : w.k.objs[x.obj]? = some o) :
    ∃ y, p'.views[v]? = some y ∧ y.live = true ∧ y.obj = x.obj ∧ y.size = x.size ∧ w'.k.objs[y.obj]? = some o := by
  obtain ⟨⟨new, h1⟩, h2⟩ := readers_keep w w' cs h
  obtain ⟨c, hc⟩ := (h2 who p p' hp hp').2 v x hx
  refine ⟨_, hc, hl, rfl, rfl, ?_⟩
  rw [h1]
  rw [List.getElem?_append_left (List.getElem?_eq_some_iff.1 ho).1]
  exact ho

/-- Calls with other names leave a name alone. -/
theorem other_names (w w' : World) (cs : List (Nat × Call)) (h : w.run cs = some w') (n : Name) (hn : ∀ c ∈ cs, c.2.name ≠ n) :
    w'.k.names n = w.k.names n := by
  induction cs generalizing w with
  | nil => cases h; rfl
  | cons c cs ih =>
    unfold World.run at h
    cases hc : w.call c.1 c.2 with
    | none => rw [hc] at h; cases h
    | some v =>
      rw [hc] at h
      obtain ⟨⟨_, k1⟩, _⟩ := call_kept w v c.1 c.2 hc
      rw [ih v h fun d hd => hn d (List.mem_cons_of_mem _ hd), k1 n (Ne.symm (hn c (List.mem_cons_self ..)))]

/-- A share with one more reader of the same share: the loop of `loads_use_up`. -/
theorem loads_run (n : Name) (info : Bool) (file : Option FileIn) (o : Nat) (x : Obj) (hn : GoodName n) (hs : x.size ≠ 0) (j : Nat) :
    ∀ (w : World) (who : Nat) (p : Proc), w.procs who = some p → (∃ d, p.fds[0]? = some (some d)) → w.k.names n = some o →
      w.k.objs[o]? = some x → Readable p.user x → freeFds p = j →
      ∃ w' p', w.run (List.replicate j (who, .load n info file Env.fine)) = some w' ∧ w'.k = w.k ∧ w'.procs who = some p' ∧
        freeFds p' = 0 := by
  induction j with
  | zero => exact fun w who p hp _ _ _ _ hj => ⟨w, p, rfl, rfl, hp, hj⟩
  | succ j ih =>
    intro w who p hp h0 ho hx hr hj
    have hex : ∃ f : Nat, p.fds[f]? = some none := by
      have : 0 < p.fds.countP fun f => f.isNone := by unfold freeFds at hj; omega
      obtain ⟨d, hd, hd2⟩ := List.countP_pos_iff.1 this
      obtain ⟨f, hf, he⟩ := List.getElem_of_mem hd
      refine ⟨f, ?_⟩
      rw [List.getElem?_eq_getElem hf, he]
      cases d with
      | none => rfl
      | some d => cases hd2
    obtain ⟨f, hf0, hf⟩ := ready_lowest ⟨h0, hex⟩
    obtain ⟨p', h1, h2, _, _, h5, _⟩ := load_reads w.k p n info file Env.fine o x f h0 ((lowest_iff _ _).1 hf) hn ho hx hr hs rfl rfl
    have hcall : w.call who (.load n info file Env.fine) = some (w.setProc who w.k (some p')) := by
      unfold World.call
      rw [hp]
      simp only
      rw [h1]
      rfl
    have hfree := lowest_free hf
    have hcnt : freeFds p' = j := by
      have := freeFds_set p.fds f (.shm o) hfree
      unfold freeFds at hj ⊢
      rw [h2]
      omega
    obtain ⟨w', q, i1, i2, i3, i4⟩ := ih (w.setProc who w.k (some p')) who p' (if_pos rfl) (by
      obtain ⟨d, hd⟩ := h0
      exact ⟨d, by rw [h2, List.getElem?_set_ne hf0]; exact hd⟩) ho hx (by rw [h5]; exact hr) hcnt
    refine ⟨w', q, ?_, i2, i3, i4⟩
    rw [List.replicate_succ]
    unfold World.run
    rw [hcall]
    exact i1

/-- Every reading of a share uses up a descriptor which is never given back: a process with `j` of them can read a share `j` times, and after
that neither the share nor the file. -/
theorem loads_use_up (w : World) (who : Nat) (p : Proc) (n : Name) (info : Bool) (file : Option FileIn) (o : Nat) (x : Obj)
    (hp : w.procs who = some p) (h0 : ∃ d, p.fds[0]? = some (some d)) (hn : GoodName n) (ho : w.k.names n = some o)
    (hx : w.k.objs[o]? = some x) (hr : Readable p.user x) (hs : x.size ≠ 0) :
    ∃ w' p' p'', w.run (List.replicate (freeFds p) (who, .load n info file Env.fine)) = some w' ∧ w'.k = w.k ∧ w'.procs who = some p' ∧
      load w'.k p' n info file Env.fine = .ok w.k p'' .error := by
  obtain ⟨w', p', h1, h2, h3, h4⟩ := loads_run n info file o x hn hs (freeFds p) w who p hp h0 ho hx hr rfl
  have hfull : lowest p'.fds = none := by
    apply lowest_none
    intro f hf
    have : 0 < p'.fds.countP fun f => f.isNone := List.countP_pos_iff.2 ⟨none, List.mem_of_getElem? hf, rfl⟩
    unfold freeFds at h4
    omega
  have hmap : mapExisting w'.k p' n Env.fine = .ok w'.k { p' with cur := none } false := by
    unfold mapExisting
    rw [find_full w'.k { p' with cur := none } n hfull]
  have hof : openFile { p' with cur := none } file = ({ p' with cur := none }, none) := by
    unfold openFile
    split
    · rfl
    · rw [show lowest ({ p' with cur := none } : Proc).fds = none from hfull]
  have hpl : readPlain w'.k { p' with cur := none } file = .ok w'.k { p' with cur := none } .error := by
    unfold readPlain
    rw [hof]
  refine ⟨w', p', { p' with cur := none }, h1, h2, h3, ?_⟩
  unfold load
  rw [hmap, ← h2]
  unfold loadMapped
  simp only
  split
  · exact hpl
  · have : copyIn w'.k { p' with cur := none } n file Env.fine = .ok w'.k { p' with cur := none } false := by
      unfold copyIn
      rw [hof]
    rw [this]
    exact hpl

/-- Saving is undefined exactly when there is no memory for the structure or the name was recorded with a structure which was given back. -/
theorem save_undefined (k : Kernel) (p : Proc) (n : Name) (t size : Nat) (e : Env) (hr : Ready p.fds) (hn : GoodName n)
    (ho : Own k p.user n) (hv : ∀ v, p.shares n = some v → v < p.views.length) (hs : size ≠ 0) (hm : e.map = true) :
    save k p n t size e = .ub ↔ e.heap = false ∨ ¬ Countable p n := by
  constructor
  · intro h
    cases hh : e.heap with
    | false => exact Or.inl rfl
    | true => exact Or.inr ((save_cases k p n t size e).1 h hh)
  · intro h
    obtain ⟨f, h0, hf⟩ := ready_lowest hr
    have hopen := openFresh_ready k { p with cur := none } n f hf h0 hn ho
    cases hh : e.heap with
    | false =>
      unfold save begin
      rw [hopen]
      simp only
      unfold beginRest
      rw [if_pos ⟨hs, hm⟩, if_neg (by simp [hh])]
      rfl
    | true =>
      rw [hh] at h
      have hc : ¬ Countable p n := h.resolve_left (by simp)
      have hb : ∃ k' p', begin k p n size e = .ok k' p' true := by
        unfold begin
        rw [hopen]
        simp only
        unfold beginRest
        rw [if_pos ⟨hs, hm⟩, if_pos hh]
        exact ⟨_, _, rfl⟩
      obtain ⟨k', p', hb⟩ := hb
      obtain ⟨_, _, _, h4⟩ := begin_cases k p n size e
      obtain ⟨m, hsh, htake⟩ := h4 _ _ hb
      have hadd : addShared p' n (p'.views.length - 1) = none := addShared_none m hsh htake hv hc
      unfold save
      rw [hb]
      show saveRest t e (match addShared p' n (p'.views.length - 1) with
        | some p => Res.ok k' p true
        | none => .ub) = _
      rw [hadd]
      rfl

/-- Calls of any processes are defined and leave what others hold, if there is memory for their structures and no process makes a share with a
name after a call which gave back the structure for that name.  Missing: the calls of a process which save a name again, which are undefined
(`saved_twice`). -/
theorem history_partial (w : World) (cs : List (Nat × Call)) (hw : ∀ who p, w.procs who = some p → Fresh p)
    (hh : ∀ c ∈ cs, c.2.heapOk) (hg : OnceFreed cs) : ∃ w', w.run cs = some w' := by
  have key : ∀ (cs : List (Nat × Call)) (w : World),
      (∀ who p, w.procs who = some p → ∀ n, Countable p n ∨ ∀ c ∈ cs, c.2.makes → ¬ (who = c.1 ∧ n = c.2.name)) →
      (∀ c ∈ cs, c.2.heapOk) → OnceFreed cs → ∃ w', w.run cs = some w' := by
    intro cs
    induction cs with
    | nil => exact fun w _ _ _ => ⟨w, rfl⟩
    | cons c cs ih =>
      intro w inv hh hg
      have hg' := List.pairwise_cons.1 hg
      have hheap := hh c (List.mem_cons_self ..)
      obtain ⟨who, c⟩ := c
      have hrest : ∀ v, w.call who c = some v →
          (∀ p q, w.procs who = some p → v.procs who = some q → ∀ n, n = c.name → (¬ c.frees) → Countable p n → Countable q n) →
          (∀ p q, w.procs who = some p → v.procs who = some q → ∀ n, n ≠ c.name → Countable p n → Countable q n) →
          ∃ w', w.run ((who, c) :: cs) = some w' := by
        intro v hv h1 h2
        obtain ⟨_, k2, k3, _⟩ := call_kept w v who c hv
        have : ∃ w', v.run cs = some w' := by
          refine ih v (fun q p hp n => ?_) (fun d hd => hh d (List.mem_cons_of_mem _ hd)) hg'.2
          by_cases hq : q = who
          · subst hq
            cases hwp : w.procs q with
            | none => rw [k3 hwp] at hp; cases hp
            | some p0 =>
              rcases inv q p0 hwp n with hc | hc
              · by_cases hn : n = c.name
                · by_cases hfr : c.frees
                  · exact Or.inr fun d hd hm he => hg'.1 d hd hfr hm ⟨he.1, hn ▸ he.2⟩
                  · exact Or.inl (h1 p0 p hwp hp n hn hfr hc)
                · exact Or.inl (h2 p0 p hwp hp n hn hc)
              · exact Or.inr fun d hd => hc d (List.mem_cons_of_mem _ hd)
          · rw [k2 q hq] at hp
            rcases inv q p hp n with hc | hc
            · exact Or.inl hc
            · exact Or.inr fun d hd => hc d (List.mem_cons_of_mem _ hd)
        obtain ⟨w', hw'⟩ := this
        refine ⟨w', ?_⟩
        unfold World.run
        simp only [hv]
        exact hw'
      cases hp : w.procs who with
      | none =>
        have hv : w.call who c = some w := by unfold World.call; rw [hp]
        exact hrest w hv (fun p q e => (by rw [hp] at e; cases e)) (fun p q e => (by rw [hp] at e; cases e))
      | some p =>
        have set_self : ∀ k q', (w.setProc who k q').procs who = q' := fun k q' => if_pos rfl
        cases c with
        | save n t size e =>
          obtain ⟨s1, s2, s3⟩ := save_cases w.k p n t size e
          have hcp : Countable p n := (inv who p hp n).resolve_right fun h => h (who, .save n t size e) (List.mem_cons_self ..) trivial ⟨rfl, rfl⟩
          cases hs : save w.k p n t size e with
          | ub => exact absurd hcp (s1 hs hheap)
          | killed k' =>
            have hv : w.call who (.save n t size e) = some (w.setProc who k' none) := by
              unfold World.call; rw [hp]; simp only; rw [hs]; rfl
            exact hrest _ hv (fun p q _ e => (by rw [set_self] at e; cases e)) (fun p q _ e => (by rw [set_self] at e; cases e))
          | ok k' p' a =>
            have hv : w.call who (.save n t size e) = some (w.setProc who k' (some p')) := by
              unfold World.call; rw [hp]; simp only; rw [hs]; rfl
            refine hrest _ hv (fun _ _ _ _ _ _ hf => absurd trivial hf) (fun p0 q e1 e2 m hm hc => ?_)
            rw [hp] at e1
            cases e1
            rw [set_self] at e2
            cases e2
            exact grows_countable (s3 _ _ _ hs) hm hc
        | load n info file e =>
          obtain ⟨s1, s2, s3⟩ := load_cases w.k p n info file e
          cases hs : load w.k p n info file e with
          | ub =>
            obtain ⟨hi, hnc⟩ := s1 hs hheap
            exact absurd ((inv who p hp n).resolve_right fun h => h (who, .load n info file e) (List.mem_cons_self ..) hi ⟨rfl, rfl⟩) hnc
          | killed k' =>
            have hv : w.call who (.load n info file e) = some (w.setProc who k' none) := by
              unfold World.call; rw [hp]; simp only; rw [hs]; rfl
            exact hrest _ hv (fun p q _ e => (by rw [set_self] at e; cases e)) (fun p q _ e => (by rw [set_self] at e; cases e))
          | ok k' p' a =>
            have hv : w.call who (.load n info file e) = some (w.setProc who k' (some p')) := by
              unfold World.call; rw [hp]; simp only; rw [hs]; rfl
            obtain ⟨t1, t2⟩ := s3 _ _ _ hs
            refine hrest _ hv (fun p0 q e1 e2 m hm hf hc => ?_) (fun p0 q e1 e2 m hm hc => ?_)
            · rw [hp] at e1
              cases e1
              rw [set_self] at e2
              cases e2
              have hm : m = n := hm
              subst hm
              refine t2 ?_ hc
              cases info with
              | true => exact Or.inl rfl
              | false =>
                refine Or.inr fun x hx => ?_
                cases hgd : x.good with
                | true => rfl
                | false => exact absurd ⟨rfl, x, hx, hgd⟩ hf
            · rw [hp] at e1
              cases e1
              rw [set_self] at e2
              cases e2
              exact grows_countable t1 hm hc
  refine key cs w (fun who p hp n => Or.inl fun v hv => ?_) hh hg
  rw [(hw who p hp).2 n] at hv
  cases hv

/-- A file without a share is copied into one, which stays open and is counted; the descriptor of the file is given back. -/
theorem load_copies (k : Kernel) (p : Proc) (n : Name) (t size : Nat) (f g : Nat) (h0 : ∃ d, p.fds[0]? = some (some d))
    (hf : IsLowest p.fds f) (hg : IsLowest (p.fds.set f (some .other)) g) (hn : GoodName n) (hk : k.names n = none)
    (hs : size ≠ 0) (hsh : p.shares n = none) :
    ∃ p', load k p n false (some ⟨t, size, true⟩) Env.fine = .ok ⟨fun m => if m = n then some k.objs.length else k.names m,
        k.objs ++ [⟨p.user, p.read, p.write, size, .whole t⟩]⟩ p' (.shared (.whole t)) ∧
      p'.fds = p.fds.set g (some (.shm k.objs.length)) ∧ p'.views = p.views ++ [⟨true, g, size, k.objs.length, true, some 1⟩] ∧
      p'.shares n = some p.views.length ∧ p'.cur = some p.views.length := by
  have hf0 : f ≠ 0 := by
    rintro rfl
    obtain ⟨d, hd⟩ := h0
    rw [hf.1] at hd
    cases hd
  have hfg : f ≠ g := by
    rintro rfl
    have := hg.1
    rw [List.getElem?_set_self (List.getElem?_eq_some_iff.1 hf.1).1] at this
    cases this
  have hg0 : g ≠ 0 := by
    rintro rfl
    obtain ⟨d, hd⟩ := h0
    have := hg.1
    rw [List.getElem?_set_ne hfg, hd] at this
    cases this
  have hmap : mapExisting k p n Env.fine = .ok k { p with cur := none } false := by
    unfold mapExisting
    rw [find_absent k _ n hk]
  have hof : openFile { p with cur := none } (some ⟨t, size, true⟩) = (({ p with cur := none } : Proc).setFd f (some .other), some f) := by
    unfold openFile
    simp only
    rw [(lowest_iff _ _).2 hf]
    simp only
    rw [if_neg hf0]
  have hb : begin k (({ p with cur := none } : Proc).setFd f (some .other)) n size Env.fine =
      .ok ⟨fun m => if m = n then some k.objs.length else k.names m, k.objs ++ [⟨p.user, p.read, p.write, size, .blank⟩]⟩
        (((({ p with cur := none } : Proc).setFd f (some .other)).setFd g (some (.shm k.objs.length))).newView g size k.objs.length true)
        true := by
    unfold begin
    have := openFresh_ready k (({ p with cur := none } : Proc).setFd f (some .other)) n g ((lowest_iff _ _).2 hg) hg0 hn (Or.inl hk)
    rw [show ({ ({ p with cur := none } : Proc).setFd f (some .other) with cur := none } : Proc) =
      ({ p with cur := none } : Proc).setFd f (some .other) from rfl, this]
    simp only
    unfold beginRest
    rw [if_pos ⟨hs, rfl⟩]
    simp only [Env.fine, if_true]
    unfold Kernel.resize
    simp only [List.length_append, List.length_singleton, Nat.add_sub_cancel]
    rw [modify_last]
    rfl
  let q : Proc := ⟨p.user, p.read, p.write, (p.fds.set f (some .other)).set g (some (.shm k.objs.length)),
    p.views ++ [⟨true, g, size, k.objs.length, true, some 1⟩], fun m => if m = n then some p.views.length else p.shares m,
    some p.views.length, p.blocked⟩
  have hc : counted n (begin k (({ p with cur := none } : Proc).setFd f (some .other)) n size Env.fine) =
      .ok ⟨fun m => if m = n then some k.objs.length else k.names m, k.objs ++ [⟨p.user, p.read, p.write, size, .blank⟩]⟩ q true := by
    rw [hb]
    unfold counted addShared
    simp only [Proc.newView, Proc.setFd]
    rw [hsh]
    simp only [List.length_append, List.length_singleton, Nat.add_sub_cancel]
    rw [modify_last]
  have hlast : q.views[q.views.length - 1]? = some ⟨true, g, size, k.objs.length, true, some 1⟩ := by
    show (p.views ++ [_])[(p.views ++ [_]).length - 1]? = _
    simp
  have hw : written ⟨fun m => if m = n then some k.objs.length else k.names m,
      k.objs ++ [⟨p.user, p.read, p.write, size, .blank⟩]⟩ q t Env.fine = (⟨fun m => if m = n then some k.objs.length else k.names m,
      k.objs ++ [⟨p.user, p.read, p.write, size, .whole t⟩]⟩, true) := by
    unfold written
    rw [hlast]
    simp only
    have hsz : Kernel.sizeOf ⟨fun m => if m = n then some k.objs.length else k.names m,
      k.objs ++ [⟨p.user, p.read, p.write, size, .blank⟩]⟩ k.objs.length = size := by
      unfold Kernel.sizeOf
      simp
    rw [hsz, if_neg (by omega)]
    simp only [Env.fine, if_true]
    unfold Kernel.fill
    simp only
    rw [modify_last]
  have hci : copyIn k { p with cur := none } n (some ⟨t, size, true⟩) Env.fine =
      .ok ⟨fun m => if m = n then some k.objs.length else k.names m, k.objs ++ [⟨p.user, p.read, p.write, size, .whole t⟩]⟩
        (q.setFd f none) true := by
    unfold copyIn
    rw [hof]
    simp only
    rw [hc]
    unfold copyRest copyFill
    simp only
    rw [hw]
    simp
  refine ⟨q.setFd f none, ?_, ?_, rfl, if_pos rfl, rfl⟩
  · unfold load
    rw [hmap]
    unfold loadMapped
    simp only [Bool.false_eq_true, if_false]
    rw [hci]
    unfold loadCopied
    simp only
    unfold readShared
    have h1 : (q.setFd f none).cur = some p.views.length := rfl
    have h2 : (q.setFd f none).views[p.views.length]? = some ⟨true, g, size, k.objs.length, true, some 1⟩ := by
      show (p.views ++ [_])[p.views.length]? = _
      simp
    rw [h1]
    simp only [h2]
    simp
  · show (((p.fds.set f (some .other)).set g (some (.shm k.objs.length))).set f none) = _
    rw [List.set_comm _ _ (Ne.symm hfg), set_back _ _ _ hf.1]

/-- Who asks for information about a file without a share reads the file; no share is made. -/
theorem info_reads_file (k : Kernel) (p : Proc) (n : Name) (x : FileIn) (e : Env) (h0 : Ready p.fds) (hk : k.names n = none) :
    ∃ p', load k p n true (some x) e = .ok k p' (if x.good then .file x.table else .error) ∧ p'.fds = p.fds ∧ p'.views = p.views := by
  obtain ⟨f, hf0, hf⟩ := ready_lowest h0
  refine ⟨(({ p with cur := none } : Proc).setFd f (some .other)).setFd f none, ?_, set_back _ _ _ (lowest_free hf), rfl⟩
  unfold load mapExisting
  rw [find_absent k _ n hk]
  unfold loadMapped
  simp only [if_true]
  unfold readPlain openFile
  simp only
  rw [hf]
  simp only
  rw [if_neg hf0]

/-- A share of somebody else which may not be read stays as it is, and the file is read. -/
theorem foreign_share_stays (k : Kernel) (p : Proc) (n : Name) (info : Bool) (x : FileIn) (e : Env) (o : Nat) (y : Obj) (h0 : Ready p.fds)
    (hk : k.names n = some o) (hy : k.objs[o]? = some y) (hu : y.owner ≠ p.user) (hr : y.read = false) :
    ∃ p', load k p n info (some x) e = .ok k p' (if x.good then .file x.table else .error) ∧ p'.fds = p.fds ∧ p'.views = p.views := by
  obtain ⟨f, hf0, hf⟩ := ready_lowest h0
  have hpl : readPlain k { p with cur := none } (some x) =
      .ok k ((({ p with cur := none } : Proc).setFd f (some .other)).setFd f none) (if x.good then .file x.table else .error) := by
    unfold readPlain openFile
    simp only
    rw [hf]
    simp only
    rw [if_neg hf0]
  have hback : ((({ p with cur := none } : Proc).setFd f (some .other)).setFd f none) = { p with cur := none } := by
    unfold Proc.setFd
    simp only
    rw [set_back _ _ _ (lowest_free hf)]
  refine ⟨(({ p with cur := none } : Proc).setFd f (some .other)).setFd f none, ?_, set_back _ _ _ (lowest_free hf), rfl⟩
  unfold load mapExisting
  rw [find_forbidden k { p with cur := none } n o y hk hy hu hr]
  unfold loadMapped
  simp only
  cases info with
  | true => exact hpl
  | false =>
    simp only [Bool.false_eq_true, if_false]
    have hci : copyIn k { p with cur := none } n (some x) e = .ok k ((({ p with cur := none } : Proc).setFd f (some .other)).setFd f none) false := by
      have hof : openFile { p with cur := none } (some x) = (({ p with cur := none } : Proc).setFd f (some .other), some f) := by
        unfold openFile
        simp only
        rw [hf]
        simp only
        rw [if_neg hf0]
      unfold copyIn
      rw [hof]
      simp only
      have hfresh : openFresh k { ({ p with cur := none } : Proc).setFd f (some .other) with cur := none } n =
          .no k { ({ p with cur := none } : Proc).setFd f (some .other) with cur := none } := by
        unfold openFresh
        rw [openNew_taken k _ n o hk]
        unfold judge openAgain
        simp only
        rw [show unlink k (({ p with cur := none } : Proc).setFd f (some .other)).user n = k from unlink_foreign k p.user n o y hk hy hu,
          openNew_taken k _ n o hk]
        rfl
      unfold begin
      rw [hfresh]
      rfl
    rw [hci]
    unfold loadCopied
    simp only
    rw [hback]
    rw [hback] at hpl
    exact hpl

/-! ### Cases -/

/-- A process of user 1 with standard input, whose objects all may read and write. -/
def p1 : Proc := ⟨1, true, true, [some .other, none, none], [], fun _ => none, none, false⟩

/-- A process of user 2 with more descriptors. -/
def p2 : Proc := { p1 with user := 2, fds := [some .other, some .other, none, none, none] }

/-- No shares. -/
def k0 : Kernel := ⟨fun _ => none, []⟩

/-- A name. -/
def n1 : Name := [71, 33, 97]

example : Ready p1.fds ∧ GoodName n1 ∧ Own k0 p1.user n1 ∧ Countable p1 n1 :=
  ⟨⟨⟨.other, rfl⟩, 1, rfl⟩, ⟨by decide, by decide⟩, Or.inl rfl, fun v h => (by cases h)⟩

example : ∃ k' p' q', save k0 p1 n1 7 600 Env.fine = .ok k' p' () ∧ load k' p2 n1 false none Env.fine = .ok k' q' (.shared (.whole 7)) :=
  saved_is_loaded k0 p1 p2 n1 7 600 false none ⟨⟨.other, rfl⟩, 1, rfl⟩ ⟨by decide, by decide⟩ (Or.inl rfl) (fun v h => (by cases h))
    (by decide) ⟨⟨.other, rfl⟩, 2, rfl⟩ (Or.inr rfl)

example : IsLowest p2.fds 2 ∧ IsLowest (p2.fds.set 2 (some .other)) 3 :=
  ⟨⟨rfl, fun g h => (by have : g = 0 ∨ g = 1 := (by omega); rcases this with rfl | rfl <;> simp [p2])⟩,
    rfl, fun g h => (by have : g = 0 ∨ g = 1 ∨ g = 2 := (by omega); rcases this with rfl | rfl | rfl <;> simp [p2])⟩

/-- One process saves a table and a second one under another name, two others read: the hypotheses of `history_partial` hold. -/
example : OnceFreed [(0, .save n1 7 600 Env.fine), (1, .load n1 false (some ⟨8, 600, true⟩) Env.fine), (0, .save [72] 9 700 Env.fine),
    (2, .load n1 false none Env.fine), (1, .load n1 false none Env.fine)] := by
  unfold OnceFreed
  simp [Call.frees, Call.makes, Call.name, n1]

example : Own ⟨fun _ => some 0, [⟨1, true, true, 600, .whole 7⟩]⟩ 1 n1 ∧ ¬ Own ⟨fun _ => some 0, [⟨1, true, true, 600, .whole 7⟩]⟩ 2 n1 := by
  refine ⟨Or.inr ⟨0, _, rfl, rfl, rfl⟩, ?_⟩
  rintro (h | ⟨o, x, h1, h2, h3⟩)
  · cases h
  · cases h1
    cases h2
    cases h3

end Riptide.Shm
