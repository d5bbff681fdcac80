import Verif.Shm.CallProps
/-! # Where the calls which make, find and let go of shares go wrong -/
namespace Riptide.Shm

/-- A process which saves a table under a name for the second time counts in a structure which it has given back. -/
theorem saved_twice (k : Kernel) (p : Proc) (n : Name) (t t' size size' : Nat) (hr : Ready p.fds) (hn : GoodName n) (ho : Own k p.user n)
    (hno : p.shares n = none) (hs : size ≠ 0) (hs' : size' ≠ 0) :
    ∃ k' p', save k p n t size Env.fine = .ok k' p' () ∧ save k' p' n t' size' Env.fine = .ub := by
  obtain ⟨p', h1, h2, _, _, h5, _, h7, h8, x, hx, hd⟩ :=
    save_shares k p n t size hr hn ho (fun v hv => by rw [hno] at hv; cases hv) hs
  have hsh := h7 hno
  refine ⟨_, p', h1, (save_undefined _ p' n t' size' Env.fine (by rw [h2]; exact hr) hn
    (Or.inr ⟨k.objs.length, _, if_pos rfl, by simp; rfl, h5.symm⟩) (fun v hv => ?_) hs' rfl).2 (Or.inr fun hc => ?_)⟩
  · rw [hsh] at hv
    cases hv
    omega
  · obtain ⟨y, hy, hl⟩ := hc _ hsh
    rw [hx] at hy
    cases hy
    rw [hd] at hl
    cases hl

/-- Without a free descriptor a save removes the share which was there and makes none; Python gets `None` as if it had worked. -/
theorem full_table_loses_share (k : Kernel) (p : Proc) (n : Name) (t size : Nat) (e : Env) (o : Nat) (x : Obj)
    (hf : ∀ f : Nat, p.fds[f]? ≠ some none) (hk : k.names n = some o) (hx : k.objs[o]? = some x) (hu : x.owner = p.user) :
    save k p n t size e = .ok ⟨fun m => if m = n then none else k.names m, k.objs⟩ { p with cur := none } () := by
  have hl := lowest_none p.fds hf
  unfold save begin openFresh
  rw [openNew_full k { p with cur := none } n hl]
  unfold judge openAgain
  simp only
  rw [unlink_own k p.user n o x hk hx hu, openNew_full _ { p with cur := none } n hl]
  rfl

/-- Without standard input a save of a name which is there leaves an empty object under it, and descriptor 0 is used up. -/
theorem no_stdin_loses_share (k : Kernel) (p : Proc) (n : Name) (t size : Nat) (e : Env) (o : Nat) (x : Obj)
    (hf : p.fds[0]? = some none) (hn : GoodName n) (hk : k.names n = some o) (hx : k.objs[o]? = some x) (hu : x.owner = p.user) :
    ∃ k' p', save k p n t size e = .ok k' p' () ∧ k'.names n = some k.objs.length ∧
      k'.objs = k.objs ++ [⟨p.user, p.read, p.write, 0, .blank⟩] ∧ p'.fds = p.fds.set 0 (some (.shm k.objs.length)) ∧ p'.views = p.views := by
  have hl : lowest p.fds = some 0 := (lowest_iff _ _).2 ⟨hf, fun g h => by omega⟩
  unfold save begin openFresh
  rw [openNew_taken k { p with cur := none } n o hk]
  unfold judge openAgain
  simp only
  rw [unlink_own k p.user n o x hk hx hu]
  have hnew : openNew ⟨fun m => if m = n then none else k.names m, k.objs⟩ { p with cur := none } n =
      some (Kernel.setName ⟨fun m => if m = n then none else k.names m, k.objs ++ [⟨p.user, p.read, p.write, 0, .blank⟩]⟩ n
        (some k.objs.length), ({ p with cur := none } : Proc).setFd 0 (some (.shm k.objs.length)), 0) := by
    unfold openNew
    rw [show lowest ({ p with cur := none } : Proc).fds = some 0 from hl]
    simp only [if_true]
    rw [if_pos ((shmName_iff n).2 hn)]
  rw [hnew]
  exact ⟨_, _, rfl, if_pos rfl, rfl, rfl, rfl⟩

/-- A share of user 1. -/
def kShare : Kernel := ⟨fun m => if m = n1 then some 0 else none, [⟨1, true, true, 600, .whole 7⟩]⟩

/-- Without standard input a reader uses up two descriptors for a share and may not write it, though it is its own. -/
theorem no_stdin_read_only :
    ∃ k' p', load kShare { p1 with fds := [none, none] } n1 false none Env.fine = .ok k' p' (.shared (.whole 7)) ∧
      p'.fds = [some (.shm 0), some (.shm 0)] ∧ p'.views = [⟨true, 1, 600, 0, false, none⟩] ∧ Writable p1.user ⟨1, true, true, 600, .whole 7⟩ :=
  ⟨_, _, rfl, rfl, rfl, Or.inl rfl⟩

/-- Without standard input a file is not read either when there is no share: descriptor 0 is used up and the answer is an error; the next
time it works. -/
theorem no_stdin_reads_nothing :
    ∃ k' p' k'' p'', load k0 { p1 with fds := [none, none, none] } n1 true (some ⟨7, 600, true⟩) Env.fine = .ok k' p' .error ∧
      p'.fds = [some .other, none, none] ∧ load k' p' n1 true (some ⟨7, 600, true⟩) Env.fine = .ok k'' p'' (.file 7) :=
  ⟨_, _, _, _, rfl, rfl, rfl⟩

/-- That `ftruncate` fails is not noticed: the table is written behind the end of an object without size, the name stays with it, and
Python gets `None`. -/
theorem truncate_unnoticed :
    ∃ k' p', save kShare p1 n1 8 700 ⟨false, true, true, true⟩ = .ok k' p' () ∧ k'.names n1 = some 1 ∧
      k'.objs = [⟨1, true, true, 600, .whole 7⟩, ⟨1, true, true, 0, .blank⟩] ∧ p'.blocked = true :=
  ⟨_, _, rfl, rfl, rfl, rfl⟩

/-- Without room for the pages a part of the table is left under the name, Python gets `None`, and others read what is there. -/
theorem torn_share_is_read :
    ∃ k' p' q', save kShare p1 n1 8 700 ⟨true, true, true, false⟩ = .ok k' p' () ∧
      load k' p2 n1 false (some ⟨8, 700, true⟩) Env.fine = .ok k' q' (.shared (.torn 8)) :=
  ⟨_, _, _, rfl, rfl⟩

/-- After the first `SIGBUS` the signal stays blocked: the second one kills the process. -/
theorem second_bus_kills :
    ∃ k' p' k'', save k0 p1 n1 8 700 ⟨true, true, true, false⟩ = .ok k' p' () ∧
      save k' p' [72] 9 700 ⟨true, true, true, false⟩ = .killed k'' :=
  ⟨_, _, _, rfl, rfl⟩

/-- Without room for the pages a copy of a file kills the process, and the part of it stays under the name for the others. -/
theorem copy_bus_kills :
    ∃ k' q', load k0 p1 n1 false (some ⟨8, 700, true⟩) ⟨true, true, true, false⟩ = .killed k' ∧
      load k' p2 n1 false (some ⟨8, 700, true⟩) Env.fine = .ok k' q' (.shared (.torn 8)) :=
  ⟨_, _, rfl, rfl⟩

/-- A file whose metadata cannot be read leaves a part of a table under the name, and after that others get this without an error. -/
theorem bad_file_leaves_share :
    ∃ k' p' q', load k0 p1 n1 false (some ⟨8, 700, false⟩) Env.fine = .ok k' p' .error ∧ p'.fds = p1.fds ∧
      load k' p2 n1 false (some ⟨8, 700, false⟩) Env.fine = .ok k' q' (.shared (.torn 8)) :=
  ⟨_, _, _, rfl, rfl, rfl⟩

/-- A process which reads such a file for the second time after its share was removed by somebody else counts in a structure which was given
back. -/
theorem bad_file_twice :
    ∃ k' p', load k0 p1 n1 false (some ⟨8, 700, false⟩) Env.fine = .ok k' p' .error ∧
      load (k'.setName n1 none) p' n1 false (some ⟨8, 700, true⟩) Env.fine = .ub :=
  ⟨_, _, rfl, rfl⟩

/-- When `mmap` fails the descriptor is not closed, and the share which was there is replaced by zeros. -/
theorem map_failure_leaks :
    ∃ k' p' q', save kShare p1 n1 8 700 ⟨true, false, true, true⟩ = .ok k' p' () ∧ p'.fds = [some .other, some (.shm 1), none] ∧
      p'.views = [] ∧ load k' p2 n1 false none Env.fine = .ok k' q' (.shared .blank) :=
  ⟨_, _, _, rfl, rfl, rfl, rfl⟩

/-- Who reads a share between its making and the writing of the table gets an empty table. -/
theorem reader_sees_unfinished :
    ∃ k' p' q', counted n1 (begin kShare p1 n1 700 Env.fine) = .ok k' p' true ∧
      load k' p2 n1 false none Env.fine = .ok k' q' (.shared .blank) :=
  ⟨_, _, _, rfl, rfl⟩

/-- Who reads a share between `shm_open` and `ftruncate` of another process of the same user removes its name and puts the file there: the
table which is saved after that is in an object which nobody finds. -/
theorem reader_unlinks_unfinished :
    ∃ k1 q1 f k2 q2 k3 q3 p3, openFresh kShare p1 n1 = .yes k1 q1 f ∧
      load k1 { p2 with user := 1 } n1 false (some ⟨9, 800, true⟩) Env.fine = .ok k2 q2 (.shared (.whole 9)) ∧
      saveRest 8 Env.fine (counted n1 (beginRest k2 q1 f 1 700 Env.fine)) = .ok k3 q3 () ∧
      k3.objs[1]? = some ⟨1, true, true, 700, .whole 8⟩ ∧ k3.names n1 = some 2 ∧
      load k3 p1 n1 false none Env.fine = .ok k3 p3 (.shared (.whole 9)) :=
  ⟨_, _, _, _, _, _, _, _, rfl, rfl, rfl, rfl, rfl, rfl⟩

/-- In a history the second save is undefined whatever happens between; another process may save instead. -/
theorem twice_in_history :
    World.run ⟨k0, fun q => if q = 0 then some p1 else some p2⟩
        [(0, .save n1 7 600 Env.fine), (1, .load n1 false none Env.fine), (0, .save n1 8 600 Env.fine)] = none ∧
      ∃ w, World.run ⟨k0, fun q => if q = 0 then some p1 else some p1⟩
        [(0, .save n1 7 600 Env.fine), (2, .load n1 false none Env.fine), (1, .save n1 8 600 Env.fine)] = some w ∧
        w.k.names n1 = some 1 ∧ w.k.objs = [⟨1, true, true, 600, .whole 7⟩, ⟨1, true, true, 600, .whole 8⟩] :=
  ⟨rfl, _, rfl, rfl, rfl⟩

/-- A process which was killed makes no more calls, the others go on, and what it left stays. -/
theorem killed_in_history :
    ∃ w, World.run ⟨k0, fun q => if q = 0 then some p1 else some p2⟩
        [(0, .load n1 false (some ⟨8, 700, true⟩) ⟨true, true, true, false⟩), (0, .save n1 7 600 Env.fine),
          (1, .load n1 false none Env.fine)] = some w ∧
      w.procs 0 = none ∧ w.k.names n1 = some 0 ∧ w.k.objs = [⟨1, true, true, 700, .torn 8⟩] ∧
      (w.procs 1).map Proc.cur = some (some 0) :=
  ⟨_, rfl, rfl, rfl, rfl, rfl⟩

/-- A share is counted when it is made and not when it is found: the counter of a share which two processes read is 1, and it is 2 when
the process saves under the name, though only the first of both structures is there. -/
theorem counters_are_no_counters :
    ∃ k1 q1 k2 q2 k3 q3, load k0 p2 n1 false (some ⟨9, 800, true⟩) Env.fine = .ok k1 q1 (.shared (.whole 9)) ∧
      load k1 q1 n1 false none Env.fine = .ok k2 q2 (.shared (.whole 9)) ∧
      q2.views.map View.count = [some 1, none] ∧
      save k2 { q2 with fds := q2.fds ++ [none] } n1 8 700 Env.fine = .ok k3 q3 () ∧
      q3.views.map View.count = [some 2, none, none] ∧ q3.views.map View.live = [true, true, false] :=
  ⟨_, _, _, _, _, _, rfl, rfl, rfl, rfl, rfl, rfl⟩

/-- A name of more than 255 bytes or with a `/` makes no share: a save does nothing and tells nobody. -/
theorem bad_name_makes_none (k : Kernel) (p : Proc) (n : Name) (t size : Nat) (e : Env) (hn : ¬ GoodName n) (hk : k.names n = none) :
    save k p n t size e = .ok k { p with cur := none } () := by
  have hnew : openNew k { p with cur := none } n = none := by
    unfold openNew
    split
    · rw [if_neg fun h => hn ((shmName_iff n).1 h)]
    · rfl
  have hun : unlink k p.user n = k := by
    unfold unlink
    rw [hk]
  unfold save begin openFresh
  rw [hnew]
  unfold judge openAgain
  simp only
  rw [hun, hnew]
  rfl

/-- The file is read then. -/
example : ∃ q, load k0 p1 [71, 47, 97] false (some ⟨8, 700, true⟩) Env.fine = .ok k0 q (.file 8) := ⟨_, rfl⟩

example : ¬ GoodName [71, 47, 97] := fun h => h.2 (by decide)

/-- The hypotheses of `saved_twice`, `full_table_loses_share` and `no_stdin_loses_share` are met. -/
example : Ready p1.fds ∧ Own kShare p1.user n1 ∧ p1.shares n1 = none ∧ (∀ f : Nat, [some Fd.other][f]? ≠ some none) ∧
    kShare.names n1 = some 0 ∧ kShare.objs[0]? = some ⟨1, true, true, 600, .whole 7⟩ :=
  ⟨⟨⟨.other, rfl⟩, 1, rfl⟩, Or.inr ⟨0, _, rfl, rfl, rfl⟩, rfl, fun f => (by cases f <;> simp), rfl, rfl⟩

end Riptide.Shm
