import Verif.Sds.ConcatProps
/-! # C110: every history of files keeps their sections -/
namespace Riptide.Sds

/-- The files which arise when sections are added one after the other, to no file or to one without sections, and when files which arose so
are concatenated. -/
inductive History (c : Codec) (junk : Nat → Nat) : List Nat → List Entry → Prop
  | first (s : Sec) (f : List Nat) (hs : s.Fine c [] []) (h : addSection c junk [] s = some f) : History c junk f [⟨s.name, 0, s.x⟩]
  | plain (x : Input) (order worder : List Nat) (stamp : Nat) (f : List Nat) (hx : x.Ok c) (ho : order.Perm (List.range x.arrays.length))
      (hw : worder.Perm (List.range x.arrays.length)) (hst : stamp < 2 ^ 64)
      (hroom : ∀ m, packMeta c x.zstd x.metaData = some m → x.fileEnd c 0 m.length order < 2 ^ 64)
      (h : writeFile c x order worder stamp = some f) : History c junk f [⟨[48], 0, x⟩]
  | more (f f' : List Nat) (l : List Entry) (s : Sec) (hl : History c junk f l) (hs : s.Fine c f l) (h : addSection c junk f s = some f') :
      History c junk f' (l ++ [⟨s.name, padTo f.length, s.x⟩])
  | concat (B : Nat) (hB : 0 < B) (p : List Nat × List Entry) (r : List (List Nat × List Entry)) (f : List Nat)
      (hg : ∀ q ∈ p :: r, History c junk q.1 q.2) (hE : concatEnd 0 (p :: r) + padTo ((placed 0 (p :: r)).length * 10) < 2 ^ 64)
      (h : concatFiles B junk ((p :: r).map Prod.fst) = some f) : History c junk f (placed 0 (p :: r))

theorem history_good {c : Codec} {junk : Nat → Nat} {f : List Nat} {l : List Entry} (hh : History c junk f l) :
    ∃ h : Header, Good c f l h := by
  induction hh with
  | first s f hs h => exact first_good hs h
  | plain x order worder stamp f hx ho hw hst hroom h => exact plain_good hx ho hw hst hroom h
  | more f f' l s _ hs h ih =>
    obtain ⟨h0, g⟩ := ih
    exact more_good g hs h
  | concat B hB p r f _ hE h ih =>
    obtain ⟨f', h', h1, h2⟩ := concat_good hB junk p r ih hE
    rw [h] at h1
    have h1 := Option.some.inj h1
    subst h1
    exact ⟨h', h2⟩

/-- Files which arose so can be concatenated, and the result holds all their sections, in their order. -/
theorem concat_read_partial {c : Codec} (hc : c.Lawful) {junk : Nat → Nat} {B : Nat} (hB : 0 < B) (p : List Nat × List Entry)
    (r : List (List Nat × List Entry)) (hg : ∀ q ∈ p :: r, History c junk q.1 q.2)
    (hE : concatEnd 0 (p :: r) + padTo ((placed 0 (p :: r)).length * 10) < 2 ^ 64) :
    ∃ f : List Nat, concatFiles B junk ((p :: r).map Prod.fst) = some f ∧
      readAll c f = some ((p :: r).flatMap fun q => q.2.map fun s => some s.x.out) := by
  obtain ⟨f, h, h1, g⟩ := concat_good hB junk p r (fun q hq => history_good (hg q hq)) hE
  refine ⟨f, h1, ?_⟩
  rw [(good_read hc g).2.2]
  have key : ∀ (l : List (List Nat × List Entry)) (pos : Nat), (placed pos l).map (fun s => some s.x.out) =
      l.flatMap fun q => q.2.map fun s => some s.x.out := by
    intro l
    induction l with
    | nil => intro _; rfl
    | cons q l ih =>
      intro pos
      rw [placed, List.map_append, ih, List.map_map]
      rfl
  rw [key]

/-- The names of the sections are lost: all of them are `0` in a concatenation. -/
theorem concat_names_wrong {c : Codec} {junk : Nat → Nat} {B : Nat} (hB : 0 < B) (p : List Nat × List Entry)
    (r : List (List Nat × List Entry)) (hg : ∀ q ∈ p :: r, History c junk q.1 q.2)
    (hE : concatEnd 0 (p :: r) + padTo ((placed 0 (p :: r)).length * 10) < 2 ^ 64) :
    ∃ (f : List Nat) (h : Header) (l : List (List Nat × Nat)), concatFiles B junk ((p :: r).map Prod.fst) = some f ∧
      readHeader f 0 = some h ∧ loadDir f h = some l ∧ l.length = ((p :: r).map fun q => q.2.length).sum ∧ ∀ e ∈ l, e.1 = [48] := by
  obtain ⟨f, h, h1, g⟩ := concat_good hB junk p r (fun q hq => history_good (hg q hq)) hE
  have key : ∀ (l : List (List Nat × List Entry)) (pos : Nat), (placed pos l).length = (l.map fun q => q.2.length).sum ∧
      ∀ s ∈ placed pos l, s.name = [48] := by
    intro l
    induction l with
    | nil => intro _; exact ⟨rfl, nofun⟩
    | cons q l ih =>
      intro pos
      rw [placed, List.length_append, List.length_map, (ih _).1]
      refine ⟨rfl, ?_⟩
      intro s hs
      rcases List.mem_append.mp hs with hs | hs
      · obtain ⟨t, _, rfl⟩ := List.mem_map.mp hs
        rfl
      · exact (ih _).2 s hs
  refine ⟨f, h, _, h1, g.header, good_load g, ?_, ?_⟩
  · unfold Entry.dir
    rw [List.length_map, (key _ _).1]
  · intro e he
    obtain ⟨s, hs, rfl⟩ := List.mem_map.mp he
    exact (key _ _).2 s hs

/-- After every history of sections which were added: all of them are found in their order and read as they were written, whatever the
threads did, and whatever was in the uninitialised memory behind the directory.  The names have no zero bytes; this is missing for the
property, and so is the room in the memory for the directory. -/
theorem sections_read_partial {c : Codec} (hc : c.Lawful) {junk : Nat → Nat} {f : List Nat} {l : List Entry} (hh : History c junk f l) :
    (∀ s ∈ l, readFile c f s.off = some s.x.out) ∧ (∃ h : Header, readHeader f 0 = some h ∧ loadDir f h = some (Entry.dir l)) ∧
      readAll c f = some (l.map fun s => some s.x.out) := by
  obtain ⟨h, g⟩ := history_good hh
  obtain ⟨h1, h2, h3⟩ := good_read hc g
  exact ⟨h1, ⟨h, g.header, h2⟩, h3⟩

/-- A section which can be added is, unless the compression of its metadata fails. -/
theorem section_added {c : Codec} {junk : Nat → Nat} {f : List Nat} {l : List Entry} (hh : History c junk f l) {s : Sec} (hs : s.Fine c f l) :
    (∃ f' : List Nat, addSection c junk f s = some f') ↔ (packMeta c s.x.zstd s.x.metaData).isSome = true := by
  obtain ⟨h, g⟩ := history_good hh
  have h512 := readHeader_room g.header
  have hne : f ≠ [] := by intro h0; rw [h0] at h512; simp at h512
  cases hm : packMeta c s.x.zstd s.x.metaData with
  | none =>
    unfold addSection
    rw [hm]
    simp
  | some m =>
    refine ⟨fun _ => rfl, fun _ => ?_⟩
    have hroom := hs.room m hm
    have hflo := le_padTo f.length
    have hA : ∀ w ∈ startWrites (padTo f.length) s.x m ++ arrayWrites c (padTo f.length) s.x m.length s.order s.worder,
        padTo f.length ≤ w.1 := by
      intro w hw
      refine (writes_inside c (padTo f.length) s.x m (fillHeader (padTo f.length) s.x m.length) hs.order
        (fun i hi => List.mem_range.mp (hs.worder.mem_iff.mp hi)) rfl w ?_).1
      unfold fileWrites
      rw [List.append_nil]
      exact List.mem_append.mpr (.inl hw)
    have hr1 : readHeader (writes f (startWrites (padTo f.length) s.x m ++ arrayWrites c (padTo f.length) s.x m.length s.order s.worder)) 0 =
        some h := readHeader_kept g.header _ fun w hw => .inl (by have := hA w hw; omega)
    have hld : loadDir (writes f (startWrites (padTo f.length) s.x m ++ arrayWrites c (padTo f.length) s.x m.length s.order s.worder)) h =
        some (Entry.dir l) := by
      have h1 := good_load g
      unfold loadDir at h1 ⊢
      rcases g.dir with ⟨d1, _⟩ | ⟨d1, d2, d3, d4, d5, d6, d7⟩
      · rw [if_pos d1] at h1 ⊢; exact h1
      · rw [if_neg d1] at h1 ⊢
        cases hq : readAt f h.sectOffset h.sectSize with
        | none => rw [hq] at h1; nomatch h1
        | some q =>
          rw [readAt_kept hq _ fun w hw => .inl (by have := hA w hw; omega)]
          rw [hq] at h1
          exact h1
    unfold addSection
    rw [hm]
    dsimp only
    rw [if_neg hne, g.header]
    dsimp only
    rw [hr1]
    dsimp only
    rw [hld]
    exact ⟨_, rfl⟩

/-! ### Examples -/

def secA : Sec := ⟨[97], two, [1, 0], [0, 1], 5⟩
def secB : Sec := ⟨[98, 99], two, [0, 1], [0, 1], 6⟩

theorem pack_two : packMeta toy two.zstd two.metaData = some [4, 7] := by decide

theorem secA_fine : secA.Fine toy [] [] where
  name := by decide
  ok := two_ok
  order := by decide
  worder := by decide
  stamp := by decide
  count := by decide
  room := by
    intro m hm
    have h : secA.x = two := rfl
    rw [h, pack_two] at hm
    injection hm with hm
    subst hm
    decide

theorem secB_fine {f : List Nat} {e : Entry} (hf : f.length = 3584) (he : e.name = [97]) : secB.Fine toy f [e] where
  name := by decide
  ok := two_ok
  order := by decide
  worder := by decide
  stamp := by decide
  count := by show 2 < 2 ^ 64; decide
  room := by
    intro m hm
    have h : secB.x = two := rfl
    rw [h, pack_two] at hm
    injection hm with hm
    subst hm
    rw [hf, dirBytes_length]
    show secB.x.fileEnd toy (padTo 3584) 2 secB.order + padTo ((e.name.length + 9) + ((2 + 9) + 0)) < 2 ^ 64
    rw [he]
    decide

theorem secA_added (junk : Nat → Nat) : addSection toy junk [] secA = some (writes [] (firstWrites toy junk secA [4, 7])) := by
  unfold addSection
  rw [show packMeta toy secA.x.zstd secA.x.metaData = some [4, 7] from pack_two]
  rfl

/-- A history of two sections. -/
example : ∃ g : List Nat, History toy (fun _ => 77) g [⟨[97], 0, two⟩, ⟨[98, 99], 3584, two⟩] := by
  have h1 := History.first secA _ secA_fine (secA_added fun _ => 77)
  have h2 : (writes [] (firstWrites toy (fun _ => 77) secA [4, 7])).length = 3584 := by decide +kernel
  have h3 : secB.Fine toy (writes [] (firstWrites toy (fun _ => 77) secA [4, 7])) [⟨secA.name, 0, secA.x⟩] := secB_fine h2 rfl
  obtain ⟨g, hg⟩ := (section_added h1 h3).mpr (by rw [show packMeta toy secB.x.zstd secB.x.metaData = some [4, 7] from pack_two]; rfl)
  have h4 := History.more _ _ _ _ h1 h3 hg
  rw [h2] at h4
  exact ⟨g, h4⟩

/-- The two sections are in a file which is concatenated with itself. -/
example {g : List Nat} (hg : History toy (fun _ => 77) g [⟨[97], 0, two⟩, ⟨[98, 99], 3584, two⟩]) (hl : g.length < 2 ^ 60) :
    ∃ f : List Nat, concatFiles (2 ^ 20) (fun _ => 77) [g, g] = some f ∧
      readAll toy f = some [some two.out, some two.out, some two.out, some two.out] := by
  refine concat_read_partial toy_lawful (by decide) (g, [⟨[97], 0, two⟩, ⟨[98, 99], 3584, two⟩]) [(g, [⟨[97], 0, two⟩, ⟨[98, 99], 3584, two⟩])] ?_ ?_
  · intro q hq
    simp only [List.mem_cons, List.not_mem_nil, or_false, or_self] at hq
    subst hq
    exact hg
  · show padTo (padTo (0 + g.length) + g.length) + padTo 40 < 2 ^ 64
    unfold padTo
    omega

end Riptide.Sds
