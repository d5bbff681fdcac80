import Verif.Sds.ManyLemmas
/-! # What reading, stacking and joining many files answers -/
namespace Riptide.Sds.Many
open Spec
open Riptide.Sds.Include (Name PyItem Arg cString)
open Riptide.Sds.Save (asks)

variable {α : Type}

theorem named {files : List PyItem} {ns : List Name} (h : Named files ns) :
    (Arg.list files).names = ns ∧ (Arg.list files).leavesError = false := by
  obtain ⟨k, hk, hp, rfl⟩ := h
  exact Include.names_plain ns k hk hp

/-- A call which does not join, for a list with files. -/
theorem many_eq (w : World α) (e : Option Text) (x : Args) (order ns : List Name) (hn : Named x.files ns) (hne : ns ≠ []) (hk : x.kind ≠ .join)
    (r : Left α) (hr : manyFiles w x.kind (decide (x.mode ≠ 3)) x.must none (ns.headD []) ns order = some r) :
    many w e x order = ⟨finish ns.length x.stale r, r.error, r.wrote⟩ := by
  obtain ⟨h1, h2⟩ := named hn
  cases ns with
  | nil => exact absurd rfl hne
  | cons f l =>
    simp only [List.headD_cons] at hr
    unfold many
    rw [if_neg hk]
    simp only [h1, h2, hk, decide_false, Bool.false_and, Bool.or_false, hr, List.length_cons]

/-- The valid parts of files which can be read whole. -/
theorem whole_flat (w : World α) (c : Name → List α) : ∀ ns : List Name, (∀ f ∈ ns, Whole (w.disk f) (c f)) →
    (ns.flatMap (partsOf w)).map (fun p => p.2.valid) = (ns.flatMap c).map some ∧ (∀ p ∈ ns.flatMap (partsOf w), p.2.said = none ∧ p.2.valid ≠ none)
  | [], _ => by simp
  | f :: l, h => by
    obtain ⟨h1, h2⟩ := whole_flat w c l (fun g hg => h g (by simp [hg]))
    obtain ⟨h3, _⟩ := whole_parts w f (c f) (h f (by simp))
    rw [List.flatMap_cons, List.flatMap_cons, List.map_append, List.map_append, h1, h3]
    refine ⟨by simp [Part.valid, Function.comp_def], ?_⟩
    intro p hp
    rcases List.mem_append.1 hp with hp | hp
    · obtain ⟨y, _, rfl⟩ := List.mem_map.1 hp
      exact ⟨rfl, by simp [Part.valid]⟩
    · exact h2 p hp

theorem readMany_none {ps : List (Name × Part α)} (h : lastMissing ps = none) (info must : Bool) (e : Option Text) :
    readMany info must ps e = ⟨some (.list info (ps.map fun p => p.2.valid)), e, none⟩ := by
  unfold readMany
  rw [h]
  cases must <;> rfl

/-! ### Reading -/

/-- **C154.** Files which can all be read are answered in the order of the list, an entry for each and for each section of those which have several; whatever order
the threads open them in, whatever calls went before, and whether or not they must exist. -/
theorem read_all (w : World α) (e : Option Text) (x : Args) (order ns : List Name) (c : Name → List α) (hk : x.kind = .read) (hs : x.stale = false)
    (hn : Named x.files ns) (hne : ns ≠ []) (ho : order.Perm ns) (hw : ∀ f ∈ ns, Whole (w.disk f) (c f)) :
    many w e x order = ⟨.answer (.list (decide (x.mode ≠ 3)) ((ns.flatMap c).map some)), none, none⟩ := by
  obtain ⟨h1, h2⟩ := whole_flat w c ns hw
  have hq : (scan w ns (openAll w order)).2 = none :=
    (scan_quiet w ns order ho).2 ⟨fun f hf => (whole_parts w f (c f) (hw f hf)).2, fun p hp => (h2 p hp).1⟩
  have hm : lastMissing (ns.flatMap (partsOf w)) = none := (lastMissing_none _).2 fun p hp => (h2 p hp).2
  rw [many_eq w e x order ns hn hne (by simp [hk]) (readMany (decide (x.mode ≠ 3)) x.must (scan w ns (openAll w order)).1 (scan w ns (openAll w order)).2)
    (by simp only [manyFiles, hk])]
  rw [scan_parts, hq]
  simp only [readMany_none hm, h1, finish, hs, Bool.false_eq_true, if_false]

/-- **C154.** `MultiDecompressFiles` gives an answer exactly when all files can be read, with their metadata. -/
theorem read_iff (w : World α) (e : Option Text) (x : Args) (order ns : List Name) (hk : x.kind = .read) (hs : x.stale = false)
    (hn : Named x.files ns) (hne : ns ≠ []) (ho : order.Perm ns) :
    (∃ a, (many w e x order).out = .answer a) ↔ ∀ f ∈ ns, ∃ l, Whole (w.disk f) l := by
  constructor
  · rintro ⟨a, ha⟩
    rw [many_eq w e x order ns hn hne (by simp [hk]) (readMany (decide (x.mode ≠ 3)) x.must (scan w ns (openAll w order)).1 (scan w ns (openAll w order)).2)
      (by simp only [manyFiles, hk])] at ha
    have hq : (scan w ns (openAll w order)).2 = none := by
      cases hq : (scan w ns (openAll w order)).2 with
      | none => rfl
      | some m =>
        rw [hq] at ha
        unfold readMany at ha
        split at ha <;> simp only [finish] at ha <;> split at ha <;> first | cases ha | (split at ha <;> cases ha)
    obtain ⟨h1, h2⟩ := (scan_quiet w ns order ho).1 hq
    intro f hf
    exact whole_of_quiet w f (h1 f hf) fun p hp => h2 p (List.mem_flatMap.2 ⟨f, hf, hp⟩)
  · intro h
    have hc : ∃ c : Name → List α, ∀ f ∈ ns, Whole (w.disk f) (c f) := by
      refine ⟨fun f => open Classical in if h : ∃ l, Whole (w.disk f) l then h.choose else [], fun f hf => ?_⟩
      simp only [dif_pos (h f hf)]
      exact (h f hf).choose_spec
    obtain ⟨c, hc⟩ := hc
    exact ⟨_, by rw [read_all w e x order ns c hk hs hn hne ho hc]⟩

/-- **C154 fails.** A list of two or more files of which one is missing or damaged, in `MultiDecompressFiles`: the entries are made and returned while an
exception is set, and Python makes a `SystemError` of them; although the files need not exist. -/
theorem missing_file_spoils (w : World α) (e : Option Text) (x : Args) (order ns : List Name) (hk : x.kind = .read) (hm : x.must = false)
    (hn : Named x.files ns) (hl : 2 ≤ ns.length) (ho : order.Perm ns) (hh : ∀ f ∈ ns, Harmless f (w.disk f))
    (hf : ∃ f ∈ ns, ¬ ∃ l, Whole (w.disk f) l) : (many w e x order).out = .system := by
  have hne : ns ≠ [] := by intro h; simp [h] at hl
  rw [many_eq w e x order ns hn hne (by simp [hk]) (readMany (decide (x.mode ≠ 3)) x.must (scan w ns (openAll w order)).1 (scan w ns (openAll w order)).2)
    (by simp only [manyFiles, hk])]
  cases hq : (scan w ns (openAll w order)).2 with
  | none =>
    obtain ⟨h1, h2⟩ := (scan_quiet w ns order ho).1 hq
    obtain ⟨f, hf, hnot⟩ := hf
    exact absurd (whole_of_quiet w f (h1 f hf) fun p hp => h2 p (List.mem_flatMap.2 ⟨f, hf, hp⟩)) hnot
  | some m =>
    have ha := scan_harmless w ns order ho hh m hq
    have : ns.length ≠ 1 := by omega
    simp [readMany, hm, finish, ha, this]

/-- **C154.** One file which cannot be read whole: an exception. -/
theorem one_missing_raises (w : World α) (e : Option Text) (x : Args) (f : Name) (hk : x.kind = .read) (hn : Named x.files [f])
    (hh : Harmless f (w.disk f)) (hf : ¬ ∃ l, Whole (w.disk f) l) : ∃ m, (many w e x [f]).out = .error m := by
  rw [many_eq w e x [f] [f] hn (by simp) (by simp [hk]) (readMany (decide (x.mode ≠ 3)) x.must (scan w [f] (openAll w [f])).1 (scan w [f] (openAll w [f])).2)
    (by simp only [manyFiles, hk])]
  cases hq : (scan w [f] (openAll w [f])).2 with
  | none =>
    obtain ⟨h1, h2⟩ := (scan_quiet w [f] [f] (.refl _)).1 hq
    exact absurd (whole_of_quiet w f (h1 f (by simp)) fun p hp => h2 p (List.mem_flatMap.2 ⟨f, by simp, hp⟩)) hf
  | some m =>
    have ha := scan_harmless w [f] [f] (.refl _) (by simpa using hh) m hq
    unfold readMany
    split
    · next g _ hg =>
      have hg' : g = f := by
        have := lastMissing_mem _ _ hg
        rw [scan_parts] at this
        obtain ⟨p, hp, rfl⟩ := List.mem_map.1 this
        obtain ⟨f', hf', hp⟩ := List.mem_flatMap.1 hp
        rw [List.mem_singleton.1 hf'] at hp
        exact partsOf_name w f p hp
      subst hg'
      have := asks_none _ (mustText_none (scan w [g] (openAll w [g])).1.length (harmless_said w g hh).1)
      exact ⟨mustText (scan w [g] (openAll w [g])).1.length g, by simp [finish, this]⟩
    · exact ⟨m, by simp [finish, ha]⟩

/-! ### Stacking -/

/-- **C154.** `MultiStackFiles` makes one table of all that can be read, in the order of the list; what cannot be read is passed over, also damaged metadata; for
all orders of the threads and whatever calls went before. Proved when something can be read, it fits, and all files can be read when they must exist. -/
theorem stack_partial (w : World α) (e : Option Text) (x : Args) (order ns : List Name) (c : Name → List α) (hk : x.kind = .stack) (hs : x.stale = false)
    (hn : Named x.files ns) (hc : ∀ f ∈ ns, Holds (w.disk f) (c f)) (hne : ns.flatMap c ≠ []) (hfit : w.fits (ns.flatMap c) = true)
    (hm : x.must = true → ∀ f ∈ ns, ¬ Fails (w.disk f)) :
    many w e x order = ⟨.answer (.table (ns.flatMap c)), none, none⟩ := by
  have h0 : ns ≠ [] := by rintro rfl; simp at hne
  have hv := valids_flat w c ns hc
  have key : stackMany w x.must (ns.headD []) (scan w ns (openAll w order)).1 = ⟨some (.table (ns.flatMap c)), none, none⟩ := by
    rw [scan_parts]
    unfold stackMany
    split
    · next g hx hg =>
      have : lastMissing (ns.flatMap (partsOf w)) = none := by
        refine (lastMissing_none _).2 fun p hp hv => ?_
        obtain ⟨f, hf, hp⟩ := List.mem_flatMap.1 hp
        exact hm hx f hf ((fails_parts w f).2 ⟨p, hp, hv⟩)
      rw [this] at hg
      cases hg
    · rw [hv, if_neg hne, if_pos hfit]
  rw [many_eq w e x order ns hn h0 (by simp [hk]) _ (by simp only [manyFiles, hk, key]; rfl)]
  simp [finish, hs]

/-- **C154.** When nothing can be read, or what can does not fit, stacking raises an exception which names the first file. -/
theorem stack_raises (w : World α) (e : Option Text) (x : Args) (order ns : List Name) (c : Name → List α) (hk : x.kind = .stack)
    (hn : Named x.files ns) (h0 : ns ≠ []) (hc : ∀ f ∈ ns, Holds (w.disk f) (c f)) (hp : 37 ∉ ns.headD []) (hm : x.must = false)
    (hbad : ns.flatMap c = [] ∨ w.fits (ns.flatMap c) = false) :
    (many w e x order).out = .error (if ns.flatMap c = [] then noneText (ns.headD []) else fitText (ns.headD [])) := by
  have hv := valids_flat w c ns hc
  have key : stackMany w x.must (ns.headD []) (scan w ns (openAll w order)).1 =
      ⟨none, some (if ns.flatMap c = [] then noneText (ns.headD []) else fitText (ns.headD [])), none⟩ := by
    rw [scan_parts]
    unfold stackMany
    split
    · next g hx hg => rw [hm] at hx; cases hx
    · rw [hv]
      by_cases h : ns.flatMap c = []
      · rw [if_pos h, if_pos h]
      · rw [if_neg h, if_neg h, if_neg (by rcases hbad with h' | h'; exact absurd h' h; simp [h'])]
  rw [many_eq w e x order ns hn h0 (by simp [hk]) _ (by simp only [manyFiles, hk, key]; rfl)]
  have ha : asks (if ns.flatMap c = [] then noneText (ns.headD []) else fitText (ns.headD [])) = false := by
    split
    · exact asks_none _ (noneText_none hp)
    · exact asks_none _ (fitText_none hp)
  simp only [finish, ha, Bool.false_eq_true, if_false]

/-- **C154.** When the files must exist and one fails, reading and stacking raise an exception which tells the last of those which fail and how many files, with
their sections, were looked for. -/
theorem must_exist_raises (w : World α) (e : Option Text) (x : Args) (order a b : List Name) (f : Name) (hk : x.kind = .read ∨ x.kind = .stack)
    (hn : Named x.files (a ++ f :: b)) (hm : x.must = true) (hf : Fails (w.disk f)) (hb : ∀ g ∈ b, ¬ Fails (w.disk g)) (hp : 37 ∉ f) :
    ∃ n, (many w e x order).out = .error (mustText n f) ∧ (a ++ f :: b).length ≤ n := by
  have hl : lastMissing ((a ++ f :: b).flatMap (partsOf w)) = some f := by
    obtain ⟨p, hp, hv⟩ := (fails_parts w f).1 hf
    have hnb : ∀ q ∈ b.flatMap (partsOf w), q.2.valid ≠ none := by
      intro q hq hv
      obtain ⟨g, hg, hq⟩ := List.mem_flatMap.1 hq
      exact hb g hg ((fails_parts w g).2 ⟨q, hq, hv⟩)
    cases hc : lastMissing ((a ++ f :: b).flatMap (partsOf w)) with
    | none =>
      exact absurd hv ((lastMissing_none _).1 hc p (List.mem_flatMap.2 ⟨f, by simp, hp⟩))
    | some g =>
      rw [List.flatMap_append, List.flatMap_cons, ← List.append_assoc] at hc
      have key : ∀ (u v : List (Name × Part α)), (∀ q ∈ v, q.2.valid ≠ none) → lastMissing (u ++ v) = lastMissing u := by
        intro u v hv
        induction u with
        | nil => simp [lastMissing, (lastMissing_none v).2 hv]
        | cons q u ih =>
          rw [List.cons_append]
          unfold lastMissing
          rw [ih]
      rw [key _ _ hnb] at hc
      have key2 : ∀ (u v : List (Name × Part α)) (g k : Name), lastMissing v = some k → lastMissing (u ++ v) = some g → g = k := by
        intro u v g k hv
        induction u with
        | nil => intro h; rw [List.nil_append, hv] at h; exact (Option.some.inj h).symm
        | cons q u ih =>
          intro h
          rw [List.cons_append] at h
          unfold lastMissing at h
          cases hq : lastMissing (u ++ v) with
          | none =>
            exfalso
            have h2 := (lastMissing_none (u ++ v)).1 hq
            have h3 := (lastMissing_none v).2 fun q hq => h2 q (List.mem_append_right _ hq)
            rw [hv] at h3; cases h3
          | some k' =>
            rw [hq] at h
            simp only [Option.some.injEq] at h
            subst h
            exact ih hq
      cases hv2 : lastMissing (partsOf w f) with
      | none => exact absurd hv ((lastMissing_none _).1 hv2 p hp)
      | some k =>
        have := key2 _ _ g k hv2 hc
        have hk' := lastMissing_mem _ _ hv2
        obtain ⟨q, hq, hqk⟩ := List.mem_map.1 hk'
        rw [this, ← hqk, partsOf_name w f q hq]
  have ha : ∀ n, asks (mustText n f) = false := fun n => asks_none _ (mustText_none n hp)
  have hlen := flat_length w (a ++ f :: b)
  refine ⟨((a ++ f :: b).flatMap (partsOf w)).length, ?_, hlen⟩
  rcases hk with hk | hk
  · rw [many_eq w e x order _ hn (by simp) (by simp [hk]) ⟨none, some (mustText ((a ++ f :: b).flatMap (partsOf w)).length f), none⟩
      (by simp only [manyFiles, hk, scan_parts, readMany, hm, hl])]
    simp [finish, ha]
  · rw [many_eq w e x order _ hn (by simp) (by simp [hk]) ⟨none, some (mustText ((a ++ f :: b).flatMap (partsOf w)).length f), none⟩
      (by simp only [manyFiles, hk, scan_parts, stackMany, hm, hl])]
    simp [finish, ha]

/-! ### Joining -/

/-- A call which joins. -/
theorem join_eq (w : World α) (e : Option Text) (x : Args) (order ns : List Name) (o : List Nat) (hk : x.kind = .join) (hn : Named x.files ns) (hne : ns ≠ [])
    (hout : x.output = some (.str o)) (hp : Include.Spec.plain o) (r : Left α)
    (hr : joinMany w x.must (some o) (ns.map fun f => (f, opened w f)) (openAll w order) = some r) :
    many w e x order = ⟨finish ns.length x.stale r, r.error, r.wrote⟩ := by
  obtain ⟨h1, h2⟩ := named hn
  have ho : outName (some (.str o)) = some (some o) := by
    have := (Include.names_plain [o] .str (fun _ => .inr rfl) (by simpa using hp)).1
    have hall : o.all (· < 128) = true := by
      rw [List.all_eq_true]
      intro y hy
      simpa using (hp y hy).2
    have hc : cString o = o := by
      simpa [Arg.names, PyItem.name, hall] using this
    show (if o.all (· < 128) then some (some (cString o)) else none) = some (some o)
    rw [if_pos hall, hc]
  cases ns with
  | nil => exact absurd rfl hne
  | cons f l =>
    unfold many
    rw [if_pos hk, hout, ho]
    simp only [h1, h2, hk, Option.isNone_some, Bool.and_false, Bool.or_false, manyFiles, hr, List.length_cons]

/-- **C154.** Joining files which can all be read writes them, in the order of the list, and answers `None`. -/
theorem join_all (w : World α) (e : Option Text) (x : Args) (order ns : List Name) (o : List Nat) (s : Name → Bool) (c : Name → α) (ss : Name → List (Part α))
    (hk : x.kind = .join) (hs : x.stale = false) (hn : Named x.files ns) (hne : ns ≠ []) (ho : order.Perm ns) (hout : x.output = some (.str o))
    (hp : Include.Spec.plain o) (hw : ∀ f ∈ ns, w.disk f = .file (s f) (c f) none (ss f)) (hcr : w.creates o = true) :
    many w e x order = ⟨.none, none, some (o, ns.map c)⟩ := by
  have hv : valids (ns.map fun f => (f, opened w f)) = ns.map c := by
    unfold valids
    rw [List.filterMap_map]
    clear ho hne hn
    induction ns with
    | nil => rfl
    | cons f l ih =>
      rw [List.filterMap_cons, List.map_cons, ← ih (fun g hg => hw g (by simp [hg]))]
      simp [opened, hw f (by simp), Part.valid]
  have hm : lastMissing (ns.map fun f => (f, opened w f)) = none := by
    refine (lastMissing_none _).2 ?_
    intro p hp
    obtain ⟨f, hf, rfl⟩ := List.mem_map.1 hp
    simp [opened, hw f hf, Part.valid]
  have he : openAll w order = none := by
    unfold openAll
    rw [fold_none]
    refine ⟨rfl, ?_⟩
    intro p hp
    obtain ⟨f, hf, rfl⟩ := List.mem_map.1 hp
    simp [opened, hw f (ho.mem_iff.1 hf), Part.said]
  rw [join_eq w e x order ns o hk hn hne hout hp ⟨none, none, some (o, ns.map c)⟩ (by simp [joinMany, hm, hv, hne, hcr, he])]
  simp [finish, hs]

/-- **C154 fails.** Joining files of which one is missing or damaged, and need not exist, and of which another can be read: the file is written, and then an exception is raised. -/
theorem join_missing_raises (w : World α) (e : Option Text) (x : Args) (order ns : List Name) (o : List Nat)
    (hk : x.kind = .join) (hn : Named x.files ns) (ho : order.Perm ns) (hout : x.output = some (.str o)) (hm : x.must = false)
    (hp : Include.Spec.plain o) (hh : ∀ f ∈ ns, Harmless f (w.disk f)) (hbad : ∃ f ∈ ns, (∃ y, w.disk f = .missing y) ∨ ∃ s y, w.disk f = .unread s y)
    (hgood : ∃ f ∈ ns, ∃ s y t ss, w.disk f = .file s y t ss) (hcr : w.creates o = true) :
    ∃ m l, many w e x order = ⟨.error m, some m, some (o, l)⟩ ∧ l ≠ [] := by
  obtain ⟨f, hf, hbad⟩ := hbad
  obtain ⟨g, hg, s, y, t, ss, hd⟩ := hgood
  have hne : ns ≠ [] := List.ne_nil_of_mem hf
  have hv : valids (ns.map fun f => (f, opened w f)) ≠ [] := by
    refine List.ne_nil_of_mem (a := y) (List.mem_filterMap.2 ⟨(g, opened w g), List.mem_map.2 ⟨g, hg, rfl⟩, ?_⟩)
    simp [opened, hd, Part.valid]
  cases he : openAll w order with
  | none =>
    unfold openAll at he
    rw [fold_none] at he
    have := he.2 (opened w f) (List.mem_map.2 ⟨f, ho.mem_iff.2 hf, rfl⟩)
    rcases hbad with ⟨y, h⟩ | ⟨s, y, h⟩ <;> simp [opened, h, Part.said] at this
  | some m =>
    have ha : asks m = false := by
      unfold openAll at he
      rcases fold_some _ _ m he with h | ⟨p, hp, h⟩
      · cases h
      · obtain ⟨k, hk, rfl⟩ := List.mem_map.1 hp
        exact asks_none m ((harmless_said w k (hh k (ho.mem_iff.1 hk))).2.1 m h)
    refine ⟨m, valids (ns.map fun f => (f, opened w f)), ?_, hv⟩
    rw [join_eq w e x order ns o hk hn hne hout hp ⟨none, some m, some (o, valids (ns.map fun f => (f, opened w f)))⟩
      (by simp [joinMany, hm, hv, hcr, he])]
    simp [finish, ha]

/-- **C154.** Joining when the file cannot be made, or when there is no file which can be read, raises an exception which tells its name, and nothing is written. -/
theorem join_fails (w : World α) (e : Option Text) (x : Args) (order ns : List Name) (o : List Nat) (hk : x.kind = .join) (hn : Named x.files ns) (hne : ns ≠ [])
    (hout : x.output = some (.str o)) (hm : x.must = false) (hp : Include.Spec.plain o) (hpc : 37 ∉ o) :
    ((∀ f ∈ ns, ∀ s y t ss, w.disk f ≠ .file s y t ss) → many w e x order = ⟨.error (joinNoneText o), some (joinNoneText o), none⟩) ∧
    ((∃ f ∈ ns, ∃ s y t ss, w.disk f = .file s y t ss) → w.creates o = false → many w e x order = ⟨.error (joinOpenText o), some (joinOpenText o), none⟩) := by
  constructor
  · intro hbad
    have hv : valids (ns.map fun f => (f, opened w f)) = [] := by
      rw [valids, List.filterMap_eq_nil_iff]
      intro p hp
      obtain ⟨f, hf, rfl⟩ := List.mem_map.1 hp
      cases hd : w.disk f with
      | missing y => simp [opened, hd, Part.valid]
      | unread s y => simp [opened, hd, Part.valid]
      | file s y t ss => exact absurd hd (hbad f hf s y t ss)
    rw [join_eq w e x order ns o hk hn hne hout hp ⟨none, some (joinNoneText o), none⟩ (by simp [joinMany, hm, hv])]
    simp [finish, asks_none _ (joinNoneText_none hpc)]
  · rintro ⟨g, hg, s, y, t, ss, hd⟩ hcr
    have hv : valids (ns.map fun f => (f, opened w f)) ≠ [] := by
      refine List.ne_nil_of_mem (a := y) (List.mem_filterMap.2 ⟨(g, opened w g), List.mem_map.2 ⟨g, hg, rfl⟩, ?_⟩)
      simp [opened, hd, Part.valid]
    rw [join_eq w e x order ns o hk hn hne hout hp ⟨none, some (joinOpenText o), none⟩ (by simp [joinMany, hm, hv, hcr])]
    simp [finish, asks_none _ (joinOpenText_none hpc)]

/-- The number in a message is the number, in digits. -/
theorem digits_value : ∀ (k n : Nat), n < 10 ^ k → (digits k n).foldl (fun v d => 10 * v + (d - 48)) 0 = n ∧ ∀ d ∈ digits k n, 48 ≤ d ∧ d < 58
  | 0, n, h => by
    have : n = 0 := by simpa using h
    subst this
    simp [digits]
  | k + 1, n, h => by
    unfold digits
    split
    · simp
      omega
    · have ⟨h1, h2⟩ := digits_value k (n / 10) (by rw [Nat.pow_succ] at h; omega)
      rw [List.foldl_append, h1]
      refine ⟨by simp; omega, ?_⟩
      intro d hd
      rcases List.mem_append.1 hd with hd | hd
      · exact h2 d hd
      · rw [List.mem_singleton.1 hd]
        omega

/-! ### Reading or stacking -/

/-- **C154.** `MultiPossiblyStackFiles` stacks exactly when the header of the first file says so, and otherwise reads; it reads the data whatever the mode. -/
theorem either_first (w : World α) (e : Option Text) (x : Args) (order ns : List Name) (f : Name) (s : Bool) (hn : Named x.files (f :: ns))
    (hd : (∃ y t ss, w.disk f = .file s y t ss) ∨ ∃ m, w.disk f = .unread (some s) m) :
    many w e { x with kind := .either } order = many w e (if s then { x with kind := .stack } else { x with kind := .read, mode := 3 }) order := by
  obtain ⟨h1, h2⟩ := named hn
  have hdec : decideKind w f = .ok s := by
    rcases hd with ⟨y, t, ss, h⟩ | ⟨m, h⟩ <;> simp [decideKind, h]
  cases s <;> simp [many, h1, h2, manyFiles, hdec]

/-- **C154.** Without the header of its first file it raises an exception, whatever the others are. -/
theorem either_raises (w : World α) (e : Option Text) (x : Args) (order ns : List Name) (f : Name) (hk : x.kind = .either) (hn : Named x.files (f :: ns))
    (hh : Harmless f (w.disk f)) (hd : (∃ y, w.disk f = .missing y) ∨ ∃ m, w.disk f = .unread none m) :
    ∃ m, (many w e x order).out = .error m := by
  obtain ⟨m, hdec, ha⟩ : ∃ m, decideKind w f = .error m ∧ asks m = false := by
    rcases hd with ⟨y, h⟩ | ⟨m, h⟩
    · rw [h] at hh
      exact ⟨openText f y, by simp [decideKind, h], asks_none _ (openText_none hh.1 hh.2)⟩
    · rw [h] at hh
      exact ⟨m, by simp [decideKind, h], asks_none _ hh.2⟩
  rw [many_eq w e x order _ hn (by simp) (by simp [hk]) ⟨none, some m, none⟩ (by simp [manyFiles, hk, hdec])]
  exact ⟨m, by simp [finish, ha]⟩

/-! ### Orders and histories -/

/-- **C154.** What is answered does not depend on the order in which the threads open the files, when nothing is joined. Proved for files without percent signs. -/
theorem any_order_partial (w : World α) (e : Option Text) (x : Args) (ns o₁ o₂ : List Name) (hk : x.kind = .read ∨ x.kind = .stack) (hn : Named x.files ns)
    (h1 : o₁.Perm ns) (h2 : o₂.Perm ns) (hh : ∀ f ∈ ns, Harmless f (w.disk f)) : (many w e x o₁).out = (many w e x o₂).out := by
  by_cases hne : ns = []
  · obtain ⟨h3, h4⟩ := named hn
    subst hne
    rw [List.perm_nil.1 h1, List.perm_nil.1 h2]
  · rcases hk with hk | hk
    · rw [many_eq w e x o₁ ns hn hne (by simp [hk]) _ (by simp only [manyFiles, hk]; rfl),
        many_eq w e x o₂ ns hn hne (by simp [hk]) _ (by simp only [manyFiles, hk]; rfl)]
      by_cases hl : ns.length = 1
      · obtain ⟨f, rfl⟩ := List.length_eq_one_iff.1 hl
        rw [List.perm_singleton.1 h1, List.perm_singleton.1 h2]
      · simp only [scan_parts]
        unfold readMany
        split
        · rfl
        · have hq : (scan w ns (openAll w o₁)).2 = none ↔ (scan w ns (openAll w o₂)).2 = none := by
            rw [scan_quiet w ns o₁ h1, scan_quiet w ns o₂ h2]
          cases q1 : (scan w ns (openAll w o₁)).2 with
          | none => rw [hq.1 q1]
          | some m₁ =>
            cases q2 : (scan w ns (openAll w o₂)).2 with
            | none => rw [hq.2 q2] at q1; cases q1
            | some m₂ =>
              simp [finish, scan_harmless w ns o₁ h1 hh m₁ q1, scan_harmless w ns o₂ h2 hh m₂ q2, hl]
    · rw [many_eq w e x o₁ ns hn hne (by simp [hk]) _ (by simp only [manyFiles, hk, scan_parts]; rfl),
        many_eq w e x o₂ ns hn hne (by simp [hk]) _ (by simp only [manyFiles, hk, scan_parts]; rfl)]

/-- **C154.** After any calls, a call which names at least one file answers as it would without them. Proved for lists which name a file. -/
theorem any_history_partial (w : World α) (h₁ h₂ : List Call) (e₁ e₂ : Option Text) (x : Args) (order : List Name) (hn : (Arg.list x.files).names ≠ []) :
    (many w (history w e₁ h₁) x order).out = (many w (history w e₂ h₂) x order).out ∧
    (many w (history w e₁ h₁) x order).wrote = (many w (history w e₂ h₂) x order).wrote := by
  generalize history w e₁ h₁ = e, history w e₂ h₂ = e'
  unfold many
  split
  · exact ⟨rfl, rfl⟩
  · split
    · next h => exact absurd h hn
    · simp only
      split <;> exact ⟨rfl, rfl⟩

end Riptide.Sds.Many
