import Verif.Sds.Include
import Verif.Sds.IncludeSpec
/-! # Which columns are read: property C137 -/
namespace Riptide.Sds.Include
open Spec

theorem firstPos_none (c : Nat) (s : Name) : firstPos c s = none ↔ c ∉ s := by
  induction s with
  | nil => simp [firstPos]
  | cons a l ih =>
    simp only [firstPos]
    by_cases h : a = c
    · simp [h]
    · simp [h, ih, Ne.symm h]

theorem firstPos_append (c : Nat) (b r : Name) (h : c ∉ b) : firstPos c (b ++ c :: r) = some b.length := by
  induction b with
  | nil => simp [firstPos]
  | cons a l ih =>
    have h1 : a ≠ c := fun e => h (by simp [e])
    have h2 : c ∉ l := fun e => h (by simp [e])
    simp [firstPos, h1, ih h2]

theorem lastPos_none (c : Nat) (s : Name) : lastPos c s = none ↔ c ∉ s := by
  induction s with
  | nil => simp [lastPos]
  | cons a l ih =>
    simp only [lastPos]
    cases hl : lastPos c l with
    | some i =>
      have : ¬ c ∉ l := by rw [← ih, hl]; simp
      simp at this
      simp [this]
    | none =>
      have hn : c ∉ l := ih.1 hl
      by_cases h : a = c
      · simp [h]
      · simp [h, hn, Ne.symm h]

theorem lastPos_append (c : Nat) (b r : Name) (h : c ∉ r) : lastPos c (b ++ c :: r) = some b.length := by
  induction b with
  | nil => simp [lastPos, (lastPos_none c r).2 h]
  | cons a l ih => simp [lastPos, ih]

/-- A name with a byte in it is cut at the first one. -/
theorem cut_first (c : Nat) (s : Name) (h : c ∈ s) : ∃ b r, s = b ++ c :: r ∧ c ∉ b := by
  induction s with
  | nil => simp at h
  | cons a l ih =>
    by_cases e : a = c
    · exact ⟨[], l, by simp [e], by simp⟩
    · have : c ∈ l := by
        rcases List.mem_cons.1 h with h | h
        · exact absurd h.symm e
        · exact h
      obtain ⟨b, r, h1, h2⟩ := ih this
      exact ⟨a :: b, r, by simp [h1], by simp [h2, Ne.symm e]⟩

/-- A name with a byte in it is cut at the last one. -/
theorem cut_last (c : Nat) (s : Name) (h : c ∈ s) : ∃ b r, s = b ++ c :: r ∧ c ∉ r := by
  obtain ⟨b, r, h1, h2⟩ := cut_first c s.reverse (by simpa using h)
  refine ⟨r.reverse, b.reverse, ?_, by simpa using h2⟩
  have := congrArg List.reverse h1
  simpa using this

/-- What holds of every list of names. -/
def Good (i : Incl) : Prop := i.count = i.items.length ∧ (i.items ≠ [] → i.cached ∈ i.items)

theorem good_new : Good Incl.new := by simp [Good, Incl.new]

theorem good_clear (i : Incl) : Good i.clear := by simp [Good, Incl.clear]

theorem good_add (i : Incl) (s : Name) (h : Good i) : Good (i.add s) := by
  unfold Incl.add Good at *
  split
  · rename_i hm; exact ⟨h.1, fun _ => hm⟩
  · simp [h.1]

theorem add_mem (i : Incl) (s t : Name) : t ∈ (i.add s).items ↔ t ∈ i.items ∨ t = s := by
  unfold Incl.add
  split
  · rename_i hm; constructor
    · exact Or.inl
    · rintro (h | h)
      · exact h
      · exact h ▸ hm
  · simp

theorem add_sep (i : Incl) (s : Name) : (i.add s).sep = i.sep := by
  unfold Incl.add; split <;> rfl

theorem foldl_add (l : List Name) : ∀ i : Incl, Good i →
    Good (l.foldl Incl.add i) ∧ (l.foldl Incl.add i).sep = i.sep ∧ ∀ t, t ∈ (l.foldl Incl.add i).items ↔ t ∈ i.items ∨ t ∈ l := by
  induction l with
  | nil => intro i h; simp [h]
  | cons a l ih =>
    intro i h
    obtain ⟨h1, h2, h3⟩ := ih (i.add a) (good_add i a h)
    refine ⟨h1, by rw [List.foldl_cons, h2, add_sep], fun t => ?_⟩
    rw [List.foldl_cons, h3, add_mem, List.mem_cons, or_assoc]

theorem addAll_spec (l : List Name) (sep : Nat) :
    Good (Incl.new.addAll l sep) ∧ (Incl.new.addAll l sep).sep = sep ∧ ∀ t, t ∈ (Incl.new.addAll l sep).items ↔ t ∈ l := by
  obtain ⟨h1, h2, h3⟩ := foldl_add l { Incl.new with sep := sep } (by simp [Good, Incl.new])
  exact ⟨h1, h2, fun t => by rw [Incl.addAll, h3]; simp [Incl.new]⟩

theorem find_iff (i : Incl) (h : Good i) (s : Name) : i.find s = true ↔ s ∈ i.items := by
  unfold Incl.find
  by_cases h1 : i.count = 1
  · rw [if_pos h1]
    obtain ⟨x, hx⟩ := List.length_eq_one_iff.1 (h.1 ▸ h1)
    have hc := h.2 (by simp [hx])
    rw [hx] at hc ⊢
    simp at hc
    simp [hc, eq_comm]
  · rw [if_neg h1]; simp

theorem count_zero (l : List Name) (sep : Nat) : (Incl.new.addAll l sep).count = 0 ↔ l = [] := by
  obtain ⟨h1, _, h3⟩ := addAll_spec l sep
  rw [h1.1, List.length_eq_zero_iff]
  constructor
  · intro h
    cases l with
    | nil => rfl
    | cons a l => exact absurd ((h3 a).2 (by simp)) (by simp [h])
  · intro h
    rw [h]; rfl

theorem findBang_iff (i : Incl) (h : Good i) (s : Name) : i.findBang s = true ↔ ∃ b, IsBase s b ∧ b ∈ i.items := by
  unfold Incl.findBang
  by_cases hb : bang ∈ s
  · obtain ⟨b, r, h1, h2⟩ := cut_first bang s hb
    subst h1
    rw [firstPos_append _ _ _ h2]
    simp only [find_iff i h, List.take_left]
    constructor
    · intro hm; exact ⟨b, ⟨h2, r, rfl⟩, hm⟩
    · rintro ⟨b', ⟨h3, r', h4⟩, hm⟩
      have e1 := firstPos_append bang b r h2
      rw [h4, show (33 : Nat) = bang from rfl, firstPos_append bang b' r' h3] at e1
      have := (List.append_inj h4 (by simpa using e1.symm)).1
      rw [this]; exact hm
  · rw [(firstPos_none bang s).2 hb]
    simp only [Bool.false_eq_true, false_iff]
    rintro ⟨b', ⟨h3, r', h4⟩, hm⟩
    exact hb (by simp [h4, bang])

theorem findFolder_iff (i : Incl) (h : Good i) (hs : i.sep = slash) (s : Name) :
    i.findFolder s = true ↔ ∃ f, IsFolder s f ∧ f ∈ i.items := by
  unfold Incl.findFolder
  rw [hs]
  by_cases hb : slash ∈ s
  · obtain ⟨b, r, h1, h2⟩ := cut_last slash s hb
    subst h1
    rw [lastPos_append _ _ _ h2]
    have ht : (b ++ slash :: r).take (b.length + 1) = b ++ [47] := by
      rw [show b ++ slash :: r = (b ++ [47]) ++ r by simp [slash], List.take_left' (by simp)]
    simp only [find_iff i h, ht]
    constructor
    · intro hm; exact ⟨b ++ [47], ⟨b, r, h2, rfl, by simp [slash]⟩, hm⟩
    · rintro ⟨f, ⟨d, c, h3, h4, h5⟩, hm⟩
      subst h4
      have e1 := lastPos_append slash b r h2
      rw [h5, show d ++ [47] ++ c = d ++ slash :: c by simp [slash], lastPos_append slash d c h3] at e1
      have h6 : b ++ slash :: r = d ++ slash :: c := by rw [h5]; simp [slash]
      have := (List.append_inj h6 (by simpa using e1.symm)).1
      rw [this]; exact hm
  · rw [(lastPos_none slash s).2 hb]
    simp only [Bool.false_eq_true, false_iff]
    rintro ⟨f, ⟨d, c, h3, h4, h5⟩, hm⟩
    exact hb (by simp [h5, h4, slash])

/-- The column looked for is the column of the name, and there is no other. -/
theorem column_iff (s t : Name) : IsColumn s t ↔ t = column s := by
  unfold column
  by_cases hb : slash ∈ s
  · obtain ⟨b, r, h1, h2⟩ := cut_last slash s hb
    subst h1
    rw [lastPos_append _ _ _ h2]
    have hd : (b ++ slash :: r).drop (b.length + 1) = r := by
      rw [show b ++ slash :: r = (b ++ [slash]) ++ r by simp, List.drop_left' (by simp)]
    simp only [hd]
    by_cases h0 : 0 < b.length
    · rw [if_pos h0]
      constructor
      · rintro (⟨h3, h4 | ⟨f, h5, h4⟩⟩ | ⟨u, h3, h4, h5⟩)
        · exact absurd hb (by rw [h4]; exact h3)
        · have e1 := lastPos_append slash b r h2
          have h6 : b ++ slash :: r = f ++ slash :: t := h4
          rw [h6, lastPos_append slash f t h3] at e1
          have := (List.append_inj h6 (by simpa using e1.symm)).2
          simpa using this.symm
        · have e1 := lastPos_append slash b r h2
          rw [show b ++ slash :: r = [] ++ slash :: u from h4, lastPos_append slash [] u h3] at e1
          simp at e1
          omega
      · rintro rfl
        exact Or.inl ⟨h2, Or.inr ⟨b, by intro e; simp [e] at h0, rfl⟩⟩
    · rw [if_neg h0]
      have hb0 : b = [] := by cases b <;> simp at h0 ⊢
      subst hb0
      constructor
      · rintro (⟨h3, h4 | ⟨f, h5, h4⟩⟩ | ⟨u, h3, h4, h5⟩)
        · exact h4.symm
        · have e1 := lastPos_append slash [] r h2
          rw [show [] ++ slash :: r = f ++ slash :: t from h4, lastPos_append slash f t h3] at e1
          simp at e1
          exact absurd e1 h5
        · exact h5
      · rintro rfl
        exact Or.inr ⟨r, h2, rfl, rfl⟩
  · rw [(lastPos_none slash s).2 hb]
    constructor
    · rintro (⟨h3, h4 | ⟨f, h5, h4⟩⟩ | ⟨u, h3, h4, h5⟩)
      · exact h4.symm
      · exact absurd (by simp [h4, slash]) hb
      · exact h5
    · rintro rfl
      exact Or.inl ⟨hb, Or.inl rfl⟩

/-! ## The lists -/

/-- **C137.** A list of columns takes exactly the names whose column it has, or the base of whose column it has; an empty list takes all. Neither the order of the list nor repetitions matter, nor that a list with one member looks at the item added last. -/
theorem column_list_exact (l : List Name) (s : Name) : (Incl.new.addAll l 0).included s = true ↔ Column l s := by
  obtain ⟨h1, h2, h3⟩ := addAll_spec l 0
  unfold Incl.included Column
  by_cases h0 : l = []
  · rw [if_pos ((count_zero l 0).2 h0)]; simp [h0]
  · rw [if_neg (fun h => h0 ((count_zero l 0).1 h)), if_pos h2, Bool.or_eq_true, find_iff _ h1, findBang_iff _ h1]
    simp only [h3, h0, false_or]
    constructor
    · intro h; exact ⟨column s, (column_iff _ _).2 rfl, h⟩
    · rintro ⟨t, ht, h⟩
      rw [(column_iff _ _).1 ht] at h
      exact h

example : Column [[98]] [97, 47, 98] ∧ ¬ Column [[97]] [97, 47, 98] := by
  rw [← column_list_exact, ← column_list_exact]; decide +kernel

example : Column [[97], [98]] [98, 33, 99] := by
  rw [← column_list_exact]; decide +kernel

/-- **C137.** A list of folders takes exactly the names it has and the names whose folder it has; an empty list takes all. -/
theorem folder_list_exact (l : List Name) (s : Name) : (Incl.new.addAll l slash).included s = true ↔ Folder l s := by
  obtain ⟨h1, h2, h3⟩ := addAll_spec l slash
  unfold Incl.included Folder
  by_cases h0 : l = []
  · rw [if_pos ((count_zero l slash).2 h0)]; simp [h0]
  · rw [if_neg (fun h => h0 ((count_zero l slash).1 h)), if_neg (by rw [h2]; decide), Bool.or_eq_true, find_iff _ h1,
      findFolder_iff _ h1 h2]
    simp only [h3, h0, false_or]

example : Folder [[97, 47]] [97, 47, 98] ∧ ¬ Folder [[97, 47]] [97, 47, 98, 47, 99] ∧ ¬ Folder [[97]] [97, 47, 98] := by
  rw [← folder_list_exact, ← folder_list_exact, ← folder_list_exact]; decide +kernel

/-- The operations as the specification sees them. -/
theorem run_mem (h : List Op) : ∀ (i : Incl) (s : Name), s ∈ (i.run h).items ↔
    Since (h.map fun o => match o with | .add t => some t | .clear => none) s ∨
      (none ∉ h.map (fun o => match o with | .add t => some t | .clear => none) ∧ s ∈ i.items) := by
  induction h with
  | nil =>
    intro i s
    simp only [Incl.run, List.foldl_nil, List.map_nil, List.not_mem_nil, not_false_eq_true, true_and]
    constructor
    · exact Or.inr
    · rintro (h | h)
      · cases h
      · exact h
  | cons o h ih =>
    intro i s
    cases o with
    | add t =>
      have := ih (i.add t) s
      simp only [Incl.run, List.foldl_cons] at this ⊢
      rw [this, add_mem]
      simp only [List.map_cons, List.mem_cons, reduceCtorEq, false_or]
      constructor
      · rintro (h1 | ⟨h1, h2 | h2⟩)
        · exact Or.inl (.later _ _ _ h1)
        · exact Or.inr ⟨h1, h2⟩
        · subst h2; exact Or.inl (.here _ _ h1)
      · rintro (h1 | ⟨h1, h2⟩)
        · cases h1 with
          | here _ _ h1 => exact Or.inr ⟨h1, Or.inr rfl⟩
          | later _ _ _ h1 => exact Or.inl h1
        · exact Or.inr ⟨h1, Or.inl h2⟩
    | clear =>
      have := ih i.clear s
      simp only [Incl.run, List.foldl_cons] at this ⊢
      rw [this]
      simp only [List.map_cons, List.mem_cons, true_or, not_true_eq_false, false_and, or_false, Incl.clear, List.not_mem_nil,
        and_false]
      constructor
      · intro h1; exact .later _ _ _ h1
      · intro h1
        cases h1 with
        | later _ _ _ h1 => exact h1

theorem run_good (h : List Op) : ∀ i : Incl, Good i → Good (i.run h) := by
  induction h with
  | nil => intro i hi; exact hi
  | cons o h ih =>
    intro i hi
    cases o with
    | add t => exact ih _ (good_add i t hi)
    | clear => exact ih _ (good_clear i)

theorem run_sep (h : List Op) : ∀ i : Incl, (i.run h).sep = i.sep := by
  induction h with
  | nil => intro i; rfl
  | cons o h ih =>
    intro i
    cases o with
    | add t => exact (ih (i.add t)).trans (add_sep i t)
    | clear => exact ih i.clear

/-- **C137.** After any history of additions and clearings a list takes a plain name exactly when the name was added after the last clearing, or when nothing was. -/
theorem list_history (h : List Op) (s : Name) (h47 : 47 ∉ s) (h33 : 33 ∉ s) :
    (Incl.new.run h).included s = true ↔
      Since (h.map fun o => match o with | .add t => some t | .clear => none) s ∨
        ∀ t, ¬ Since (h.map fun o => match o with | .add t => some t | .clear => none) t := by
  have hg := run_good h Incl.new good_new
  have hs : (Incl.new.run h).sep = 0 := run_sep h _
  have hm : ∀ t, t ∈ (Incl.new.run h).items ↔ Since (h.map fun o => match o with | .add t => some t | .clear => none) t := by
    intro t; rw [run_mem]; simp [Incl.new]
  have hc : column s = s := ((column_iff s s).1 (Or.inl ⟨h47, Or.inl rfl⟩)).symm
  unfold Incl.included
  by_cases h0 : (Incl.new.run h).count = 0
  · rw [if_pos h0]
    rw [hg.1, List.length_eq_zero_iff] at h0
    simp only [true_iff]
    refine Or.inr fun t ht => ?_
    have := (hm t).2 ht
    simp [h0] at this
  · rw [if_neg h0, if_pos hs, hc, Bool.or_eq_true, find_iff _ hg, findBang_iff _ hg, hm]
    constructor
    · rintro (h1 | ⟨b, ⟨_, c, h2⟩, _⟩)
      · exact Or.inl h1
      · exact absurd (by simp [h2]) h33
    · rintro (h1 | h1)
      · exact Or.inl h1
      · exfalso
        rw [hg.1] at h0
        cases hi : (Incl.new.run h).items with
        | nil => simp [hi] at h0
        | cons a l => exact h1 a ((hm a).1 (by simp [hi]))

example : (Incl.new.run [.add [97], .clear, .add [98]]).included [97] = false ∧
    (Incl.new.run [.add [97], .clear, .add [98]]).included [98] = true ∧
    (Incl.new.run [.add [97], .clear]).included [98] = true := by decide +kernel

/-! ## The files -/

/-- **C137.** Which arrays of a file are read, for all names and lists: in a file without folders those which the list of columns takes; in a file with folders those which both lists take, and the names ending in a slash which the list of folders takes when it is not empty. -/
theorem read_exact (inc fol : List Name) (f : File) (s : Name) :
    s ∈ readNames (Incl.new.addAll inc 0) (Incl.new.addAll fol slash) f ↔
      s ∈ f.names ∧ (Column inc s ∧ (f.oneFile = true → Folder fol s) ∨
        f.oneFile = true ∧ fol ≠ [] ∧ s.getLast? = some 47 ∧ Folder fol s) := by
  unfold readNames
  rw [List.mem_filter]
  refine and_congr_right fun _ => ?_
  unfold nameIncluded
  cases f.oneFile with
  | false => simp [column_list_exact]
  | true =>
    simp only [if_true, true_implies, true_and]
    by_cases hi : inc = []
    · rw [if_pos ((count_zero inc 0).2 hi)]
      have hcol : Column inc s := Or.inl hi
      by_cases hf : fol = []
      · rw [if_pos ((count_zero fol slash).2 hf)]
        simp [hcol, hf, Folder]
      · rw [if_neg (fun h => hf ((count_zero fol slash).1 h)), folder_list_exact]
        simp only [hcol, true_and]
        constructor
        · exact Or.inl
        · rintro (h | ⟨_, _, h⟩) <;> exact h
    · rw [if_neg (fun h => hi ((count_zero inc 0).1 h))]
      by_cases hf : fol = []
      · have h0 := (count_zero fol slash).2 hf
        have hfo : Folder fol s := Or.inl hf
        have hd : decide ((Incl.new.addAll fol slash).count ≠ 0) = false := by rw [h0]; rfl
        rw [if_neg (by rw [hd]; simp), Bool.and_eq_true, column_list_exact, folder_list_exact]
        constructor
        · intro h; exact Or.inl h
        · rintro (h | ⟨h, _⟩)
          · exact h
          · exact absurd hf h
      · have h0 : (Incl.new.addAll fol slash).count ≠ 0 := fun h => hf ((count_zero fol slash).1 h)
        by_cases hp : s.getLast? = some 47
        · by_cases hfo : Folder fol s
          · have hd : decide ((Incl.new.addAll fol slash).count ≠ 0) = true := decide_eq_true h0
            have hpf : pureFolder s = true := decide_eq_true hp
            rw [if_pos (by rw [hd, hpf, (folder_list_exact fol s).2 hfo]; rfl)]
            simp [hf, hp, hfo]
          · have : (Incl.new.addAll fol slash).included s = false := by
              rw [← Bool.not_eq_true, folder_list_exact]; exact hfo
            simp [this, hfo]
        · rw [if_neg (by simp [pureFolder, slash, hp])]
          simp [column_list_exact, folder_list_exact, hp]

example : readNames (Incl.new.addAll [[98]] 0) (Incl.new.addAll [[97, 47]] slash) ⟨true, [[97, 47], [97, 47, 98], [97, 47, 99], [100, 47, 98], [98]]⟩ =
    [[97, 47], [97, 47, 98]] := by decide +kernel

/-- The items of a list of plain bytes and plain strings are names. -/
theorem names_plain (l : List Name) (k : Name → PyItem) (hk : ∀ b, k b = .bytes b ∨ k b = .str b) (hl : ∀ b ∈ l, plain b) :
    (Arg.list (l.map k)).names = l ∧ (Arg.list (l.map k)).leavesError = false := by
  have hc : ∀ b : Name, plain b → cString b = b := by
    intro b hb
    unfold cString
    induction b with
    | nil => rfl
    | cons a b ih =>
      have h0 : (decide (a ≠ 0)) = true := by simpa using (hb a (by simp)).1
      rw [List.takeWhile_cons, if_pos h0, ih (fun x hx => hb x (by simp [hx]))]
  have ha : ∀ b : Name, plain b → b.all (· < 128) = true := by
    intro b hb
    rw [List.all_eq_true]
    intro x hx
    simpa using (hb x hx).2
  induction l with
  | nil => simp [Arg.names, Arg.leavesError]
  | cons a l ih =>
    obtain ⟨h1, h2⟩ := ih (fun b hb => hl b (by simp [hb]))
    have hp := hl a (by simp)
    simp only [Arg.names, Arg.leavesError, List.map_cons, List.filterMap_cons, List.any_cons, Bool.or_eq_false_iff] at h1 h2 ⊢
    rcases hk a with e | e
    · rw [e]
      simp only [PyItem.name, hc a hp, h1, PyItem.leavesError, h2, and_self]
    · rw [e]
      simp only [PyItem.name, ha a hp, if_true, hc a hp, h1, PyItem.leavesError, Bool.not_true, h2, and_self]

/-- **C137.** `MultiDecompressFiles` of files without folders reads, of every file in order, exactly the columns named, or all when `include` is absent or empty; whatever `folders` says. Proved for columns without `/` and `!` in their names; for the others see the witnesses. -/
theorem read_many_partial (disk : Name → File) (files inc : List Name) (kf ki : Name → PyItem) (fol sec : Arg)
    (hf : ∀ b, kf b = .bytes b ∨ kf b = .str b) (hi : ∀ b, ki b = .bytes b ∨ ki b = .str b)
    (pf : ∀ b ∈ files, plain b) (pi : ∀ b ∈ inc, plain b)
    (hone : ∀ b ∈ files, (disk b).oneFile = false) (hn : ∀ b ∈ files, ∀ s ∈ (disk b).names, 47 ∉ s ∧ 33 ∉ s) :
    (readMany disk (files.map kf) (.list (inc.map ki)) fol sec).1.map (·.1) = files ∧
    ∀ (k : Nat) (b : Name), files[k]? = some b → ∃ r : List Name,
      (readMany disk (files.map kf) (.list (inc.map ki)) fol sec).1[k]? = some (b, r) ∧ r.Sublist (disk b).names ∧
      ∀ s, s ∈ r ↔ s ∈ (disk b).names ∧ Wanted inc s := by
  simp only [readMany, (names_plain files kf hf pf).1, (names_plain inc ki hi pi).1]
  refine ⟨by rw [List.map_map]; simp [Function.comp_def], fun k b hk => ⟨readNames (Incl.new.addAll inc 0) (Incl.new.addAll fol.names slash) (disk b), ?_, List.filter_sublist, fun s => ?_⟩⟩
  · rw [List.getElem?_map, hk]; rfl
  · have hb := List.mem_of_getElem? hk
    rw [read_exact]
    refine and_congr_right fun hs => ?_
    simp only [hone b hb, Bool.false_eq_true, false_implies, and_true, false_and, or_false]
    obtain ⟨h47, h33⟩ := hn b hb s hs
    unfold Column Wanted
    refine or_congr_right ⟨?_, fun h => ⟨s, Or.inl ⟨h47, Or.inl rfl⟩, Or.inl h⟩⟩
    rintro ⟨t, ht, h⟩
    have e : t = s := ((column_iff s t).1 ht).trans ((column_iff s s).1 (Or.inl ⟨h47, Or.inl rfl⟩)).symm
    subst e
    rcases h with h | ⟨b', ⟨_, c, h⟩, _⟩
    · exact h
    · exact absurd (by simp [h]) h33

example : readMany (fun _ => ⟨false, [[97], [98], [99]]⟩) [.bytes [120], .str [121]] (.list [.str [99], .bytes [97]]) .absent .absent =
    ([([120], [[97], [99]]), ([121], [[97], [99]])], false) := by decide +kernel

/-- **C137.** Of a file with folders the columns named of the folders named are read. Proved for columns without `/` and `!` in folders given with their slash; of the names which are folders themselves, see `folder_entries_read` and `folder_entries_lost`. -/
theorem read_onefile_partial (disk : Name → File) (file : Name) (inc fol : List Name) (ki kf : Name → PyItem) (sec : Arg)
    (hi : ∀ b, ki b = .bytes b ∨ ki b = .str b) (hf : ∀ b, kf b = .bytes b ∨ kf b = .str b)
    (pn : plain file) (pi : ∀ b ∈ inc, plain b) (pf : ∀ b ∈ fol, plain b ∧ b.getLast? = some 47)
    (hone : (disk file).oneFile = true) (folder col : Name) (h1 : folder ≠ []) (h2 : col ≠ []) (h47 : 47 ∉ col) (h33 : 33 ∉ col)
    (hs : folder ++ 47 :: col ∈ (disk file).names) :
    ∃ r : List Name, (readMany disk [.bytes file] (.list (inc.map ki)) (.list (fol.map kf)) sec).1 = [(file, r)] ∧
      (folder ++ 47 :: col ∈ r ↔ WantedIn inc fol folder col) := by
  have hfile := names_plain [file] .bytes (fun _ => Or.inl rfl) (by simpa using pn)
  simp only [List.map_cons, List.map_nil] at hfile
  simp only [readMany, hfile.1, (names_plain inc ki hi pi).1, (names_plain fol kf hf (fun b hb => (pf b hb).1)).1]
  refine ⟨readNames (Incl.new.addAll inc 0) (Incl.new.addAll fol slash) (disk file), rfl, ?_⟩
  rw [read_exact]
  have hlast : (folder ++ 47 :: col).getLast? ≠ some 47 := by
    intro e
    have hc : (folder ++ 47 :: col).getLast? = col.getLast? := by
      cases col with
      | nil => exact absurd rfl h2
      | cons a c =>
        rw [show folder ++ 47 :: a :: c = (folder ++ [47]) ++ (a :: c) by simp, List.getLast?_append]
        cases hg : (a :: c).getLast? with
        | none => simp at hg
        | some x => rfl
    rw [hc] at e
    exact h47 (List.mem_of_getLast? e)
  have hcol : Column inc (folder ++ 47 :: col) ↔ inc = [] ∨ col ∈ inc := by
    unfold Column
    refine or_congr_right ⟨?_, fun h => ⟨col, Or.inl ⟨h47, Or.inr ⟨folder, h1, rfl⟩⟩, Or.inl h⟩⟩
    rintro ⟨t, ht, h⟩
    have e : t = col := ((column_iff _ t).1 ht).trans ((column_iff _ col).1 (Or.inl ⟨h47, Or.inr ⟨folder, h1, rfl⟩⟩)).symm
    subst e
    rcases h with h | ⟨b', ⟨_, c, h⟩, _⟩
    · exact h
    · exact absurd (by simp [h]) h33
  have hfol : Folder fol (folder ++ 47 :: col) ↔ fol = [] ∨ folder ++ [47] ∈ fol := by
    unfold Folder
    refine or_congr_right ⟨?_, fun h => Or.inr ⟨folder ++ [47], ⟨folder, col, h47, rfl, by simp⟩, h⟩⟩
    rintro (h | ⟨f, ⟨d, c, h3, h4, h5⟩, h⟩)
    · exact absurd (pf _ h).2 hlast
    · subst h4
      have e1 := lastPos_append 47 folder col h47
      have h6 : folder ++ 47 :: col = d ++ 47 :: c := by rw [h5]; simp
      rw [h6, lastPos_append 47 d c h3] at e1
      have := (List.append_inj h6 (by simpa using e1.symm)).1
      rw [this]; exact h
  simp only [hs, hone, true_and, true_implies, hcol, hfol, hlast, false_and, and_false, or_false, WantedIn]

example : (readMany (fun _ => ⟨true, [[97, 47], [97, 47, 98], [97, 47, 99], [100, 47, 98]]⟩) [.bytes [120]] (.list [.str [98]])
    (.list [.str [97, 47]]) .absent).1 = [([120], [[97, 47], [97, 47, 98]])] := by decide +kernel

/-- **C137.** The entry of a folder named, which holds what is known of the folder, is read whatever columns are named. -/
theorem folder_entries_read (inc fol : List Name) (f : File) (d : Name) (hone : f.oneFile = true) (hs : d ++ [47] ∈ f.names)
    (h : d ++ [47] ∈ fol) : d ++ [47] ∈ readNames (Incl.new.addAll inc 0) (Incl.new.addAll fol slash) f := by
  rw [read_exact]
  exact ⟨hs, Or.inr ⟨hone, by intro e; simp [e] at h, by simp, Or.inr (Or.inl h)⟩⟩

example : [97] ++ [47] ∈ readNames (Incl.new.addAll [[98]] 0) (Incl.new.addAll [[97, 47]] slash) ⟨true, [[97, 47], [98]]⟩ := by
  decide +kernel

/-- **C137.** A categorical column is read with all its parts: each name `column!part` is read when `column` is named. -/
theorem categories_read (inc fol : List Name) (f : File) (col part : Name) (hone : f.oneFile = false) (h47 : 47 ∉ col)
    (h47' : 47 ∉ part) (h33 : 33 ∉ col) (hs : col ++ 33 :: part ∈ f.names) (h : col ∈ inc) :
    col ++ 33 :: part ∈ readNames (Incl.new.addAll inc 0) (Incl.new.addAll fol slash) f := by
  rw [read_exact]
  refine ⟨hs, Or.inl ⟨Or.inr ⟨col ++ 33 :: part, Or.inl ⟨by simp [h47, h47'], Or.inl rfl⟩, Or.inr ⟨col, ⟨h33, part, rfl⟩, h⟩⟩, ?_⟩⟩
  intro e
  rw [hone] at e
  exact absurd e (by simp)

example : readNames (Incl.new.addAll [[97]] 0) Incl.new ⟨false, [[97], [97, 33, 48], [97, 98]]⟩ = [[97], [97, 33, 48]] := by
  decide +kernel

end Riptide.Sds.Include
