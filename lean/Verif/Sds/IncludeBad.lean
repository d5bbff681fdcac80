import Verif.Sds.IncludeProps
/-! # Which columns are read: where C137 fails -/
namespace Riptide.Sds.Include
open Spec

/-- **C137 fails.** A column whose own name has a slash cannot be named: of a file without folders the list with the name `x/y` does not read the column `x/y`, the list with the name `y` does. -/
theorem slash_in_name_missed :
    readNames (Incl.new.addAll [[120, 47, 121]] 0) Incl.new ⟨false, [[120, 47, 121], [121]]⟩ = [] ∧
    readNames (Incl.new.addAll [[121]] 0) Incl.new ⟨false, [[120, 47, 121], [121]]⟩ = [[120, 47, 121], [121]] := by
  decide +kernel

/-- **C137 fails.** No list of names with a slash behind something reads anything by that name: such an entry only turns "all columns" into none. -/
theorem path_in_include_reads_nothing (p q s : Name) (hp : p ≠ []) (fol : Incl) :
    nameIncluded (Incl.new.addAll [p ++ 47 :: q] 0) fol s false = false := by
  have h : ¬ Column [p ++ 47 :: q] s := by
    rintro (h | ⟨t, ht, h⟩)
    · simp at h
    · have hno : ∀ u : Name, 47 ∉ u → u ≠ p ++ 47 :: q := by
        intro u hu e; exact hu (by simp [e])
      have hlast : ∀ u : Name, 47 ∉ u → 47 :: u ≠ p ++ 47 :: q := by
        intro u hu e
        cases p with
        | nil => exact hp rfl
        | cons a p =>
          simp only [List.cons_append, List.cons.injEq] at e
          exact hno' hu e.2
      rcases ht with ⟨h1, _⟩ | ⟨u, h1, h2, h3⟩
      · rcases h with h | ⟨b, ⟨_, c, h4⟩, h⟩
        · exact hno t h1 (by simpa using h)
        · refine hno b (fun hb => h1 (by simp [h4, hb])) (by simpa using h)
      · have h5 : t = 47 :: u := h3.trans h2
        rcases h with h | ⟨b, ⟨_, c, h4⟩, h⟩
        · exact hlast u h1 (by rw [← h5]; simpa using h)
        · have hb : b = p ++ 47 :: q := by simpa using h
          subst hb
          cases p with
          | nil => exact hp rfl
          | cons a p =>
            rw [h5] at h4
            simp only [List.cons_append, List.cons.injEq, List.append_assoc] at h4
            exact h1 (by rw [h4.2]; simp)
  rw [← column_list_exact] at h
  simp only [nameIncluded, Bool.false_eq_true, if_false]
  simpa using h
where
  hno' {u p q : List Nat} (hu : 47 ∉ u) (e : u = p ++ 47 :: q) : False := hu (by simp [e])

example : nameIncluded (Incl.new.addAll [[97] ++ 47 :: [98]] 0) Incl.new [97, 47, 98] false = false := by decide +kernel

/-- **C137 fails.** A column whose own name is `a!b` is read when only `a` is named; and when it is named itself its parts `a!b!c` are not read, since only what is in front of the first `!` is compared. -/
theorem bang_in_name_confused :
    readNames (Incl.new.addAll [[97]] 0) Incl.new ⟨false, [[97, 33, 98], [97, 33, 98, 33, 99]]⟩ = [[97, 33, 98], [97, 33, 98, 33, 99]] ∧
    readNames (Incl.new.addAll [[97, 33, 98]] 0) Incl.new ⟨false, [[97, 33, 98], [97, 33, 98, 33, 99]]⟩ = [[97, 33, 98]] := by
  decide +kernel

/-- **C137 fails.** A folder does not take what is in the folders inside it, and must be given with its slash. -/
theorem nested_folders_missed :
    readNames Incl.new (Incl.new.addAll [[97, 47]] slash) ⟨true, [[97, 47, 99], [97, 47, 98, 47, 99]]⟩ = [[97, 47, 99]] ∧
    readNames Incl.new (Incl.new.addAll [[97]] slash) ⟨true, [[97, 47, 99]]⟩ = [] := by
  decide +kernel

/-- **C137 fails.** When only columns are named, the entries of the folders, which hold what is known of them, are not read: for every list of nonempty names. -/
theorem folder_entries_lost (inc : List Name) (hne : inc ≠ []) (hn : ∀ b ∈ inc, b ≠ []) (d : Name) (hd : d ≠ [])
    (f : File) : d ++ [47] ∉ readNames (Incl.new.addAll inc 0) (Incl.new.addAll [] slash) f := by
  rw [read_exact]
  rintro ⟨_, ⟨h, _⟩ | ⟨_, h, _⟩⟩
  · rcases h with h | ⟨t, ht, h⟩
    · exact hne h
    · have e : t = [] := ((column_iff _ t).1 ht).trans ((column_iff _ []).1 (Or.inl ⟨by simp, Or.inr ⟨d, hd, rfl⟩⟩)).symm
      subst e
      rcases h with h | ⟨b, ⟨_, c, h4⟩, h⟩
      · exact hn _ h rfl
      · simp at h4
  · exact h rfl

example : readNames (Incl.new.addAll [[98]] 0) (Incl.new.addAll [] slash) ⟨true, [[97, 47], [97, 47, 98]]⟩ = [[97, 47, 98]] := by
  decide +kernel

/-- **C137 fails.** A list in which nothing is a name counts as no list: every column is read, and nothing is said when the items are neither bytes nor strings; a string outside of ASCII leaves an exception behind a finished call. -/
theorem wrong_items_read_all (disk : Name → File) (file : Name) (l : List PyItem) (hl : ∀ x ∈ l, x.name = none) (fol sec : Arg)
    (pn : plain file) (hone : (disk file).oneFile = false) :
    (readMany disk [.bytes file] (.list l) fol sec).1 = [(file, (disk file).names)] := by
  have hfile := names_plain [file] .bytes (fun _ => Or.inl rfl) (by simpa using pn)
  simp only [List.map_cons, List.map_nil] at hfile
  have hnil : (Arg.list l).names = [] := by
    simp only [Arg.names, List.filterMap_eq_nil_iff]
    exact hl
  simp only [readMany, hfile.1, hnil, List.map_cons, List.map_nil]
  congr 2
  rw [readNames, List.filter_eq_self]
  intro s _
  simp only [nameIncluded, hone, Bool.false_eq_true, if_false]
  exact (column_list_exact [] s).2 (Or.inl rfl)

example : readMany (fun _ => ⟨false, [[97], [98]]⟩) [.bytes [120]] (.list [.other]) .absent .absent = ([([120], [[97], [98]])], false) ∧
    readMany (fun _ => ⟨false, [[97], [98]]⟩) [.bytes [120]] (.list [.str [233]]) .absent .absent = ([([120], [[97], [98]])], true) := by
  decide +kernel

/-- **C137 fails.** An argument `include` which is not a list, such as a tuple or one string, is ignored: every column is read. -/
theorem include_not_list_reads_all (disk : Name → File) (files : List PyItem) (fol sec : Arg) :
    readMany disk files .notList fol sec = readMany disk files .absent fol sec := rfl

example : readMany (fun _ => ⟨false, [[97], [98]]⟩) [.bytes [120]] .notList .absent .absent = ([([120], [[97], [98]])], false) := by
  decide +kernel

/-- **C137 fails.** `DecompressFile` reads every column whatever `include` says. -/
theorem read_file_ignores_include (f : File) (include_ sec : Arg) : (readFile f include_ .absent sec).read = f.names := by
  unfold readFile readNames
  rw [List.filter_eq_self]
  intro s _
  unfold nameIncluded
  cases f.oneFile <;> simp [Incl.new, Incl.included, Incl.addAll, Arg.names]

example : (readFile ⟨false, [[97], [98]]⟩ (.list [.bytes [97]]) .absent .absent).read = [[97], [98]] := by decide +kernel

/-- **C137.** `DecompressFile` of a file with folders reads the folders named. -/
theorem read_file_folders (f : File) (include_ sec : Arg) (fol : List Name) (kf : Name → PyItem)
    (hf : ∀ b, kf b = .bytes b ∨ kf b = .str b) (pf : ∀ b ∈ fol, plain b) (hone : f.oneFile = true) (s : Name) :
    s ∈ (readFile f include_ (.list (fol.map kf)) sec).read ↔ s ∈ f.names ∧ Folder fol s := by
  unfold readFile
  rw [(names_plain fol kf hf pf).1]
  have := read_exact [] fol f s
  have e : Incl.new.addAll [] 0 = Incl.new := rfl
  rw [e] at this
  simp only [this, hone, true_and, true_implies, Column, true_or]
  refine and_congr_right fun _ => ⟨?_, Or.inl⟩
  rintro (h | ⟨_, _, h⟩) <;> exact h

example : (readFile ⟨true, [[97, 47, 98], [99, 47, 98]]⟩ .absent (.list [.bytes [97, 47]]) .absent).read = [[97, 47, 98]] := by decide +kernel

/-- **C137 fails.** `sections` chooses nothing: what is read does not depend on it. -/
theorem sections_ignored (disk : Name → File) (files : List PyItem) (f : File) (include_ fol sec sec' : Arg) :
    (readMany disk files include_ fol sec).1 = (readMany disk files include_ fol sec').1 ∧
    (readFile f include_ fol sec).read = (readFile f include_ fol sec').read := ⟨rfl, rfl⟩

example : (readFile ⟨true, [[97, 47, 98]]⟩ .absent .absent (.list [.bytes [99]])).read = [[97, 47, 98]] := by decide +kernel

/-- **C137 fails.** What is not a name in the list of files is passed over without a word: the results are fewer than the files and no longer at their places. -/
theorem wrong_file_names_dropped :
    readMany (fun _ => ⟨false, [[97]]⟩) [.bytes [120], .other, .bytes [121]] .absent .absent .absent =
      ([([120], [[97]]), ([121], [[97]])], false) := by decide +kernel

/-- **C137 fails.** A name with a zero byte is cut there: the list with `a\0b` reads the column `a`. -/
theorem zero_byte_cuts_name :
    readMany (fun _ => ⟨false, [[97], [98]]⟩) [.bytes [120]] (.list [.bytes [97, 0, 98]]) .absent .absent = ([([120], [[97]])], false) := by
  decide +kernel

end Riptide.Sds.Include
