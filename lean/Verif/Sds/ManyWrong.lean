import Verif.Sds.ManyProps
/-! # Where reading, stacking and joining many files goes wrong -/
namespace Riptide.Sds.Many
open Spec
open Riptide.Sds.Include (Name PyItem Arg cString)
open Riptide.Sds.Save (asks)

variable {α : Type}

/-- A disk: `a` holds 1, `b` has the sections 2 and 3, `c` holds 4 with damaged metadata, `d` is damaged behind its header, `e` has a section which cannot be read, `j`
was joined and holds 8 and 9; all else is missing. -/
def disk : Name → Disk Nat
  | [97] => .file false 1 none []
  | [98] => .file false 2 none [.read 2 none, .read 3 none]
  | [99] => .file true 4 (some (bytes "meta")) []
  | [100] => .unread (some true) (bytes "block")
  | [101] => .file false 5 none [.read 5 none, .unread (bytes "part"), .read 7 none]
  | [106] => .file true 8 none [.read 8 none, .read 9 none]
  | _ => .missing (bytes "none")

/-- A world with this disk, in which all fits and files can be made. -/
def world : World Nat := ⟨disk, fun _ => true, fun _ => true⟩

/-- A list of names. -/
def items (l : List Name) : List PyItem := l.map .bytes

theorem items_named (l : List Name) (h : ∀ b ∈ l, Include.Spec.plain b) : Named (items l) l := ⟨.bytes, fun _ => .inl rfl, h, rfl⟩

theorem world_whole : Whole (world.disk [97]) [1] ∧ Whole (world.disk [98]) [2, 3] ∧ Whole (world.disk [106]) [8, 9] :=
  ⟨⟨false, 1, [], rfl, .inl ⟨by decide, rfl⟩⟩, ⟨false, 2, _, rfl, .inr ⟨by decide, rfl⟩⟩, ⟨true, 8, _, rfl, .inr ⟨by decide, rfl⟩⟩⟩

/-- The case of `read_all`. -/
example : (many world (some [120]) { kind := .read, files := items [[97], [98]], must := true } [[98], [97]]).out =
    .answer (.list false [some 1, some 2, some 3]) := by
  have h := world_whole
  rw [read_all world _ _ _ [[97], [98]] (fun f => if f = [97] then [1] else [2, 3]) rfl rfl (items_named _ (by simp [Include.Spec.plain])) (by decide)
    (List.Perm.swap _ _ _) (by
      intro f hf
      simp only [List.mem_cons, List.not_mem_nil, or_false] at hf
      rcases hf with rfl | rfl
      · exact h.1
      · exact h.2.1)]
  rfl

/-- The case of `missing_file_spoils`: a good file and a missing one. -/
example : (many world none { kind := .read, files := items [[97], [122]] } [[97], [122]]).out = .system :=
  missing_file_spoils world none _ _ [[97], [122]] rfl rfl (items_named _ (by simp [Include.Spec.plain])) (by decide) (.refl _)
    (by
      intro f hf
      simp only [List.mem_cons, List.not_mem_nil, or_false] at hf
      rcases hf with rfl | rfl
      · refine ⟨by decide, by simp, by simp⟩
      · exact ⟨by decide, by decide +kernel⟩)
    ⟨[122], by simp, by rintro ⟨l, s, x, ss, h, _⟩; simp [world, disk] at h⟩

/-- The cases of `read_iff`, `one_missing_raises`, `stack_raises`, `any_order_partial` and `any_history_partial`. -/
example : (many world none { kind := .read, files := items [[122]] } [[122]]).out = .error (openText [122] (bytes "none")) ∧
    (many world none { kind := .stack, files := items [[122], [100]] } [[122], [100]]).out = .error (noneText [122]) ∧
    (many { world with fits := fun _ => false } none { kind := .stack, files := items [[97], [122]] } [[122], [97]]).out = .error (fitText [97]) ∧
    (many world none { kind := .read, files := items [[97], [106]] } [[106], [97]]).out = .answer (.list false [some 1, some 8, some 9]) ∧
    (many world none { kind := .read, files := items [[97], [106]] } [[97], [106]]).out = .answer (.list false [some 1, some 8, some 9]) := by
  refine ⟨by decide +kernel, by decide +kernel, by decide +kernel, by decide +kernel, by decide +kernel⟩

/-- The case of `stack_partial`: what cannot be read is passed over. -/
example : (many world (some [120]) { kind := .stack, files := items [[122], [99], [101], [98], [100]] } [[98], [97]]).out =
    .answer (.table [4, 5, 7, 2, 3]) := by decide +kernel

/-- The case of `must_exist_raises`. -/
example : (many world none { kind := .stack, files := items [[121], [98], [122], [97]], must := true } []).out = .error (mustText 5 [122]) := by decide +kernel

/-- The case of `join_all`. -/
example : many world (some [120]) { kind := .join, files := items [[97], [98]], output := some (.str [111]) } [[98], [97]] = ⟨.none, none, some ([111], [1, 2])⟩ := by
  decide +kernel

/-- The case of `join_missing_raises`: the file is there, and so is an exception. -/
example : many world none { kind := .join, files := items [[97], [122], [98]], output := some (.str [111]) } [[98], [97], [122]] =
    ⟨.error (openText [122] (bytes "none")), some (openText [122] (bytes "none")), some ([111], [1, 2])⟩ := by decide +kernel

/-- The cases of `join_fails`. -/
example : many world none { kind := .join, files := items [[122]], output := some (.str [111]) } [[122]] = ⟨.error (joinNoneText [111]), some (joinNoneText [111]), none⟩ ∧
    many { world with creates := fun _ => false } none { kind := .join, files := items [[97], [122]], output := some (.str [111]) } [[122], [97]] =
      ⟨.error (joinOpenText [111]), some (joinOpenText [111]), none⟩ := by
  refine ⟨by decide +kernel, by decide +kernel⟩

/-- The case of `digits_value`. -/
example : digits 20 1234 = [49, 50, 51, 52] := by decide +kernel

/-- The cases of `either_first` and `either_raises`. -/
example : (many world none { kind := .either, files := items [[106], [97]], mode := 5 } [[106], [97]]).out = .answer (.table [8, 9, 1]) ∧
    (many world none { kind := .either, files := items [[97], [106]], mode := 5 } [[106], [97]]).out = .answer (.list false [some 1, some 8, some 9]) ∧
    (many world none { kind := .either, files := items [[122], [106]] } [[122], [106]]).out = .error (openText [122] (bytes "none")) := by
  refine ⟨by decide +kernel, by decide +kernel, by decide +kernel⟩

/-! ### Errors of other calls -/

/-- **C154 fails.** A list without files gives the error of an earlier call, and `None` when there was none. -/
theorem empty_list_stale (w : World α) (e : Option Text) (k : Kind) (hk : k ≠ .join) (order : List Name) :
    (many w e { kind := k, files := [] } order).out = match e with
      | none => .none
      | some m => if asks m then .undefined else .error m := by
  unfold many
  rw [if_neg hk]
  cases e with
  | none => simp [Arg.names, Arg.leavesError, finish, hk]
  | some m => simp [Arg.names, finish]

/-- So after a file which was missing an empty list raises the exception again and again, until a call names a file which is there. -/
theorem empty_list_history :
    (many world (history world none [.one [122] 3 false]) { kind := .read, files := [] } []).out = .error (openText [122] (bytes "none")) ∧
    (many world (history world none [.one [122] 3 false, .many { kind := .read, files := [] } []]) { kind := .stack, files := [] } []).out =
      .error (openText [122] (bytes "none")) ∧
    (many world (history world none [.one [122] 3 false, .one [97] 3 false]) { kind := .read, files := [] } []).out = .none ∧
    (many world (history world none [.saved (some (bytes "disk"))]) { kind := .read, files := [] } []).out = .error (bytes "disk") := by
  refine ⟨by decide +kernel, by decide +kernel, by decide +kernel, by decide +kernel⟩

/-- After any calls the last of which read a file which could be read whole, an empty list answers `None`. -/
theorem empty_list_after_good (w : World α) (h : List Call) (e : Option Text) (f : List Nat) (mode : Int) (s : Bool) (l : List α) (hw : Whole (w.disk (cString f)) l)
    (order : List Name) : (many w (history w e (h ++ [.one f mode s])) { kind := .read, files := [] } order).out = .none := by
  have hh : ∀ (h : List Call) (e : Option Text), history w e (h ++ [.one f mode s]) = none := by
    intro h
    induction h with
    | nil =>
      intro e
      obtain ⟨st, x, ss, hd, _⟩ := hw
      simp [history, one, opened, hd]
    | cons c h ih =>
      intro e
      cases c <;> exact ih _
  rw [hh, empty_list_stale w none .read (by decide)]

example : (many world (history world none [.one [122] 3 false, .one [98] 3 false]) { kind := .read, files := [] } []).out = .none :=
  empty_list_after_good world [.one [122] 3 false] none [98] 3 false [2, 3] world_whole.2.1 []

/-- **C154 fails.** The exception which joining raises depends on the order of the threads. -/
theorem join_order :
    (many world none { kind := .join, files := items [[97], [121], [122]], output := some (.str [111]) } [[97], [121], [122]]).out =
      .error (openText [122] (bytes "none")) ∧
    (many world none { kind := .join, files := items [[97], [121], [122]], output := some (.str [111]) } [[122], [121], [97]]).out =
      .error (openText [121] (bytes "none")) := by
  refine ⟨by decide +kernel, by decide +kernel⟩

/-! ### Damage -/

/-- **C154 fails.** A file whose metadata cannot be read: `DecompressFile` answers it without a word, `MultiDecompressFiles` of it raises an exception, of it and another
it is a `SystemError`, and `MultiStackFiles` answers it without a word. -/
theorem damaged_metadata :
    (one world [99] 3 false).out = .answer (.list false [some 4]) ∧
    (many world none { kind := .read, files := items [[99]] } [[99]]).out = .error (bytes "meta") ∧
    (many world none { kind := .read, files := items [[97], [99]] } [[97], [99]]).out = .system ∧
    (many world none { kind := .stack, files := items [[97], [99]], must := true } [[97], [99]]).out = .answer (.table [1, 4]) := by
  refine ⟨by decide +kernel, by decide +kernel, by decide +kernel, by decide +kernel⟩

/-- `DecompressFile` gives an answer exactly when the file can be opened, be its metadata damaged or not; of sections only what is at the start. -/
theorem one_answers (w : World α) (f : List Nat) (mode : Int) (a : Answer α) :
    (one w f mode false).out = .answer a ↔ ∃ s x t ss, w.disk (cString f) = .file s x t ss ∧ a = .list (decide (mode = 5)) [some x] := by
  unfold one opened
  cases h : w.disk (cString f) with
  | missing y =>
    simp only [reduceCtorEq, false_and, exists_false, iff_false]
    split <;> simp
  | unread s m =>
    simp only [reduceCtorEq, false_and, exists_false, iff_false]
    split <;> simp
  | file s x t ss =>
    simp only [Bool.false_eq_true, if_false, Outcome.answer.injEq, Disk.file.injEq]
    constructor
    · rintro rfl
      exact ⟨s, x, t, ss, ⟨rfl, rfl, rfl, rfl⟩, rfl⟩
    · rintro ⟨_, _, _, _, ⟨_, rfl, _⟩, rfl⟩
      rfl

example : (one world [98] 5 false).out = .answer (.list true [some 2]) := (one_answers world [98] 5 _).2 ⟨false, 2, none, _, rfl, rfl⟩

/-- **C154 fails.** A missing file whose name has `%s` in it: the text is taken for a format; and in a list of good files one such name is enough. -/
theorem percent_undefined : (one world [37, 115] 3 false).out = .undefined ∧
    (many world none { kind := .read, files := items [[97], [37, 115]] } [[97], [37, 115]]).out = .undefined ∧
    (many world none { kind := .stack, files := items [[97], [37, 115]], must := true } [[97], [37, 115]]).out = .undefined ∧
    (many world none { kind := .stack, files := items [[97], [37, 115]] } [[97], [37, 115]]).out = .answer (.table [1]) := by
  refine ⟨by decide +kernel, by decide +kernel, by decide +kernel, by decide +kernel⟩

/-! ### Modes -/

/-- **C154 fails.** `MultiStackFiles` asked for the infos stacks the data: its mode is not looked at. -/
theorem stack_ignores_mode (w : World α) (e : Option Text) (x : Args) (m : Int) (order : List Name) (hk : x.kind = .stack ∨ x.kind = .either ∨ x.kind = .join) :
    many w e { x with mode := m } order = many w e x order := by
  rcases hk with hk | hk | hk <;> simp [many, manyFiles, hk]

example : (many world none { kind := .stack, files := items [[97], [98]], mode := 5 } [[97], [98]]).out = .answer (.table [1, 2, 3]) := by decide +kernel

/-- **C154 fails.** The mode 0 reads the data of one file and the infos of many. -/
theorem mode_differs : (one world [97] 0 false).out = .answer (.list false [some 1]) ∧
    (many world none { kind := .read, files := items [[97]], mode := 0 } [[97]]).out = .answer (.list true [some 1]) := by
  refine ⟨by decide +kernel, by decide +kernel⟩

/-! ### Joining without a name -/

/-- **C154 fails.** Without `output=`, or with one which is no string, an exception is set and the joining goes on with a null pointer for a name; with no files it is a
`SystemError`; and a name which is not ASCII is undefined behaviour at once. -/
theorem join_without_name (w : World α) (e : Option Text) (x : Args) (order : List Name) (hk : x.kind = .join) (hm : x.must = false)
    (hn : (Arg.list x.files).names ≠ []) (ho : x.output = none ∨ (∃ b, x.output = some (.bytes b)) ∨ x.output = some .other) :
    (many w e x order).out = .undefined := by
  obtain ⟨f, l, hn⟩ := List.exists_cons_of_ne_nil hn
  have : outName x.output = some none := by
    rcases ho with h | ⟨b, h⟩ | h <;> rw [h] <;> rfl
  unfold many
  rw [if_pos hk, this]
  simp only [hn, manyFiles, hk, hm, joinMany]

theorem join_without_files (w : World α) (order : List Name) : (many w none { kind := .join, files := [] } order).out = .system ∧
    (many w none { kind := .join, files := [], output := some (.str [252]) } order).out = .undefined := by
  constructor <;> rfl

example : (many world none { kind := .join, files := items [[97]], output := some (.bytes [111]) } [[97]]).out = .undefined :=
  join_without_name _ _ _ _ rfl rfl (by decide) (.inr (.inl ⟨_, rfl⟩))

/-- **C154 fails.** The exception about files which must exist tells the last one which is missing, and counts sections for files. -/
theorem last_missing_told :
    (many world none { kind := .read, files := items [[98], [121], [122]], must := true } [[98], [121], [122]]).out = .error (mustText 4 [122]) := by decide +kernel

/-- **C154 fails.** Names which are no ASCII strings are passed over with an exception left behind: with the others of the list read, or with none, a `SystemError`. -/
theorem dropped_names : (many world none { kind := .stack, files := [.str [97], .str [252]] } [[97]]).out = .system ∧
    (many world none { kind := .read, files := [.str [252]] } []).out = .system ∧
    (many world none { kind := .read, files := [.bytes [97], .other] } [[97]]).out = .answer (.list false [some 1]) := by
  refine ⟨by decide +kernel, by decide +kernel, by decide +kernel⟩

end Riptide.Sds.Many
