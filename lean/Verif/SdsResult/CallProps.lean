import Verif.SdsResult.CallLemmas
/-! # What reading hands over: what is proved -/
namespace Riptide.SdsResult

/-! ### The dictionary -/

/-- Every entry of the header is found under its name; a time only while it is below `2 ^ 63`. -/
theorem header_fields_partial (dec : List Nat → Option (List Nat)) (h : Header) (file : Option (List Nat)) (sec : Option Section) (exc : Bool) (r : DictRes)
    (hr : fileDict dec h file sec exc = some r) :
    r.dict.get "VersionHigh" = some (.int h.versionHigh) ∧ r.dict.get "VersionLow" = some (.int h.versionLow) ∧
    r.dict.get "CompMode" = some (.int h.compMode) ∧ r.dict.get "CompType" = some (.int h.compType) ∧ r.dict.get "CompLevel" = some (.int h.compLevel) ∧
    r.dict.get "FileType" = some (.int h.fileType) ∧ r.dict.get "StackType" = some (.int h.stackType) ∧ r.dict.get "AuthorId" = some (.int h.authorId) ∧
    r.dict.get "TotalArrayCompressedSize" = some (.int h.totalArrayCompressedSize) ∧
    r.dict.get "TotalArrayUncompressedSize" = some (.int h.totalArrayUncompressedSize) ∧
    r.dict.get "ArrayBlockSize" = some (.int h.arrayBlockSize) ∧ r.dict.get "ArrayBlockOffset" = some (.int h.arrayBlockOffset) ∧
    r.dict.get "ArraysWritten" = some (.int h.arraysWritten) ∧ r.dict.get "ArrayFirstOffset" = some (.int h.arrayFirstOffset) ∧
    r.dict.get "NameBlockSize" = some (.int h.nameBlockSize) ∧ r.dict.get "NameBlockOffset" = some (.int h.nameBlockOffset) ∧
    r.dict.get "NameBlockCount" = some (.int h.nameBlockCount) ∧ r.dict.get "BandBlockSize" = some (.int h.bandBlockSize) ∧
    r.dict.get "BandBlockOffset" = some (.int h.bandBlockOffset) ∧ r.dict.get "BandBlockCount" = some (.int h.bandBlockCount) ∧
    r.dict.get "BandSize" = some (.int h.bandSize) ∧ r.dict.get "SectionBlockSize" = some (.int h.sectionBlockSize) ∧
    r.dict.get "SectionBlockOffset" = some (.int h.sectionBlockOffset) ∧ r.dict.get "SectionBlockCount" = some (.int h.sectionBlockCount) ∧
    r.dict.get "SectionBlockReservedSize" = some (.int h.sectionBlockReservedSize) ∧ r.dict.get "FileOffset" = some (.int h.fileOffset) ∧
    (h.timeStamp < 2 ^ 63 → r.dict.get "TimeStampUTCNanos" = some (.int h.timeStamp)) := by
  have key : ∃ rest, r.dict = headerDict h ++ rest := by
    rcases fileDict_cases dec h file sec exc with ⟨_, h2⟩ | ⟨n, _, _, h2⟩ | ⟨n, t, _, _, h2⟩
    · rw [h2] at hr; cases hr; exact ⟨[], by simp [withLeaks]⟩
    · rw [h2] at hr; cases hr
    · rw [h2] at hr; cases hr; exact ⟨_, rfl⟩
  obtain ⟨rest, hd⟩ := key
  rw [hd]
  refine ⟨rfl, rfl, rfl, rfl, rfl, rfl, rfl, rfl, rfl, rfl, rfl, rfl, rfl, rfl, rfl, rfl, rfl, rfl, rfl, rfl, rfl, rfl, rfl, rfl, rfl, rfl, fun ht => ?_⟩
  have : toI64 h.timeStamp = h.timeStamp := by rw [toI64, if_pos ht]
  exact (get_header (k := "TimeStampUTCNanos") (n := toI64 h.timeStamp) (by simp [headerPairs]) rest).trans (by rw [this])

/-- No key is there twice, so the order in which entries are put does not matter. -/
theorem dict_keys_once (dec : List Nat → Option (List Nat)) (h : Header) (file : Option (List Nat)) (sec : Option Section) (exc : Bool) (r : DictRes)
    (hr : fileDict dec h file sec exc = some r) : (r.dict.map Prod.fst).Nodup := by
  have all : (headerKeys ++ ["Filename", "SectionOffset", "Sections", "SectionOffsets"]).Nodup := by decide
  rcases fileDict_cases dec h file sec exc with ⟨_, h2⟩ | ⟨n, _, _, h2⟩ | ⟨n, t, _, _, h2⟩
  · rw [h2] at hr; cases hr; simp only [withLeaks, headerDict_keys]; exact headerKeys_nodup
  · rw [h2] at hr; cases hr
  · rw [h2] at hr; cases hr
    simp only [withLeaks, List.map_append, headerDict_keys, List.map_cons]
    have hsub : ∀ l : List String, l.Sublist ["Filename", "SectionOffset", "Sections", "SectionOffsets"] → (headerKeys ++ l).Nodup :=
      fun l hl => List.Nodup.sublist (List.Sublist.append (List.Sublist.refl _) hl) all
    apply hsub
    cases sec with
    | none => simp [sectionDict]
    | some s =>
      simp only [sectionDict, sectionLists, List.map_cons]
      by_cases hn : s.names = []
      · rw [if_pos hn]; simp
      · rw [if_neg hn]; simp

/-- The dictionary is undefined exactly if the name of the file is no text. -/
theorem dict_undefined_iff (dec : List Nat → Option (List Nat)) (h : Header) (file : Option (List Nat)) (sec : Option Section) (exc : Bool) :
    fileDict dec h file sec exc = none ↔ ∃ n, file = some n ∧ dec n = none := by
  rcases fileDict_cases dec h file sec exc with ⟨h1, h2⟩ | ⟨n, h1, h3, h2⟩ | ⟨n, t, h1, h3, h2⟩
  · rw [h2]; simp [h1]
  · rw [h2]; simp [h1, h3]
  · rw [h2]; simp [h1, h3]

/-- Every entry of a dictionary keeps a reference nobody gives back. -/
theorem dict_leaks (dec : List Nat → Option (List Nat)) (h : Header) (file : Option (List Nat)) (sec : Option Section) (exc : Bool) (r : DictRes)
    (hr : fileDict dec h file sec exc = some r) : r.leaks = r.dict.map Prod.fst := by
  rcases fileDict_cases dec h file sec exc with ⟨_, h2⟩ | ⟨n, _, _, h2⟩ | ⟨n, t, _, _, h2⟩
  · rw [h2] at hr; cases hr; rfl
  · rw [h2] at hr; cases hr
  · rw [h2] at hr; cases hr; rfl

/-! ### Files -/

theorem wraps_all {dec : List Nat → Option (List Nat)} : ∀ {fs : List Final} {exc : Bool} {l : List (Option FileInfo)} {e : Bool} {ls : List Leak},
    wraps dec exc fs = some (l, e, ls) →
    l.length = fs.length ∧ (e = true ↔ exc = true ∨ ∃ f ∈ fs, f.Fails dec) ∧
    (∀ (k : Nat) f, fs[k]? = some f → (l[k]? = some none ↔ exc = true ∨ ∃ (j : Nat) (g : Final), j ≤ k ∧ fs[j]? = some g ∧ g.Fails dec)) ∧
    (∀ (k : Nat) f i, fs[k]? = some f → l[k]? = some (some i) → f.Shown dec i) ∧ ls.length = (fs.map Final.entries).sum
  | [], exc, l, e, ls, h => by
    simp [wraps] at h
    obtain ⟨rfl, rfl, rfl⟩ := h
    simp
  | f :: fs, exc, l, e, ls, h => by
    cases hw : wrap dec exc f with
    | none => simp [wraps, hw] at h
    | some w =>
      rw [wraps_cons hw] at h
      obtain ⟨⟨l2, e2, ls2⟩, hr, h2⟩ := Option.map_eq_some_iff.1 h
      simp only [Prod.mk.injEq] at h2
      obtain ⟨rfl, rfl, rfl⟩ := h2
      obtain ⟨i1, i2, i3, i4, i5⟩ := wraps_all hr
      obtain ⟨x1, x2⟩ := wrap_exc hw
      have hx : w.exc = true ↔ exc = true ∨ f.Fails dec := x2
      refine ⟨by simp [i1], ?_, ?_, ?_, ?_⟩
      · rw [i2, hx]; simp only [List.mem_cons, exists_eq_or_imp, or_assoc]
      · intro k g hg
        cases k with
        | zero =>
          simp only [List.getElem?_cons_zero, Option.some.injEq, x1, hx, Nat.le_zero_eq]
          constructor
          · rintro (h | h)
            · exact Or.inl h
            · exact Or.inr ⟨0, f, rfl, rfl, h⟩
          · rintro (h | ⟨j, g', rfl, hj, h⟩)
            · exact Or.inl h
            · cases hj; exact Or.inr h
        | succ k =>
          simp only [List.getElem?_cons_succ] at hg ⊢
          rw [i3 k g hg, hx]
          constructor
          · rintro ((h | h) | ⟨j, g', h1, h2, h3⟩)
            · exact Or.inl h
            · exact Or.inr ⟨0, f, by omega, rfl, h⟩
            · exact Or.inr ⟨j + 1, g', by omega, h2, h3⟩
          · rintro (h | ⟨j, g', h1, h2, h3⟩)
            · exact Or.inl (Or.inl h)
            · cases j with
              | zero => cases h2; exact Or.inl (Or.inr h3)
              | succ j => exact Or.inr ⟨j, g', by omega, h2, h3⟩
      · intro k g i hg hi
        cases k with
        | zero =>
          simp only [List.getElem?_cons_zero, Option.some.injEq] at hg hi
          subst hg
          exact wrap_shown hw hi
        | succ k => exact i4 k g i hg hi
      · have hl : w.leaks.length = f.entries := by
          unfold wrap at hw
          cases hc : colsOf exc f with
          | none => rw [hc] at hw; cases hw
          | some r =>
            obtain ⟨c, e⟩ := r
            rw [hc] at hw
            simp only at hw
            rcases fileDict_cases dec f.header f.file f.sections e with ⟨h1, h2⟩ | ⟨n, h1, h3, h2⟩ | ⟨n, t, h1, h3, h2⟩
            · rw [h2] at hw; cases hw
              simp only [withLeaks, headerDict_keys, Final.entries, h1]; rfl
            · rw [h2] at hw; cases hw
            · rw [h2] at hw; cases hw
              simp only [withLeaks, List.map_append, headerDict_keys, Final.entries, h1]
              cases f.sections with
              | none => rfl
              | some s =>
                simp only [sectionDict, sectionLists]
                by_cases hn : s.names = []
                · simp only [if_pos hn]; rfl
                · simp only [if_neg hn]; rfl
        simp [hl, i5]

theorem wraps_none {dec : List Nat → Option (List Nat)} : ∀ (fs : List Final) (exc : Bool), wraps dec exc fs = none ↔ ∃ f ∈ fs, f.Breaks dec
  | [], exc => by simp [wraps]
  | f :: fs, exc => by
    have hb : wrap dec exc f = none ↔ f.Breaks dec := wrap_none dec exc f
    cases hw : wrap dec exc f with
    | none => simp [wraps, hw, hb.1 hw]
    | some w =>
      have : ¬ f.Breaks dec := fun g => by rw [hb.2 g] at hw; cases hw
      rw [wraps_cons hw, Option.map_eq_none_iff, wraps_none fs]
      simp [this]

/-- Without files the answer is `None`, and only then. -/
theorem read_none_iff (dec : List Nat → Option (List Nat)) (exc : Bool) (fs : List Final) : (readFinal dec exc fs).1 = .none ↔ fs = [] ∧ exc = false := by
  unfold readFinal
  by_cases hf : fs = []
  · rw [if_pos hf]; cases exc <;> simp [hf]
  · rw [if_neg hf]
    cases wraps dec exc fs with
    | none => simp [hf]
    | some r => obtain ⟨l, e, ls⟩ := r; cases e <;> simp [hf]

/-- Reading is undefined exactly if the name of a file is no text or an array is shown with more than five dimensions. -/
theorem read_undefined_iff (dec : List Nat → Option (List Nat)) (exc : Bool) (fs : List Final) :
    (readFinal dec exc fs).1 = .undefined ↔ ∃ f ∈ fs, f.Breaks dec := by
  rw [← wraps_none fs exc]
  unfold readFinal
  by_cases hf : fs = []
  · rw [if_pos hf]; subst hf; cases exc <;> simp [wraps]
  · rw [if_neg hf]
    cases wraps dec exc fs with
    | none => simp
    | some r => obtain ⟨l, e, ls⟩ := r; cases e <;> simp

/-- Reading succeeds exactly if there is a file, no exception was left behind before and nothing is wrong with any file. -/
theorem read_list_iff_partial (dec : List Nat → Option (List Nat)) (exc : Bool) (fs : List Final) :
    (∃ l, (readFinal dec exc fs).1 = .list l) ↔ fs ≠ [] ∧ exc = false ∧ ∀ f ∈ fs, ¬ f.Breaks dec ∧ ¬ f.Fails dec := by
  have hn := wraps_none (dec := dec) fs exc
  unfold readFinal
  by_cases hf : fs = []
  · rw [if_pos hf]; cases exc <;> simp [hf]
  · rw [if_neg hf]
    cases hw : wraps dec exc fs with
    | none =>
      obtain ⟨f, h1, h2⟩ := hn.1 hw
      simp only [reduceCtorEq, exists_false, false_iff]
      exact fun g => (g.2.2 f h1).1 h2
    | some r =>
      obtain ⟨l, e, ls⟩ := r
      have h2 := (wraps_all hw).2.1
      have h3 : ∀ f ∈ fs, ¬ f.Breaks dec := fun f h1 h2 => by rw [hn.2 ⟨f, h1, h2⟩] at hw; cases hw
      cases e with
      | true =>
        simp only [if_true, reduceCtorEq, exists_false, false_iff]
        rintro ⟨_, g1, g2⟩
        rcases h2.1 rfl with h | ⟨f, h4, h5⟩
        · rw [h] at g1; cases g1
        · exact (g2 f h4).2 h5
      | false =>
        simp only [Bool.false_eq_true, if_false, Reply.list.injEq, exists_eq', true_iff]
        refine ⟨hf, ?_, fun f h4 => ⟨h3 f h4, fun h5 => by simpa using h2.2 (Or.inr ⟨f, h4, h5⟩)⟩⟩
        cases exc with
        | false => rfl
        | true => simpa using h2.2 (Or.inl rfl)

/-- Then every file is handed over, in order and with everything in it. -/
theorem read_list (dec : List Nat → Option (List Nat)) (exc : Bool) (fs : List Final) (l : List (Option FileInfo)) (h : (readFinal dec exc fs).1 = .list l) :
    l.length = fs.length ∧ ∀ (k : Nat) f, fs[k]? = some f → ∃ i, l[k]? = some (some i) ∧ f.Shown dec i := by
  obtain ⟨hf, hx, hall⟩ := (read_list_iff_partial dec exc fs).1 ⟨l, h⟩
  unfold readFinal at h
  rw [if_neg hf] at h
  cases hw : wraps dec exc fs with
  | none => rw [hw] at h; cases h
  | some r =>
    obtain ⟨l', e, ls⟩ := r
    rw [hw] at h
    obtain ⟨i1, i2, i3, i4, _⟩ := wraps_all hw
    cases e with
    | true => simp at h
    | false =>
      simp at h
      subst h
      refine ⟨i1, fun k f hk => ?_⟩
      have hlt : k < l'.length := by rw [i1]; exact (List.getElem?_eq_some_iff.1 hk).1
      have hget : l'[k]? = some l'[k] := List.getElem?_eq_getElem hlt
      cases hv : l'[k] with
      | none =>
        rw [hv] at hget
        rcases (i3 k f hk).1 hget with h | ⟨j, g, _, h2, h3⟩
        · rw [h] at hx; cases hx
        · exact absurd h3 (hall g (List.mem_of_getElem? h2)).2
      | some i => rw [hv] at hget; exact ⟨i, hget, i4 k f i hk hget⟩

/-- With an exception set the list goes back beside it: the files before the first which fails are in it, this one and all after it are null pointers. -/
theorem read_both (dec : List Nat → Option (List Nat)) (exc : Bool) (fs : List Final) (l : List (Option FileInfo)) (h : (readFinal dec exc fs).1 = .both l) :
    l.length = fs.length ∧ (exc = true ∨ ∃ f ∈ fs, f.Fails dec) ∧
    (∀ (k : Nat) f, fs[k]? = some f → (l[k]? = some none ↔ exc = true ∨ ∃ (j : Nat) (g : Final), j ≤ k ∧ fs[j]? = some g ∧ g.Fails dec)) ∧
    (∀ (k : Nat) f i, fs[k]? = some f → l[k]? = some (some i) → f.Shown dec i) := by
  unfold readFinal at h
  by_cases hf : fs = []
  · rw [if_pos hf] at h; cases exc <;> cases h
  · rw [if_neg hf] at h
    cases hw : wraps dec exc fs with
    | none => rw [hw] at h; cases h
    | some r =>
      obtain ⟨l', e, ls⟩ := r
      rw [hw] at h
      obtain ⟨i1, i2, i3, i4, _⟩ := wraps_all hw
      cases e with
      | false => simp at h
      | true => simp at h; subst h; exact ⟨i1, i2.1 rfl, i3, i4⟩

/-- Every call but the undefined ones leaves behind a reference for every entry of every dictionary. -/
theorem read_leaks (dec : List Nat → Option (List Nat)) (exc : Bool) (fs : List Final) (h : ∀ f ∈ fs, ¬ f.Breaks dec) :
    (readFinal dec exc fs).2.length = (fs.map Final.entries).sum := by
  unfold readFinal
  by_cases hf : fs = []
  · rw [if_pos hf]; simp [hf]
  · rw [if_neg hf]
    cases hw : wraps dec exc fs with
    | none => obtain ⟨f, h1, h2⟩ := (wraps_none fs exc).1 hw; exact absurd h2 (h f h1)
    | some r => obtain ⟨l', e, ls⟩ := r; exact (wraps_all hw).2.2.2.2

/-! ### Stacks -/

theorem columns_all (enough : Bool) (files : Nat) : ∀ (cs : List Column) (exc : Bool),
    ((columns enough files exc cs).2 = true ↔ exc = true ∨ (enough = false ∧ cs ≠ [])) ∧
    ((columns enough files exc cs).2 = false →
      (columns enough files exc cs).1 = cs.map fun c => ⟨some (c.name, (c.enum % 256).toNat), if enough then some ((c.offsets.drop 1).take files) else none, false⟩)
  | [], exc => by simp [columns]
  | c :: cs, exc => by
    obtain ⟨h1, h2⟩ := columns_all enough files cs (exc || !enough)
    have h0 : (columns enough files exc (c :: cs)).2 = (columns enough files (exc || !enough) cs).2 := rfl
    rw [h0]
    refine ⟨?_, fun h => ?_⟩
    · rw [h1]
      cases exc <;> cases enough <;> simp
    · have hx : ¬ ((exc || !enough) = true ∨ (enough = false ∧ cs ≠ [])) := fun g => by rw [h1.2 g] at h; cases h
      have : exc = false ∧ enough = true := by
        cases exc <;> cases enough <;> simp_all
      obtain ⟨rfl, rfl⟩ := this
      have := h2 h
      simp only [columns, column, List.map_cons]
      simp only [Bool.not_true, Bool.or_self, if_true] at this ⊢
      rw [this]
      rfl

/-- A stack without columns is `None`, and only this. -/
theorem stack_none_iff (enough exc : Bool) (cs : List Column) (fs : List SFile) : (readStack enough exc cs fs).1 = .none ↔ cs = [] ∧ exc = false := by
  unfold readStack
  by_cases hc : cs = []
  · rw [if_pos hc]; cases exc <;> simp [hc]
  · rw [if_neg hc]
    simp only
    split <;> simp [hc]

/-- A stack with columns raises exactly if an exception was left behind or there is no memory for the offsets. -/
theorem stack_raised_iff (enough exc : Bool) (cs : List Column) (fs : List SFile) :
    (readStack enough exc cs fs).1 = .raised ↔ cs ≠ [] ∧ (exc = true ∨ enough = false) := by
  unfold readStack
  by_cases hc : cs = []
  · rw [if_pos hc]; cases exc <;> simp [hc]
  · rw [if_neg hc]
    simp only
    have h1 := (columns_all enough fs.length cs exc).1
    simp only [ne_eq, hc, not_false_eq_true, and_true, true_and] at h1 ⊢
    cases hb : (columns enough fs.length exc cs).2 with
    | true => simpa [hb] using h1
    | false => rw [hb] at h1; simpa using h1

/-- What a stack hands over: all columns in order, with the ends of the files in each, and all files; the header is that of the first file. -/
theorem stack_value (enough exc : Bool) (cs : List Column) (fs : List SFile) (c : Cutoffs) (h : (readStack enough exc cs fs).1 = .value c) :
    c.arrays = cs.map Column.arr ∧ c.metadata = fs.map SFile.metadata ∧ c.files = fs.map SFile.name ∧
    c.names.length = cs.length ∧ c.cutoffs.length = cs.length ∧
    (∀ (k : Nat) x, cs[k]? = some x → c.names[k]? = some (some (x.name, (x.enum % 256).toNat))) ∧
    (∀ (k : Nat) x, cs[k]? = some x → 0 ≤ x.enum → x.enum < 256 → ∃ n, c.names[k]? = some (some (x.name, n)) ∧ (n : Int) = x.enum) ∧
    (∀ (k : Nat) x, cs[k]? = some x → ∃ t, c.cutoffs[k]? = some (some t) ∧ ∀ j : Nat, j < fs.length → t[j]? = x.offsets[j + 1]?) ∧
    (fs = [] → c.header = none) ∧
    (∀ f, fs.head? = some f → ∃ d, c.header = some d ∧ ∀ k n, (k, n) ∈ headerPairs f.header → d.get k = some (.int n)) := by
  unfold readStack at h
  by_cases hc : cs = []
  · rw [if_pos hc] at h; cases exc <;> cases h
  · rw [if_neg hc] at h
    simp only at h
    obtain ⟨h1, h2⟩ := columns_all enough fs.length cs exc
    cases hb : (columns enough fs.length exc cs).2 with
    | true => simp [hb] at h
    | false =>
      have hen : enough = true := by
        cases enough with
        | true => rfl
        | false => rw [h1.2 (Or.inr ⟨rfl, hc⟩)] at hb; cases hb
      subst hen
      have h3 := h2 hb
      simp only [hb, Bool.false_eq_true, if_false, StackReply.value.injEq] at h
      subst h
      simp only [h3, List.length_map, List.getElem?_map, true_and]
      refine ⟨?_, ?_, ?_, ?_, ?_⟩
      · intro k x hx; simp [hx]
      · intro k x hx h0 h256
        refine ⟨(x.enum % 256).toNat, by simp [hx], by omega⟩
      · intro k x hx
        refine ⟨(x.offsets.drop 1).take fs.length, by simp [hx], fun j hj => ?_⟩
        rw [List.getElem?_take_of_lt hj, List.getElem?_drop, Nat.add_comm]
      · intro hf; simp [firstHeader, hf]
      · intro f hf
        cases fs with
        | nil => simp at hf
        | cons g gs =>
          simp at hf; subst hf
          refine ⟨_, rfl, fun k n hk => ?_⟩
          have := get_header hk []
          rwa [List.append_nil] at this

/-- A stack leaves behind the 27 numbers of the header. -/
theorem stack_leaks (enough exc : Bool) (cs : List Column) (fs : List SFile) :
    (readStack enough exc cs fs).2.length = if cs = [] ∨ fs = [] then 0 else 27 := by
  unfold readStack
  by_cases hc : cs = []
  · simp [hc]
  · rw [if_neg hc]
    simp only
    have : (List.map Prod.fst ((firstHeader fs).getD [])).length = if cs = [] ∨ fs = [] then 0 else 27 := by
      cases fs with
      | nil => simp [firstHeader]
      | cons f fs => simp only [firstHeader, hc, Option.getD_some, headerDict_keys]; simp; rfl
    split <;> exact this

/-! ### Cases -/

/-- Every text is itself, but one with the byte 255 is none. -/
def exDec (l : List Nat) : Option (List Nat) := if 255 ∈ l then none else some l

def exHeader : Header := ⟨1, 2, 3, 4, 5, 6, 7, 8, 9, 10, 11, 12, 13, 14, 15, 16, 17, 18, 19, 20, 21, 22, 23, 24, 25, 26, 27⟩

def exFile : Final := ⟨exHeader, true, [⟨2, [3, 4, 0, 0, 0], 7, 1, 8⟩, ⟨1, [9, 0, 0, 0, 0], 8, 1, 4⟩], [], some [7], [([65], 1), ([66], 1)], some ⟨[[67]], [512], 99⟩, some [68]⟩

def exRead : Final := ⟨exHeader, false, [], [some 1, none], none, [([65], 1), ([66], 1)], none, some [68]⟩

example : ∃ d, (readFinal exDec false [exFile]).1 = .list [some ⟨[7], .infos [some ⟨[3, 4], 9, 1, 8⟩, some ⟨[9], 6, 1, 4⟩], [([65], 1), ([66], 1)], d⟩] ∧
    d.get "Sections" = some (.texts [some [67]]) ∧ d.get "SectionOffsets" = some (.ints [512]) ∧ d.get "SectionOffset" = some (.int 99) ∧
    d.get "Filename" = some (.text [68]) ∧ d.get "BandSize" = some (.int 21) ∧ d.get "TimeStampUTCNanos" = some (.int 27) := ⟨_, rfl, rfl, rfl, rfl, rfl, rfl, rfl⟩

example : ∃ d, (readFinal exDec false [exRead]).1 = .list [some ⟨[123, 125], .arrays [some 1, none], [([65], 1), ([66], 1)], d⟩] := ⟨_, rfl⟩

example : (readFinal exDec false [exFile, exRead]).2.length = 31 + 28 := by decide

example : (readFinal exDec false []).1 = .none := rfl

example : ∃ d, (readStack true false [⟨some 1, [65], 1, [0, 3, 5]⟩, ⟨none, [66], 2, [0, 4, 9]⟩] [⟨[70], [123, 125], exHeader⟩, ⟨[71], [], exHeader⟩]).1 =
    .value ⟨[some 1, none], [some ([65], 1), some ([66], 2)], [some [3, 5], some [4, 9]], [[123, 125], []], [[70], [71]], d⟩ := ⟨_, rfl⟩

example : (readStack false false [⟨some 1, [65], 1, [0, 3]⟩] [⟨[70], [], exHeader⟩]).1 = .raised := rfl

end Riptide.SdsResult
