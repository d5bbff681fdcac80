import Verif.SdsResult.CallSpec
/-! # Lemmas about what reading hands over -/
namespace Riptide.SdsResult

theorem arrayInfo_cases (exc : Bool) (b : Blk) :
    (b.ndim < 0 ∧ arrayInfo exc b = some (none, true)) ∨ (5 < b.ndim ∧ arrayInfo exc b = none) ∨
    (b.Sound ∧ exc = true ∧ arrayInfo exc b = some (none, true)) ∨
    (b.Sound ∧ exc = false ∧ ∃ i, arrayInfo exc b = some (some i, false) ∧ b.shown i) := by
  unfold arrayInfo
  by_cases h1 : b.ndim < 0
  · exact Or.inl ⟨h1, by rw [if_pos h1]⟩
  · rw [if_neg h1]
    by_cases h2 : 5 < b.ndim
    · exact Or.inr (Or.inl ⟨h2, by rw [if_pos h2]⟩)
    · rw [if_neg h2]
      have hs : b.Sound := ⟨by omega, by omega⟩
      cases exc with
      | true => exact Or.inr (Or.inr (Or.inl ⟨hs, rfl, rfl⟩))
      | false =>
        refine Or.inr (Or.inr (Or.inr ⟨hs, rfl, _, rfl, rfl, rfl, rfl, ?_, ?_, ?_⟩))
        · intro h7 h8; simp [fixup, h7, h8]
        · intro h7; simp [fixup, h7]
        · intro h8; simp [fixup, h8]

theorem arrayInfos_cons (exc : Bool) (b : Blk) (bs : List Blk) {i : Option ArrInfo} {e : Bool} (h : arrayInfo exc b = some (i, e)) :
    arrayInfos exc (b :: bs) = (arrayInfos e bs).map fun r => (i :: r.1, r.2) := by
  rw [arrayInfos, h]
  simp only
  cases arrayInfos e bs <;> rfl

/-- The loop is undefined exactly if a block has too many dimensions. -/
theorem arrayInfos_none : ∀ (bs : List Blk) (exc : Bool), arrayInfos exc bs = none ↔ ∃ b ∈ bs, 5 < b.ndim
  | [], exc => by simp [arrayInfos]
  | b :: bs, exc => by
    rcases arrayInfo_cases exc b with ⟨h, he⟩ | ⟨h, he⟩ | ⟨h, _, he⟩ | ⟨h, _, i, he, _⟩
    · rw [arrayInfos_cons _ _ _ he, Option.map_eq_none_iff, arrayInfos_none bs]
      simp only [List.mem_cons, exists_eq_or_imp]
      exact ⟨Or.inr, fun g => g.elim (fun g => by omega) id⟩
    · simp [arrayInfos, he, h]
    · rw [arrayInfos_cons _ _ _ he, Option.map_eq_none_iff, arrayInfos_none bs]
      simp only [List.mem_cons, exists_eq_or_imp]
      exact ⟨Or.inr, fun g => g.elim (fun g => by have := h.2; omega) id⟩
    · rw [arrayInfos_cons _ _ _ he, Option.map_eq_none_iff, arrayInfos_none bs]
      simp only [List.mem_cons, exists_eq_or_imp]
      exact ⟨Or.inr, fun g => g.elim (fun g => by have := h.2; omega) id⟩

/-- An exception stays, and it is new only if a block has fewer than no dimensions. -/
theorem arrayInfos_exc : ∀ (bs : List Blk) (exc : Bool) (l : List (Option ArrInfo)) (e : Bool), arrayInfos exc bs = some (l, e) →
    (e = true ↔ exc = true ∨ ∃ b ∈ bs, b.ndim < 0)
  | [], exc, l, e, h => by simp [arrayInfos] at h; simp [h.2]
  | b :: bs, exc, l, e, h => by
    have step : ∀ i e', arrayInfo exc b = some (i, e') → (e = true ↔ e' = true ∨ ∃ b ∈ bs, b.ndim < 0) := by
      intro i e' he
      rw [arrayInfos_cons _ _ _ he] at h
      obtain ⟨⟨r, e2⟩, hr, h2⟩ := Option.map_eq_some_iff.1 h
      simp at h2
      rw [← h2.2]
      exact arrayInfos_exc bs e' r e2 hr
    rcases arrayInfo_cases exc b with ⟨hb, he⟩ | ⟨hb, he⟩ | ⟨hb, hx, he⟩ | ⟨hb, hx, i, he, _⟩
    · rw [step _ _ he]; simp [hb]
    · simp [arrayInfos, he] at h
    · rw [step _ _ he]; simp [hx]
    · rw [step _ _ he]
      have : ¬ b.ndim < 0 := by have := hb.1; omega
      simp [hx, this]

/-- Without an exception everything is shown. -/
theorem arrayInfos_shown : ∀ (bs : List Blk) (l : List (Option ArrInfo)) (exc : Bool), arrayInfos exc bs = some (l, false) →
    ∃ is : List ArrInfo, l = is.map some ∧ is.length = bs.length ∧ ∀ (k : Nat) b x, bs[k]? = some b → is[k]? = some x → b.shown x
  | [], l, exc, h => by
    simp [arrayInfos] at h
    exact ⟨[], by simp [h.1], rfl, fun k b x hb => by simp at hb⟩
  | b :: bs, l, exc, h => by
    have bad : ∀ i, arrayInfo exc b = some (i, true) → False := by
      intro i he
      rw [arrayInfos_cons _ _ _ he] at h
      obtain ⟨⟨r, e2⟩, hr, h2⟩ := Option.map_eq_some_iff.1 h
      simp at h2
      have := (arrayInfos_exc bs true r e2 hr).2 (Or.inl rfl)
      rw [this] at h2; simp at h2
    rcases arrayInfo_cases exc b with ⟨hb, he⟩ | ⟨hb, he⟩ | ⟨hb, hx, he⟩ | ⟨hb, hx, i, he, hi⟩
    · exact (bad _ he).elim
    · simp [arrayInfos, he] at h
    · exact (bad _ he).elim
    · rw [arrayInfos_cons _ _ _ he] at h
      obtain ⟨⟨r, e2⟩, hr, h2⟩ := Option.map_eq_some_iff.1 h
      simp at h2
      rw [h2.2] at hr
      obtain ⟨is, h3, h4, h5⟩ := arrayInfos_shown bs r false hr
      refine ⟨i :: is, by rw [← h2.1, h3]; rfl, by simp [h4], fun k b' x hb' hx' => ?_⟩
      cases k with
      | zero => simp at hb' hx'; rw [← hb', ← hx']; exact hi
      | succ k => simp at hb' hx'; exact h5 k b' x hb' hx'

/-- The ways through the dictionary. -/
theorem fileDict_cases (dec : List Nat → Option (List Nat)) (h : Header) (file : Option (List Nat)) (sec : Option Section) (exc : Bool) :
    (file = none ∧ fileDict dec h file sec exc = some (withLeaks (headerDict h) exc)) ∨
    (∃ n, file = some n ∧ dec n = none ∧ fileDict dec h file sec exc = none) ∨
    (∃ n t, file = some n ∧ dec n = some t ∧
      fileDict dec h file sec exc = some (withLeaks (headerDict h ++ ("Filename", .text t) :: sectionDict dec sec) (exc || badSection dec sec))) := by
  cases file with
  | none => exact Or.inl ⟨rfl, rfl⟩
  | some n =>
    right
    cases hd : dec n with
    | none => exact Or.inl ⟨n, rfl, hd, by simp [fileDict, hd]⟩
    | some t => exact Or.inr ⟨n, t, rfl, hd, by simp [fileDict, hd]⟩

/-- The keys of the header. -/
def headerKeys : List String :=
  ["VersionHigh", "VersionLow", "CompMode", "CompType", "CompLevel", "FileType", "StackType", "AuthorId", "TotalArrayCompressedSize", "TotalArrayUncompressedSize",
   "ArrayBlockSize", "ArrayBlockOffset", "ArraysWritten", "ArrayFirstOffset", "NameBlockSize", "NameBlockOffset", "NameBlockCount", "BandBlockSize", "BandBlockOffset",
   "BandBlockCount", "BandSize", "SectionBlockSize", "SectionBlockOffset", "SectionBlockCount", "SectionBlockReservedSize", "FileOffset", "TimeStampUTCNanos"]

theorem headerPairs_keys (h : Header) : (headerPairs h).map Prod.fst = headerKeys := rfl

theorem headerDict_keys (h : Header) : (headerDict h).map Prod.fst = headerKeys := rfl

theorem headerKeys_nodup : headerKeys.Nodup := by decide

theorem find_of_nodup {α : Type} : ∀ {l : List (String × α)} {k : String} {v : α}, (l.map Prod.fst).Nodup → (k, v) ∈ l →
    (l.find? fun p => p.1 = k) = some (k, v)
  | [], k, v, _, h => by simp at h
  | p :: l, k, v, hn, h => by
    simp only [List.map_cons, List.nodup_cons] at hn
    rcases List.mem_cons.1 h with rfl | h
    · simp
    · have hne : p.1 ≠ k := fun e => hn.1 (e ▸ List.mem_map.2 ⟨(k, v), h, rfl⟩)
      rw [List.find?_cons_of_neg (by simpa using hne)]
      exact find_of_nodup hn.2 h

theorem get_header {h : Header} {k : String} {n : Int} (hk : (k, n) ∈ headerPairs h) (rest : Dict) : Dict.get (headerDict h ++ rest) k = some (.int n) := by
  unfold Dict.get
  have hm : (k, Val.int n) ∈ headerDict h := List.mem_map.2 ⟨(k, n), hk, rfl⟩
  have hnd : ((headerDict h).map Prod.fst).Nodup := by rw [headerDict_keys]; exact headerKeys_nodup
  rw [List.find?_append, find_of_nodup hnd hm]
  rfl

theorem get_rest {h : Header} {k : String} (hk : k ∉ headerKeys) (rest : Dict) : Dict.get (headerDict h ++ rest) k = Dict.get rest k := by
  unfold Dict.get
  rw [List.find?_append]
  have : (headerDict h).find? (fun p => p.1 = k) = none := by
    rw [List.find?_eq_none]
    intro p hp
    have : p.1 ∈ headerKeys := by rw [← headerDict_keys h]; exact List.mem_map.2 ⟨p, hp, rfl⟩
    simp only [decide_eq_true_eq]
    exact fun e => hk (e ▸ this)
  rw [this]
  rfl

theorem badSection_iff (dec : List Nat → Option (List Nat)) (sec : Option Section) :
    badSection dec sec = true ↔ ∃ s, sec = some s ∧ ∃ n ∈ s.names, dec n = none := by
  cases sec with
  | none => simp [badSection]
  | some s => simp [badSection]

theorem map_some_of_all {dec : List Nat → Option (List Nat)} : ∀ {l : List (List Nat)}, (∀ m ∈ l, ∃ t, dec m = some t) → ∃ ts : List (List Nat), l.map dec = ts.map some
  | [], _ => ⟨[], rfl⟩
  | m :: l, h => by
    obtain ⟨t, ht⟩ := h m List.mem_cons_self
    obtain ⟨ts, hts⟩ := map_some_of_all fun x hx => h x (List.mem_cons_of_mem _ hx)
    exact ⟨t :: ts, by simp [ht, hts]⟩

theorem colsOf_none (exc : Bool) (f : Final) : colsOf exc f = none ↔ f.info = true ∧ ∃ b ∈ f.blocks, 5 < b.ndim := by
  unfold colsOf
  cases hi : f.info with
  | false => simp
  | true => simp only [if_true, Option.map_eq_none_iff, arrayInfos_none, true_and]

theorem colsOf_exc {exc : Bool} {f : Final} {c : Cols} {e : Bool} (h : colsOf exc f = some (c, e)) :
    e = true ↔ exc = true ∨ (f.info = true ∧ ∃ b ∈ f.blocks, b.ndim < 0) := by
  unfold colsOf at h
  cases hi : f.info with
  | false => simp [hi] at h; simp [h.2]
  | true =>
    rw [hi, if_pos rfl] at h
    obtain ⟨⟨r, e2⟩, hr, h2⟩ := Option.map_eq_some_iff.1 h
    simp at h2
    rw [← h2.2, arrayInfos_exc _ _ _ _ hr]
    simp

/-- A file is undefined exactly if its name is no text or more than five dimensions are to be shown. -/
theorem wrap_none (dec : List Nat → Option (List Nat)) (exc : Bool) (f : Final) :
    wrap dec exc f = none ↔ (∃ n, f.file = some n ∧ dec n = none) ∨ (f.info = true ∧ ∃ b ∈ f.blocks, 5 < b.ndim) := by
  unfold wrap
  cases hc : colsOf exc f with
  | none => simp only [true_iff]; exact Or.inr ((colsOf_none exc f).1 hc)
  | some r =>
    obtain ⟨c, e⟩ := r
    have hn : ¬ (f.info = true ∧ ∃ b ∈ f.blocks, 5 < b.ndim) := fun h => by rw [(colsOf_none exc f).2 h] at hc; cases hc
    simp only [hn, or_false]
    rcases fileDict_cases dec f.header f.file f.sections e with ⟨h1, h2⟩ | ⟨n, h1, h3, h2⟩ | ⟨n, t, h1, h3, h2⟩
    · rw [h2]; simp [h1]
    · rw [h2]; simp [h1, h3]
    · rw [h2]; simp [h1, h3]

/-- A file is a null pointer exactly if an exception is set then: one from before, a block with fewer than no dimensions or a section whose name is no text. -/
theorem wrap_exc {dec : List Nat → Option (List Nat)} {exc : Bool} {f : Final} {w : Wrapped} (h : wrap dec exc f = some w) :
    (w.item = none ↔ w.exc = true) ∧
    (w.exc = true ↔ exc = true ∨ (f.info = true ∧ ∃ b ∈ f.blocks, b.ndim < 0) ∨
      ((∃ n, f.file = some n) ∧ ∃ s, f.sections = some s ∧ ∃ n ∈ s.names, dec n = none)) := by
  unfold wrap at h
  cases hc : colsOf exc f with
  | none => rw [hc] at h; cases h
  | some r =>
    obtain ⟨c, e⟩ := r
    rw [hc] at h
    simp only at h
    have he := colsOf_exc hc
    rcases fileDict_cases dec f.header f.file f.sections e with ⟨h1, h2⟩ | ⟨n, h1, h3, h2⟩ | ⟨n, t, h1, h3, h2⟩
    · rw [h2] at h
      simp only [Option.some.injEq] at h
      subst h
      refine ⟨?_, ?_⟩
      · cases e <;> simp [withLeaks]
      · simp only [withLeaks, he, h1]; simp
    · rw [h2] at h; cases h
    · rw [h2] at h
      simp only [Option.some.injEq] at h
      subst h
      refine ⟨?_, ?_⟩
      · simp only [withLeaks]; cases (e || badSection dec f.sections) <;> simp
      · simp only [withLeaks, Bool.or_eq_true, he, badSection_iff, h1, Option.some.injEq, exists_eq', true_and, or_assoc]

/-- What is handed over of a file is what is to be handed over. -/
theorem wrap_shown {dec : List Nat → Option (List Nat)} {exc : Bool} {f : Final} {w : Wrapped} {i : FileInfo} (h : wrap dec exc f = some w) (hi : w.item = some i) :
    f.Shown dec i := by
  have hx : w.exc = false := by
    cases hw : w.exc with
    | false => rfl
    | true => rw [(wrap_exc h).1.2 hw] at hi; cases hi
  have hall : ¬ (exc = true ∨ (f.info = true ∧ ∃ b ∈ f.blocks, b.ndim < 0) ∨
      ((∃ n, f.file = some n) ∧ ∃ s, f.sections = some s ∧ ∃ n ∈ s.names, dec n = none)) := fun g => by
    rw [(wrap_exc h).2.2 g] at hx; cases hx
  unfold wrap at h
  cases hc : colsOf exc f with
  | none => rw [hc] at h; cases h
  | some r =>
    obtain ⟨c, e⟩ := r
    rw [hc] at h
    simp only at h
    have he : e = false := by
      cases hee : e with
      | false => rfl
      | true => exact absurd ((colsOf_exc hc).1 hee) fun g => hall (g.elim Or.inl fun g => Or.inr (Or.inl g))
    subst he
    have harr : f.info = false → c = .arrays f.arrays := by
      intro hf; simp [colsOf, hf] at hc; exact hc.1.symm
    have hinf : f.info = true → ∃ l : List ArrInfo, c = .infos (l.map some) ∧ l.length = f.blocks.length ∧
        ∀ (k : Nat) b x, f.blocks[k]? = some b → l[k]? = some x → b.shown x := by
      intro hf
      rw [colsOf, hf, if_pos rfl] at hc
      obtain ⟨⟨r, e2⟩, hr, h2⟩ := Option.map_eq_some_iff.1 hc
      simp at h2
      rw [h2.2] at hr
      obtain ⟨is, h3, h4, h5⟩ := arrayInfos_shown _ _ _ hr
      exact ⟨is, by rw [← h2.1, h3], h4, h5⟩
    have hmeta : metaBytes f.metadata = f.metadata.getD [123, 125] := by cases f.metadata <;> rfl
    rcases fileDict_cases dec f.header f.file f.sections false with ⟨h1, h2⟩ | ⟨n, h1, h3, h2⟩ | ⟨n, t, h1, h3, h2⟩
    · rw [h2] at h
      simp only [Option.some.injEq] at h
      subst h
      simp only [withLeaks, Bool.false_eq_true, if_false, Option.some.injEq] at hi
      subst hi
      refine ⟨hmeta, rfl, harr, hinf, fun k n hk => ?_, fun n t hn => ?_, fun n s hn => ?_⟩
      · have := get_header hk []
        rwa [List.append_nil] at this
      · rw [h1] at hn; cases hn
      · rw [h1] at hn; cases hn
    · rw [h2] at h; cases h
    · rw [h2] at h
      simp only [Option.some.injEq] at h
      subst h
      have hb : badSection dec f.sections = false := by
        cases hbb : badSection dec f.sections with
        | false => rfl
        | true => exact absurd ((badSection_iff _ _).1 hbb) fun g => hall (Or.inr (Or.inr ⟨⟨n, h1⟩, g⟩))
      simp only [withLeaks, hb, Bool.or_self, Bool.false_eq_true, if_false, Option.some.injEq] at hi
      subst hi
      refine ⟨hmeta, rfl, harr, hinf, fun k n hk => get_header hk _, fun n' t' hn' ht' => ?_, fun n' s hn' hs => ?_⟩
      · rw [h1] at hn'; cases hn'
        rw [h3] at ht'; cases ht'
        rw [get_rest (by decide)]
        rfl
      · rw [hs]
        refine ⟨by rw [get_rest (by decide)]; rfl, fun hne => ?_⟩
        have hdec : ∀ m ∈ s.names, ∃ t, dec m = some t := by
          intro m hm
          cases hd : dec m with
          | some t => exact ⟨t, rfl⟩
          | none => exact absurd (Or.inr (Or.inr ⟨⟨n, h1⟩, s, hs, m, hm, hd⟩)) hall
        obtain ⟨ts, hts⟩ := map_some_of_all hdec
        refine ⟨⟨ts, ?_, hts⟩, ?_⟩
        · rw [get_rest (by decide), sectionDict, sectionLists, if_neg hne, ← hts]; rfl
        · rw [get_rest (by decide), sectionDict, sectionLists, if_neg hne]; rfl

theorem wraps_cons {dec : List Nat → Option (List Nat)} {exc : Bool} {f : Final} {fs : List Final} {w : Wrapped} (h : wrap dec exc f = some w) :
    wraps dec exc (f :: fs) = (wraps dec w.exc fs).map fun r => (w.item :: r.1, r.2.1, w.leaks ++ r.2.2) := by
  rw [wraps, h]
  simp only
  cases wraps dec w.exc fs <;> rfl

end Riptide.SdsResult
