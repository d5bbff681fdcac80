import Verif.Sds.ManySpec
import Verif.Sds.IncludeProps
/-! # Lemmas on reading many files -/
namespace Riptide.Sds.Many
open Spec
open Riptide.Sds.Include (Name PyItem Arg cString)
open Riptide.Sds.Save (asks)

variable {α : Type}

/-- Without a percent sign nothing is asked for. -/
theorem asks_none : ∀ t : Text, 37 ∉ t → asks t = false
  | [], _ => by simp [asks]
  | c :: l, h => by
    have hc : c ≠ 37 := fun e => h (by simp [e])
    have ih := asks_none l (fun hm => h (by simp [hm]))
    have : asks (c :: l) = asks l := by
      rw [asks]
      all_goals grind
    rw [this, ih]

theorem keep_none {t : Text} (h : 37 ∉ t) : 37 ∉ keep t := fun hm => h (List.mem_of_mem_take hm)

theorem digits_none : ∀ k n, 37 ∉ digits k n
  | 0, _ => by simp [digits]
  | k + 1, n => by
    have := digits_none k (n / 10)
    unfold digits
    split
    · simp; omega
    · simp only [List.mem_append, List.mem_singleton, not_or]
      exact ⟨this, by omega⟩

theorem openText_none {f why : Text} (hf : 37 ∉ f) (hw : 37 ∉ why) : 37 ∉ openText f why := by
  refine keep_none ?_
  simp only [List.mem_append, not_or]
  exact ⟨⟨⟨by decide +kernel, hf⟩, by decide +kernel⟩, hw⟩

theorem mustText_none {f : Text} (n : Nat) (hf : 37 ∉ f) : 37 ∉ mustText n f := by
  refine keep_none ?_
  simp only [List.mem_append, not_or]
  exact ⟨⟨⟨⟨by decide +kernel, digits_none _ _⟩, by decide +kernel⟩, hf⟩, by decide +kernel⟩

theorem noneText_none {f : Text} (hf : 37 ∉ f) : 37 ∉ noneText f := by
  refine keep_none ?_
  simp only [List.mem_append, not_or]
  exact ⟨⟨by decide +kernel, hf⟩, by decide +kernel⟩

theorem fitText_none {f : Text} (hf : 37 ∉ f) : 37 ∉ fitText f := by
  refine keep_none ?_
  simp only [List.mem_append, not_or]
  exact ⟨⟨by decide +kernel, hf⟩, by decide +kernel⟩

theorem joinNoneText_none {f : Text} (hf : 37 ∉ f) : 37 ∉ joinNoneText f := by
  refine keep_none ?_
  simp only [List.mem_append, not_or]
  exact ⟨⟨by decide +kernel, hf⟩, by decide +kernel⟩

theorem joinOpenText_none {f : Text} (hf : 37 ∉ f) : 37 ∉ joinOpenText f := by
  refine keep_none ?_
  simp only [List.mem_append, not_or]
  exact ⟨⟨by decide +kernel, hf⟩, by decide +kernel⟩

/-- Errors are none exactly when there were none and nothing says one. -/
theorem fold_none : ∀ (l : List (Part α)) (e : Option Text), l.foldl after e = none ↔ e = none ∧ ∀ p ∈ l, p.said = none
  | [], e => by simp
  | p :: l, e => by
    rw [List.foldl_cons, fold_none l]
    unfold after
    cases h : p.said <;> simp [h]

/-- The error which is left is one which was there or one which is said. -/
theorem fold_some : ∀ (l : List (Part α)) (e : Option Text) (m : Text), l.foldl after e = some m → e = some m ∨ ∃ p ∈ l, p.said = some m
  | [], e, m, h => .inl (by simpa using h)
  | p :: l, e, m, h => by
    rw [List.foldl_cons] at h
    rcases fold_some l _ m h with h1 | ⟨q, hq, h1⟩
    · unfold after at h1
      cases hp : p.said with
      | none => rw [hp] at h1; exact .inl h1
      | some s => rw [hp] at h1; exact .inr ⟨p, by simp, by rw [hp]; exact h1⟩
    · exact .inr ⟨q, by simp [hq], h1⟩

theorem partsOf_ne (w : World α) (f : Name) : 1 ≤ (partsOf w f).length := by
  unfold partsOf
  split
  · split
    · simp; omega
    · simp
  · simp

theorem partsOf_one (w : World α) (f : Name) (h : (partsOf w f).length = 1) : partsOf w f = [(f, opened w f)] := by
  cases hd : w.disk f with
  | missing why => simp [partsOf, hd]
  | unread s m => simp [partsOf, hd]
  | file s x t ss =>
    by_cases hl : 1 < ss.length
    · have : (partsOf w f).length = ss.length := by simp [partsOf, hd, hl]
      omega
    · simp [partsOf, hd, hl, opened]

theorem flat_length (w : World α) : ∀ ns : List Name, ns.length ≤ (ns.flatMap (partsOf w)).length
  | [] => by simp
  | f :: l => by
    have := flat_length w l
    have := partsOf_ne w f
    simp only [List.flatMap_cons, List.length_append, List.length_cons]
    omega

theorem flat_one (w : World α) : ∀ ns : List Name, (ns.flatMap (partsOf w)).length ≤ ns.length →
    ns.flatMap (partsOf w) = ns.map fun f => (f, opened w f)
  | [], _ => by simp
  | f :: l, h => by
    have h1 := flat_length w l
    have h2 := partsOf_ne w f
    simp only [List.flatMap_cons, List.length_append, List.length_cons] at h
    rw [List.flatMap_cons, List.map_cons, flat_one w l (by omega), partsOf_one w f (by omega)]
    rfl

/-- The parts are those of the files, whether they are opened again or not. -/
theorem scan_parts (w : World α) (ns : List Name) (e : Option Text) : (scan w ns e).1 = ns.flatMap (partsOf w) := by
  unfold scan
  simp only
  split
  · rfl
  · next h => exact (flat_one w ns (by omega)).symm

/-- Nothing is said in the end exactly when nothing was said and nothing is by the parts. -/
theorem scan_quiet (w : World α) (ns order : List Name) (ho : order.Perm ns) :
    (scan w ns (openAll w order)).2 = none ↔ (∀ f ∈ ns, (opened w f).said = none) ∧ ∀ p ∈ ns.flatMap (partsOf w), p.2.said = none := by
  have h1 : openAll w order = none ↔ ∀ f ∈ ns, (opened w f).said = none := by
    unfold openAll
    rw [fold_none]
    simp only [true_and, List.mem_map]
    constructor
    · intro h f hf
      exact h _ ⟨f, ho.mem_iff.2 hf, rfl⟩
    · rintro h p ⟨f, hf, rfl⟩
      exact h f (ho.mem_iff.1 hf)
  unfold scan
  simp only
  split
  · simp only [fold_none, h1]
    refine and_congr_right fun _ => ⟨fun h p hp => h _ (List.mem_map.2 ⟨p, hp, rfl⟩), ?_⟩
    rintro h p hp
    obtain ⟨q, hq, rfl⟩ := List.mem_map.1 hp
    exact h q hq
  · next h =>
    simp only [h1]
    refine ⟨fun h2 => ⟨h2, ?_⟩, fun h2 => h2.1⟩
    rw [flat_one w ns (by omega)]
    simp only [List.mem_map]
    rintro p ⟨f, hf, rfl⟩
    exact h2 f hf

/-- What is said in the end was said by a file or a part. -/
theorem scan_said (w : World α) (ns order : List Name) (ho : order.Perm ns) (m : Text) (h : (scan w ns (openAll w order)).2 = some m) :
    (∃ f ∈ ns, (opened w f).said = some m) ∨ ∃ p ∈ ns.flatMap (partsOf w), p.2.said = some m := by
  have h1 : openAll w order = some m → ∃ f ∈ ns, (opened w f).said = some m := by
    intro h1
    rcases fold_some _ _ m h1 with h2 | ⟨p, hp, h2⟩
    · cases h2
    · obtain ⟨f, hf, rfl⟩ := List.mem_map.1 hp
      exact ⟨f, ho.mem_iff.1 hf, h2⟩
  unfold scan at h
  simp only at h
  split at h
  · rcases fold_some _ _ m h with h2 | ⟨p, hp, h2⟩
    · exact .inl (h1 h2)
    · obtain ⟨q, hq, rfl⟩ := List.mem_map.1 hp
      exact .inr ⟨q, hq, h2⟩
  · exact .inl (h1 h)

/-- A file which can be read whole says nothing, and its parts are what it holds. -/
theorem whole_parts (w : World α) (f : Name) (l : List α) (h : Whole (w.disk f) l) :
    partsOf w f = l.map (fun y => (f, .read y none)) ∧ (opened w f).said = none := by
  obtain ⟨s, x, ss, hd, h | h⟩ := h
  · obtain ⟨h1, rfl⟩ := h
    have : ¬ 1 < ss.length := by omega
    simp [partsOf, opened, hd, this, Part.said]
  · obtain ⟨h1, rfl⟩ := h
    simp only [List.length_map] at h1
    simp [partsOf, opened, hd, h1, Part.said, Function.comp_def]

/-- A file which says nothing can be read whole. -/
theorem whole_of_quiet (w : World α) (f : Name) (h1 : (opened w f).said = none) (h2 : ∀ p ∈ partsOf w f, p.2.said = none) :
    ∃ l, Whole (w.disk f) l := by
  cases hd : w.disk f with
  | missing why => simp [opened, hd, Part.said] at h1
  | unread s m => simp [opened, hd, Part.said] at h1
  | file s x t ss =>
    simp only [opened, hd, Part.said] at h1
    subst h1
    by_cases hl : 1 < ss.length
    · simp only [partsOf, hd, hl, if_true, List.mem_map, forall_exists_index, and_imp, forall_apply_eq_imp_iff₂] at h2
      refine ⟨ss.filterMap Part.valid, s, x, ss, rfl, .inr ⟨hl, ?_⟩⟩
      clear hd hl
      induction ss with
      | nil => rfl
      | cons p l ih =>
        have hp := h2 p (by simp)
        have hl := ih (fun q hq => h2 q (by simp [hq]))
        cases p with
        | unread m => simp [Part.said] at hp
        | read y t =>
          simp only [Part.said] at hp
          subst hp
          rw [List.filterMap_cons]
          simp only [Part.valid, List.map_cons]
          rw [← hl]
    · exact ⟨[x], s, x, ss, rfl, .inl ⟨by omega, rfl⟩⟩

/-- What can be read of a file is what its valid parts are. -/
theorem holds_parts (w : World α) (f : Name) (l : List α) (h : Holds (w.disk f) l) : valids (partsOf w f) = l := by
  cases hd : w.disk f with
  | missing why => rw [hd] at h; cases h; simp [valids, partsOf, opened, hd, Part.valid]
  | unread s m => rw [hd] at h; cases h; simp [valids, partsOf, opened, hd, Part.valid]
  | file s x t ss =>
    rw [hd] at h
    cases h with
    | file _ _ _ _ hl =>
      have : ¬ 1 < ss.length := by omega
      simp [valids, partsOf, hd, this, Part.valid]
    | parts _ _ _ _ hl =>
      simp only [valids, partsOf, hd, hl, if_true, List.filterMap_map]
      congr 1
      funext p
      cases p <;> rfl

theorem valids_flat (w : World α) (c : Name → List α) : ∀ ns : List Name, (∀ f ∈ ns, Holds (w.disk f) (c f)) →
    valids (ns.flatMap (partsOf w)) = ns.flatMap c
  | [], _ => by simp [valids]
  | f :: l, h => by
    have h1 := valids_flat w c l (fun g hg => h g (by simp [hg]))
    have h2 := holds_parts w f (c f) (h f (by simp))
    unfold valids at h1 h2 ⊢
    rw [List.flatMap_cons, List.filterMap_append, h1, h2, List.flatMap_cons]

/-- A missing file is told exactly when a part is not valid. -/
theorem lastMissing_none : ∀ l : List (Name × Part α), lastMissing l = none ↔ ∀ p ∈ l, p.2.valid ≠ none
  | [] => by simp [lastMissing]
  | (f, p) :: l => by
    have ih := lastMissing_none l
    unfold lastMissing
    cases h : lastMissing l with
    | none =>
      rw [h] at ih
      have ih := ih.1 rfl
      cases hp : p.valid with
      | none => simp [hp]
      | some y =>
        simp only [Option.isNone_some, Bool.false_eq_true, if_false, List.mem_cons, forall_eq_or_imp, hp, true_iff]
        exact ⟨by simp, ih⟩
    | some g =>
      rw [h] at ih
      simp only [List.mem_cons, forall_eq_or_imp]
      constructor
      · intro e; cases e
      · rintro ⟨_, h2⟩
        exact ih.2 h2

/-- The file which is told is the last one with a part which is not valid. -/
theorem lastMissing_last : ∀ (a b : List (Name × Part α)) (f : Name) (p : Part α), p.valid = none → (∀ q ∈ b, q.2.valid ≠ none) →
    lastMissing (a ++ (f, p) :: b) = some f
  | [], b, f, p, hp, hb => by
    simp [lastMissing, (lastMissing_none b).2 hb, hp]
  | q :: a, b, f, p, hp, hb => by
    simp [lastMissing, lastMissing_last a b f p hp hb]

theorem lastMissing_mem : ∀ (l : List (Name × Part α)) (f : Name), lastMissing l = some f → f ∈ l.map (·.1)
  | [], f, h => by simp [lastMissing] at h
  | (g, p) :: l, f, h => by
    unfold lastMissing at h
    cases h1 : lastMissing l with
    | some k =>
      rw [h1] at h
      cases h
      exact List.mem_cons_of_mem _ (lastMissing_mem l _ h1)
    | none =>
      rw [h1] at h
      simp only at h
      split at h
      · cases h; simp
      · cases h

/-- A file fails exactly when one of its parts is not valid. -/
theorem fails_parts (w : World α) (f : Name) : Fails (w.disk f) ↔ ∃ p ∈ partsOf w f, p.2.valid = none := by
  cases hd : w.disk f with
  | missing why => simpa [partsOf, opened, hd, Part.valid] using Fails.missing why
  | unread s m => simpa [partsOf, opened, hd, Part.valid] using Fails.unread s m
  | file s x t ss =>
    by_cases hl : 1 < ss.length
    · simp only [partsOf, hd, hl, if_true, List.mem_map]
      constructor
      · intro h
        cases h with
        | parts _ _ _ _ m _ hm => exact ⟨(f, .unread m), ⟨_, hm, rfl⟩, rfl⟩
      · rintro ⟨_, ⟨p, hp, rfl⟩, hv⟩
        cases p with
        | unread m => exact .parts _ _ _ _ m hl hp
        | read y t => simp [Part.valid] at hv
    · simp only [partsOf, hd, hl, if_false, List.mem_singleton, exists_eq_left, Part.valid]
      constructor
      · intro h
        cases h with
        | parts _ _ _ _ m h' hm => exact absurd h' hl
      · intro h; cases h

theorem partsOf_name (w : World α) (f : Name) : ∀ p ∈ partsOf w f, p.1 = f := by
  intro p hp
  unfold partsOf at hp
  split at hp
  · split at hp
    · obtain ⟨q, _, rfl⟩ := List.mem_map.1 hp
      rfl
    · rw [List.mem_singleton.1 hp]
  · rw [List.mem_singleton.1 hp]

/-- Nothing which harmless files say has a percent sign. -/
theorem harmless_said (w : World α) (f : Name) (h : Harmless f (w.disk f)) :
    37 ∉ f ∧ (∀ m ∈ (opened w f).said, 37 ∉ m) ∧ ∀ p ∈ partsOf w f, ∀ m ∈ p.2.said, 37 ∉ m := by
  cases hd : w.disk f with
  | missing why =>
    rw [hd] at h
    have := openText_none h.1 h.2
    refine ⟨h.1, by simpa [opened, hd, Part.said] using this, by simpa [partsOf, opened, hd, Part.said] using this⟩
  | unread s m =>
    rw [hd] at h
    have := h.2
    refine ⟨h.1, by simpa [opened, hd, Part.said] using this, by simpa [partsOf, opened, hd, Part.said] using this⟩
  | file s x t ss =>
    rw [hd] at h
    obtain ⟨h1, h2, h3⟩ := h
    refine ⟨h1, by simpa [opened, hd, Part.said] using h2, ?_⟩
    by_cases hl : 1 < ss.length
    · simp only [partsOf, hd, hl, if_true, List.mem_map, forall_exists_index, and_imp, forall_apply_eq_imp_iff₂]
      intro p hp
      have := h3 p hp
      cases p with
      | unread m => simpa [Part.said] using this
      | read y t => simpa [Part.said] using this
    · simpa [partsOf, hd, hl, Part.said] using h2

/-- What is left of harmless files asks for nothing. -/
theorem scan_harmless (w : World α) (ns order : List Name) (ho : order.Perm ns) (hh : ∀ f ∈ ns, Harmless f (w.disk f)) (m : Text)
    (h : (scan w ns (openAll w order)).2 = some m) : asks m = false := by
  refine asks_none m ?_
  rcases scan_said w ns order ho m h with ⟨f, hf, h1⟩ | ⟨p, hp, h1⟩
  · exact (harmless_said w f (hh f hf)).2.1 m h1
  · obtain ⟨f, hf, hp⟩ := List.mem_flatMap.1 hp
    exact (harmless_said w f (hh f hf)).2.2 p hp m h1

end Riptide.Sds.Many
