import Verif.Str.Model
import Verif.Str.Spec
/-! # String comparisons are orders (C43, C51) -/
namespace Riptide.Str
open Spec

theorem content_cons (x : Nat) (xs : List Nat) :
    content (x :: xs) = if x = 0 ∧ content xs = [] then [] else x :: content xs := rfl

theorem before_cons_same (x : Nat) (xs ys : List Nat) :
    content (x :: xs) < content (x :: ys) ↔ content xs < content ys := by
  rw [content_cons, content_cons]
  by_cases h1 : x = 0 ∧ content xs = [] <;> by_cases h2 : x = 0 ∧ content ys = []
  · rw [if_pos h1, if_pos h2, h1.2, h2.2]
  · rw [if_pos h1, if_neg h2, h1.2]
    have : content ys ≠ [] := fun e => h2 ⟨h1.1, e⟩
    cases hc : content ys with
    | nil => exact absurd hc this
    | cons a l => simp
  · rw [if_neg h1, if_pos h2, h2.2]; simp
  · rw [if_neg h1, if_neg h2]; simp

theorem before_cons_lt {x y : Nat} (h : x < y) (xs ys : List Nat) :
    content (x :: xs) < content (y :: ys) := by
  rw [content_cons, content_cons, if_neg (show ¬(y = 0 ∧ _) by omega)]
  split
  · simp
  · simp [List.cons_lt_cons_iff, h]

theorem lt_asymm_list {a b : List Nat} (h : a < b) : ¬ b < a := List.lt_asymm h

/-- Same-width comparison is the order of the contents, for all byte strings (with inner NULs too). -/
theorem sortLt_iff (a b : List Nat) (h : a.length = b.length) :
    (sortLt true a b = true ↔ Before a b) ∧ (sortLt false a b = true ↔ Before b a) := by
  unfold Before
  induction a generalizing b with
  | nil =>
    have : b = [] := by simpa using h.symm
    subst this; simp [sortLt, content]
  | cons x xs ih =>
    cases b with
    | nil => simp at h
    | cons y ys =>
      have ih := ih ys (by simpa using h)
      unfold sortLt
      by_cases hxy : x = y
      · subst hxy
        simp only [ne_eq, not_true_eq_false, if_false]
        rw [before_cons_same, before_cons_same]; exact ih
      · rw [if_pos hxy, if_pos hxy]
        simp only [compareLt, if_true, decide_eq_true_eq, Bool.false_eq_true, if_false]
        rcases Nat.lt_or_gt_of_ne hxy with hlt | hgt
        · have := before_cons_lt hlt xs ys
          exact ⟨by simp [hlt, this], by simp [Nat.lt_asymm hlt, lt_asymm_list this]⟩
        · have := before_cons_lt hgt ys xs
          exact ⟨by simp [Nat.lt_asymm hgt, lt_asymm_list this], by simp [hgt, this]⟩

theorem noInner_tail {x : Nat} {xs : List Nat} (h : NoInnerNul (x :: xs)) : NoInnerNul xs := by
  intro i j hij hi
  have := h (i + 1) (j + 1) (by omega) (by simpa using hi)
  simpa using this

theorem content_nil_of_zero {xs : List Nat} (h : NoInnerNul (0 :: xs)) : content (0 :: xs) = [] := by
  have hz : ∀ l : List Nat, (∀ v ∈ l, v = 0) → content l = [] := by
    intro l
    induction l with
    | nil => intro _; rfl
    | cons a l ih =>
      intro hv
      rw [content_cons, if_pos ⟨hv a (by simp), ih fun v hm => hv v (by simp [hm])⟩]
  apply hz
  intro v hv
  obtain ⟨i, hi, e⟩ := List.getElem_of_mem hv
  have := h 0 i (by omega) rfl
  rw [List.getElem?_eq_getElem hi, e] at this
  rcases this with h1 | h1
  · simpa using h1
  · omega

/-- Cross-width scan against the order of contents. -/
theorem scan_spec (a b : List Nat) (ha : NoInnerNul a) (hb : NoInnerNul b) :
    match scan a b with
    | .differ x y => (x < y ∧ Before a b) ∨ (y < x ∧ Before b a)
    | .same => content a = content b
    | .firstEnds c => if c = 0 then content a = content b else Before a b
    | .secondEnds c => if c = 0 then content a = content b else Before b a := by
  unfold Before
  induction a generalizing b with
  | nil =>
    cases b with
    | nil => simp [scan]
    | cons y ys =>
      simp only [scan]
      by_cases h : y = 0
      · subst h; rw [content_nil_of_zero hb]; rfl
      · rw [if_neg h]; rw [content_cons, if_neg (by simp [h])]; simp [content]
  | cons x xs ih =>
    cases b with
    | nil =>
      simp only [scan]
      by_cases h : x = 0
      · subst h; rw [content_nil_of_zero ha]; rfl
      · rw [if_neg h]; rw [content_cons, if_neg (by simp [h])]; simp [content]
    | cons y ys =>
      simp only [scan]
      by_cases hxy : x = y
      · subst hxy
        simp only [ne_eq, not_true_eq_false, if_false]
        have := ih ys (noInner_tail ha) (noInner_tail hb)
        have e : content xs = content ys → content (x :: xs) = content (x :: ys) := by
          intro e; rw [content_cons, content_cons, e]
        cases hs : scan xs ys with
        | differ => rw [hs] at this; simp only [before_cons_same]; exact this
        | same => rw [hs] at this; exact e this
        | firstEnds c =>
          rw [hs] at this; simp only at this ⊢
          by_cases hc : c = 0
          · rw [if_pos hc] at this ⊢; exact e this
          · rw [if_neg hc] at this ⊢; rw [before_cons_same]; exact this
        | secondEnds c =>
          rw [hs] at this; simp only at this ⊢
          by_cases hc : c = 0
          · rw [if_pos hc] at this ⊢; exact e this
          · rw [if_neg hc] at this ⊢; rw [before_cons_same]; exact this
      · rw [if_pos hxy]
        rcases Nat.lt_or_gt_of_ne hxy with hlt | hgt
        · exact .inl ⟨hlt, before_cons_lt hlt xs ys⟩
        · exact .inr ⟨hgt, before_cons_lt hgt ys xs⟩

/-- **C43.** On strings without inner NULs, of any two widths, the four comparisons of `Bins.cpp` are
exactly `<`, `≤`, `>` and `≥` of the contents. -/
theorem bin_compare_partial (a b : List Nat) (ha : NoInnerNul a) (hb : NoInnerNul b) :
    (binLt a b = true ↔ content a < content b) ∧ (binLe a b = true ↔ content a ≤ content b) ∧
    (binGt a b = true ↔ content b < content a) ∧ (binGe a b = true ↔ content b ≤ content a) := by
  have h := scan_spec a b ha hb
  unfold Before at h
  unfold binLt binLe binGt binGe
  cases hs : scan a b with
  | differ x y =>
    rw [hs] at h
    rcases h with ⟨h1, h2⟩ | ⟨h1, h2⟩
    · simp [h1, h2, lt_asymm_list h2, Nat.lt_asymm h1, List.le_of_lt h2, List.not_le]
    · simp [h1, h2, lt_asymm_list h2, Nat.lt_asymm h1, List.le_of_lt h2, List.not_le]
  | same =>
    rw [hs] at h; simp only at h
    simp [h, List.lt_irrefl]
  | firstEnds c =>
    rw [hs] at h; simp only at h
    by_cases hc : c = 0
    · rw [if_pos hc] at h; simp [hc, h, List.lt_irrefl]
    · rw [if_neg hc] at h; simp [hc, h, lt_asymm_list h, List.le_of_lt h, List.not_le]
  | secondEnds c =>
    rw [hs] at h; simp only at h
    by_cases hc : c = 0
    · rw [if_pos hc] at h; simp [hc, h, List.lt_irrefl]
    · rw [if_neg hc] at h; simp [hc, h, lt_asymm_list h, List.le_of_lt h, List.not_le]

/-- `"ab\0\0"` against `"abc"`. -/
example : binLt [97, 98, 0, 0] [97, 98, 99] = true ∧ binLe [97, 98, 0, 0] [97, 98] = true ∧
    binGt [97, 98, 0, 0] [97, 98, 99] = false ∧ binGe [97, 98, 0, 0] [97, 98] = true := by decide

example : NoInnerNul [97, 98, 0, 0] := by
  intro i j hij hi
  match i, j with
  | 0, _ | 1, _ => simp at hi
  | 2, 2 | 2, 3 | 3, 3 => simp
  | _, _ + 4 => right; simp
  | 3, 2 | 2, 0 | 2, 1 | 3, 0 | 3, 1 => omega
  | _ + 4, 0 | _ + 4, 1 | _ + 4, 2 | _ + 4, 3 => omega

/-- The guard is needed: `"a"` (width 1) and `"a\0b"` (width 3) are different strings, but neither is
reported smaller and both `≤` and `≥` hold. -/
theorem inner_nul_compares_equal :
    content [97] ≠ content [97, 0, 98] ∧ binLt [97] [97, 0, 98] = false ∧
    binGt [97] [97, 0, 98] = false ∧ binGe [97] [97, 0, 98] = true := by decide

/-- … and then "equal" is not even transitive: `"a\0b"` = `"a"` = `"a\0c"` although `"a\0b" < "a\0c"`. -/
theorem inner_nul_not_transitive :
    binGe [97] [97, 0, 99] = true ∧ binGe [97, 0, 98] [97] = true ∧
    binGe [97, 0, 98] [97, 0, 99] = false := by decide

/-- **C43.** The comparison used for sorting fixed-width strings is a strict total order in both
directions, equal to the order of the contents. -/
theorem sort_compare_total (w : Nat) (asc : Bool) :
    StrictTotal (fun s : List Nat => s.length = w) (fun a b => content a = content b) (sortLt asc) ∧
    ∀ a b : List Nat, a.length = w → b.length = w →
      (sortLt asc a b = true ↔ if asc then Before a b else Before b a) := by
  have hiff : ∀ a b : List Nat, a.length = w → b.length = w →
      (sortLt asc a b = true ↔ if asc then Before a b else Before b a) := by
    intro a b ha hb
    have := sortLt_iff a b (by omega)
    cases asc
    · simpa using this.2
    · simpa using this.1
  refine ⟨⟨?_, ?_, ?_⟩, hiff⟩
  · intro a ha
    have := hiff a a ha ha
    cases hs : sortLt asc a a with
    | false => rfl
    | true =>
      have := this.mp hs
      cases asc <;> simp [Before, List.lt_irrefl] at this
  · intro a b c ha hb hc h1 h2
    rw [hiff _ _ ha hc]
    have h1 := (hiff _ _ ha hb).mp h1
    have h2 := (hiff _ _ hb hc).mp h2
    cases asc
    · simp only [Bool.false_eq_true, if_false, Before] at *; exact List.lt_trans h2 h1
    · simp only [if_true, Before] at *; exact List.lt_trans h1 h2
  · intro a b ha hb
    rw [hiff _ _ ha hb, hiff _ _ hb ha]
    have : content a < content b ∨ content a = content b ∨ content b < content a := by
      by_cases h1 : content a < content b
      · exact .inl h1
      · by_cases h2 : content b < content a
        · exact .inr (.inr h2)
        · exact .inr (.inl (List.le_antisymm (List.not_lt.mp h2) (List.not_lt.mp h1)))
    cases asc <;> simp only [Bool.false_eq_true, if_false, if_true, Before]
    · rcases this with h | h | h
      · exact .inr (.inr h)
      · exact .inr (.inl h)
      · exact .inl h
    · exact this

example : sortLt true [97, 0, 0] [97, 98, 0] = true ∧ sortLt false [97, 0, 0] [97, 98, 0] = false := by
  decide

/-! ## Raw bytes -/

/-- A string of `w` bytes. -/
def Bytes (w : Nat) (s : List Nat) : Prop := s.length = w ∧ ∀ v ∈ s, v < 256

theorem le_inj : ∀ (a b : List Nat), a.length = b.length → (∀ v ∈ a, v < 256) → (∀ v ∈ b, v < 256) →
    le a = le b → a = b
  | [], [], _, _, _, _ => rfl
  | x :: xs, y :: ys, hl, ha, hb, h => by
    have hx := ha x (by simp)
    have hy := hb y (by simp)
    simp only [le] at h
    rw [show x = y by omega, le_inj xs ys (by simpa using hl) (fun v hv => ha v (by simp [hv]))
      (fun v hv => hb v (by simp [hv])) (by omega)]

theorem compareLt_irrefl (asc : Bool) (x : Nat) : compareLt asc x x = false := by
  cases asc <;> simp [compareLt]

theorem compareLt_trans {asc : Bool} {x y z : Nat} (h1 : compareLt asc x y = true)
    (h2 : compareLt asc y z = true) : compareLt asc x z = true := by
  cases asc <;> simp [compareLt] at * <;> omega

theorem wordLt_irrefl (asc : Bool) (ws : List (Nat × Bool)) (a : List Nat) :
    wordLt asc ws a a = false := by
  induction ws generalizing a with
  | nil => rfl
  | cons w ws ih => simp [wordLt, ih]

theorem wordLt_trans {asc : Bool} (ws : List (Nat × Bool)) (a b c : List Nat)
    (h1 : wordLt asc ws a b = true) (h2 : wordLt asc ws b c = true) : wordLt asc ws a c = true := by
  induction ws generalizing a b c with
  | nil => simp [wordLt] at h1
  | cons w ws ih =>
    obtain ⟨w, d⟩ := w
    simp only [wordLt] at *
    by_cases e1 : le (a.take w) = le (b.take w)
    · rw [if_neg (by simp [e1])] at h1
      by_cases e2 : le (b.take w) = le (c.take w)
      · rw [if_neg (by simp [e2])] at h2
        rw [if_neg (by simp [e1, e2])]
        exact ih _ _ _ h1 h2
      · rw [if_pos e2] at h2
        rw [if_pos (by simpa [e1] using e2), e1]; exact h2
    · rw [if_pos e1] at h1
      by_cases e2 : le (b.take w) = le (c.take w)
      · rw [if_pos (by simpa [← e2] using e1), ← e2]; exact h1
      · rw [if_pos e2] at h2
        have := compareLt_trans h1 h2
        rw [if_pos]
        · exact this
        · intro e
          rw [e, compareLt_irrefl] at this; exact absurd this (by simp)

/-- Total width of the words. -/
def width (ws : List (Nat × Bool)) : Nat := (ws.map Prod.fst).sum

theorem wordLt_total {asc : Bool} (ws : List (Nat × Bool)) (a b : List Nat)
    (ha : Bytes (width ws) a) (hb : Bytes (width ws) b) :
    wordLt asc ws a b = true ∨ a = b ∨ wordLt asc ws b a = true := by
  induction ws generalizing a b with
  | nil =>
    have h1 : a = [] := by simpa [Bytes, width] using ha.1
    have h2 : b = [] := by simpa [Bytes, width] using hb.1
    simp [h1, h2]
  | cons w ws ih =>
    obtain ⟨w, d⟩ := w
    have hw : width ((w, d) :: ws) = w + width ws := by simp [width]
    rw [hw] at ha hb
    simp only [wordLt]
    by_cases e : le (a.take w) = le (b.take w)
    · rw [if_neg (by simp [e]), if_neg (by simp [e])]
      have et : a.take w = b.take w := by
        apply le_inj _ _ _ _ _ e
        · simp [ha.1, hb.1]
        · exact fun v hv => ha.2 v (List.mem_of_mem_take hv)
        · exact fun v hv => hb.2 v (List.mem_of_mem_take hv)
      rcases ih (a.drop w) (b.drop w)
        ⟨by simp [ha.1], fun v hv => ha.2 v (List.mem_of_mem_drop hv)⟩
        ⟨by simp [hb.1], fun v hv => hb.2 v (List.mem_of_mem_drop hv)⟩ with h | h | h
      · exact .inl h
      · right; left
        rw [← List.take_append_drop w a, ← List.take_append_drop w b, et, h]
      · exact .inr (.inr h)
    · rw [if_pos e, if_pos (Ne.symm e)]
      cases (if d = true then asc else true) <;> simp only [compareLt, Bool.false_eq_true, if_false,
        if_true, decide_eq_true_eq] <;> omega

theorem width_words (first : Bool) (len : Nat) : width (wordsFrom first len) = len := by
  induction first, len using wordsFrom.induct with
  | case1 first len h ih =>
    rw [wordsFrom, dif_pos h]
    have : width ((8, true) :: wordsFrom false (len - 8)) = 8 + width (wordsFrom false (len - 8)) := by
      simp [width]
    rw [this, ih]; omega
  | case2 first len h =>
    rw [wordsFrom, dif_neg h]
    match len with
    | 0 | 1 | 2 | 3 | 4 | 5 | 6 | 7 | 8 => simp [tailWords, width]
    | _ + 9 => omega

/-- **C51.** The comparison used for sorting raw bytes is a strict total order in which only identical
byte strings tie, for every width and both directions. -/
theorem void_compare_total (w : Nat) (asc : Bool) : StrictTotal (Bytes w) Eq (voidLt asc) := by
  constructor
  · intro a _; exact wordLt_irrefl _ _ _
  · intro a b c ha hb hc h1 h2
    unfold voidLt at *
    rw [hb.1, ← ha.1] at h2
    exact wordLt_trans _ a b c h1 h2
  · intro a b ha hb
    unfold voidLt
    rw [ha.1, hb.1]
    exact wordLt_total _ a b ((width_words true w).symm ▸ ha) ((width_words true w).symm ▸ hb)

example : voidLt true [1, 2, 3, 4, 5, 6, 7, 8, 9, 1] [1, 2, 3, 4, 5, 6, 7, 8, 9, 2] = true := by
  decide +kernel

/-- … but the descending comparison is not the reverse of the ascending one: the single trailing byte
of widths 3, 5, 7 (and 8k+1, 8k+3, …) is always compared ascending. -/
theorem void_descending_not_reversed :
    voidLt true [0, 0, 1] [0, 0, 2] = true ∧ voidLt false [0, 0, 1] [0, 0, 2] = true := by
  decide +kernel

/-- When no comparison ignores the direction (width 1, or remainder 2, 4, 6, 0 modulo 8) descending is
the reverse of ascending. -/
theorem void_descending_partial (a b : List Nat) (hl : a.length = b.length)
    (h : ∀ p ∈ wordsFrom true a.length, p.2 = true) : voidLt false a b = voidLt true b a := by
  unfold voidLt
  rw [← hl]
  generalize wordsFrom true a.length = ws at h
  clear hl
  induction ws generalizing a b with
  | nil => rfl
  | cons p ws ih =>
    obtain ⟨w, d⟩ := p
    have hd : d = true := h (w, d) (by simp)
    subst hd
    simp only [wordLt]
    by_cases e : le (a.take w) = le (b.take w)
    · rw [if_neg (by simp [e]), if_neg (by simp [e])]
      exact ih _ _ fun p hp => h p (by simp [hp])
    · rw [if_pos e, if_pos (Ne.symm e)]
      simp [compareLt]

example : ∀ p ∈ wordsFrom true 12, p.2 = true := by decide +kernel

end Riptide.Str
