import Verif.Shm.ReadOnlySpec
/-! # Arrays in shared memory become read-only -/
namespace Riptide.Shm.ReadOnly
open Spec

theorem clearFlag_some {mem out : List Arr} {p : Nat} (h : clearFlag mem p = some out) :
    ∃ a, mem[p]? = some a ∧ out = mem.set p { a with writeable := false } := by
  unfold clearFlag at h
  split at h
  · cases h
  · next a ha => exact ⟨a, ha, by simpa using h.symm⟩

/-- Clearing a flag leaves the bases. -/
theorem clearFlag_base {mem out : List Arr} {p : Nat} (h : clearFlag mem p = some out) (q : Nat) :
    (out[q]?).map Arr.base = (mem[q]?).map Arr.base := by
  obtain ⟨a, ha, rfl⟩ := clearFlag_some h
  have hl := (List.getElem?_eq_some_iff.1 ha).1
  by_cases hq : p = q
  · subst hq; simp [List.getElem?_set_self hl, ha]
  · simp [List.getElem?_set_ne hq]

theorem under_of_base {m1 m2 : List Arr} (h : ∀ q : Nat, (m1[q]?).map Arr.base = (m2[q]?).map Arr.base) {p r : Nat}
    (hu : Under m1 p r) : Under m2 p r := by
  induction hu with
  | self p => exact .self p
  | base p q r a ha hb _ ih =>
    have := h p
    rw [ha] at this
    cases hm : m2[p]? with
    | none => simp [hm] at this
    | some b =>
      simp [hm] at this
      exact .base p q r b hm (this ▸ hb) ih

theorem root_of_base {m1 m2 : List Arr} (h : ∀ q : Nat, (m1[q]?).map Arr.base = (m2[q]?).map Arr.base) {r : Nat}
    (hu : Root m1 r) : Root m2 r := by
  obtain ⟨a, ha, hb⟩ := hu
  have := h r
  rw [ha] at this
  cases hm : m2[r]? with
  | none => simp [hm] at this
  | some b =>
    simp [hm] at this
    exact ⟨b, hm, this ▸ hb⟩

/-- The loop ends at the root. -/
theorem lastArray_root {mem : List Arr} : ∀ {fuel p q : Nat}, lastArray mem fuel p = some q →
    Under mem p q ∧ Root mem q := by
  intro fuel
  induction fuel with
  | zero =>
    intro p q h
    rw [lastArray] at h
    split at h
    · cases h
    · next a ha =>
      split at h
      · cases h
      · next hb => cases h; exact ⟨.self _, a, ha, by simp [hb]⟩
      · next hb => cases h; exact ⟨.self _, a, ha, by simp [hb]⟩
  | succ n ih =>
    intro p q h
    rw [lastArray] at h
    split at h
    · cases h
    · next a ha =>
      split at h
      · next r hb =>
        obtain ⟨hu, hr⟩ := ih h
        exact ⟨.base p r q a ha hb hu, hr⟩
      · next hb => cases h; exact ⟨.self _, a, ha, by simp [hb]⟩
      · next hb => cases h; exact ⟨.self _, a, ha, by simp [hb]⟩

/-- There is one root only. -/
theorem root_unique {mem : List Arr} {p q r : Nat} (hq : Under mem p q) (hrq : Root mem q) (hr : Under mem p r)
    (hrr : Root mem r) : q = r := by
  induction hq with
  | self p =>
    cases hr with
    | self => rfl
    | base _ s _ a ha hb _ =>
      obtain ⟨a', ha', hn⟩ := hrq
      rw [ha] at ha'; cases ha'
      exact absurd hb (hn s)
  | base p s t a ha hb _ ih =>
    cases hr with
    | self =>
      obtain ⟨a', ha', hn⟩ := hrr
      rw [ha] at ha'; cases ha'
      exact absurd hb (hn s)
    | base _ s' _ a' ha' hb' hu' =>
      rw [ha] at ha'; cases ha'
      rw [hb] at hb'; cases hb'
      exact ih hrq hu'

/-- What the call does: the array and its root lose the flag, nothing else changes. -/
theorem clearWriteable_some {mem out : List Arr} {p : Nat} (h : clearWriteable mem p = some out) :
    ∃ q mem1, clearFlag mem p = some mem1 ∧ Under mem p q ∧ Root mem q ∧ clearFlag mem1 q = some out := by
  unfold clearWriteable at h
  split at h
  · cases h
  · next mem1 h1 =>
    split at h
    · cases h
    · next q hq =>
      obtain ⟨hu, hr⟩ := lastArray_root hq
      exact ⟨q, mem1, h1, under_of_base (clearFlag_base h1) hu, root_of_base (clearFlag_base h1) hr, h⟩

theorem clearFlag_self {mem out : List Arr} {p : Nat} (h : clearFlag mem p = some out) : ReadOnly out p := by
  obtain ⟨a, ha, rfl⟩ := clearFlag_some h
  have hl := (List.getElem?_eq_some_iff.1 ha).1
  exact ⟨_, List.getElem?_set_self hl, rfl⟩

theorem clearFlag_keeps {mem out : List Arr} {p q : Nat} (h : clearFlag mem p = some out) (hq : ReadOnly mem q) :
    ReadOnly out q := by
  by_cases e : p = q
  · subst e; exact clearFlag_self h
  · obtain ⟨a, _, rfl⟩ := clearFlag_some h
    obtain ⟨b, hb, hw⟩ := hq
    exact ⟨b, by rw [List.getElem?_set_ne e]; exact hb, hw⟩

theorem clearFlag_other {mem out : List Arr} {p q : Nat} (h : clearFlag mem p = some out) (e : q ≠ p) :
    out[q]? = mem[q]? := by
  obtain ⟨a, _, rfl⟩ := clearFlag_some h
  exact List.getElem?_set_ne (Ne.symm e)

/-- **C168** The array is read-only afterwards. -/
theorem clearWriteable_self {mem out : List Arr} {p : Nat} (h : clearWriteable mem p = some out) : ReadOnly out p := by
  obtain ⟨q, mem1, h1, _, _, h2⟩ := clearWriteable_some h
  exact clearFlag_keeps h2 (clearFlag_self h1)

/-- **C168** The array at the bottom, of which it is a view, is read-only too. -/
theorem clearWriteable_root {mem out : List Arr} {p q : Nat} (h : clearWriteable mem p = some out) (hu : Under mem p q)
    (hr : Root mem q) : ReadOnly out q := by
  obtain ⟨q', mem1, _, hu', hr', h2⟩ := clearWriteable_some h
  rw [root_unique hu hr hu' hr']
  exact clearFlag_self h2

/-- **C168** Every other array is as it was: those which have nothing to do with it and those in between. -/
theorem clearWriteable_others {mem out : List Arr} {p q : Nat} (h : clearWriteable mem p = some out) (hp : q ≠ p)
    (hq : ¬ (Under mem p q ∧ Root mem q)) : out[q]? = mem[q]? := by
  obtain ⟨q', mem1, h1, hu', hr', h2⟩ := clearWriteable_some h
  have e : q ≠ q' := by rintro rfl; exact hq ⟨hu', hr'⟩
  rw [clearFlag_other h2 e, clearFlag_other h1 hp]

/-- **C168** No base is changed and there are as many arrays as before. -/
theorem clearWriteable_bases {mem out : List Arr} {p : Nat} (h : clearWriteable mem p = some out) :
    out.length = mem.length ∧ ∀ q : Nat, (out[q]?).map Arr.base = (mem[q]?).map Arr.base := by
  obtain ⟨q', mem1, h1, _, _, h2⟩ := clearWriteable_some h
  refine ⟨?_, fun q => (clearFlag_base h2 q).trans (clearFlag_base h1 q)⟩
  obtain ⟨_, _, rfl⟩ := clearFlag_some h2
  obtain ⟨_, _, rfl⟩ := clearFlag_some h1
  simp

theorem lastArray_defined {mem : List Arr} (ho : Older mem) : ∀ {fuel p : Nat}, p < mem.length → p ≤ fuel →
    ∃ q, lastArray mem fuel p = some q := by
  intro fuel
  induction fuel with
  | zero =>
    intro p hp hf
    have : p = 0 := by omega
    subst this
    rw [lastArray, List.getElem?_eq_getElem hp]
    cases hb : (mem[0]).base with
    | null => exact ⟨0, by simp [hb]⟩
    | object => exact ⟨0, by simp [hb]⟩
    | array r => exact absurd (ho 0 _ r (List.getElem?_eq_getElem hp) hb) (by omega)
  | succ n ih =>
    intro p hp hf
    rw [lastArray, List.getElem?_eq_getElem hp]
    cases hb : (mem[p]).base with
    | null => exact ⟨p, by simp [hb]⟩
    | object => exact ⟨p, by simp [hb]⟩
    | array r =>
      have := ho p _ r (List.getElem?_eq_getElem hp) hb
      obtain ⟨q, hq⟩ := ih (p := r) (by omega) (by omega)
      exact ⟨q, by simpa [hb] using hq⟩

/-- **C168** The call ends, and only arrays are looked at. -/
theorem clearWriteable_defined {mem : List Arr} (ho : Older mem) {p : Nat} (hp : p < mem.length) :
    ∃ out, clearWriteable mem p = some out := by
  have h1 : clearFlag mem p = some (mem.set p { mem[p] with writeable := false }) := by
    simp [clearFlag, List.getElem?_eq_getElem hp]
  have hb := clearFlag_base h1
  have ho1 : Older (mem.set p { mem[p] with writeable := false }) := by
    intro i a q ha hq
    have := hb i
    rw [ha] at this
    cases hm : mem[i]? with
    | none => simp [hm] at this
    | some b =>
      simp [hm] at this
      exact ho i b q hm (this ▸ hq)
  obtain ⟨q, hq⟩ := lastArray_defined ho1 (fuel := (mem.set p { mem[p] with writeable := false }).length) (p := p)
    (by simpa using hp) (by simp; omega)
  obtain ⟨_, a, ha, _⟩ := lastArray_root hq
  exact ⟨(mem.set p { mem[p] with writeable := false }).set q { a with writeable := false },
    by simp only [clearWriteable, h1, hq]; simp only [clearFlag, ha]⟩

/-- **C168** A view of an array (or an array which is no view): all arrays on the way down are read-only. What is missing is
views of views (`clearWriteable_between_wrong`). -/
theorem clearWriteable_all_partial {mem out : List Arr} {p : Nat} (h : clearWriteable mem p = some out)
    (h2 : ∀ q, Under mem p q → q = p ∨ Root mem q) (q : Nat) (hq : Under mem p q) : ReadOnly out q := by
  rcases h2 q hq with rfl | hr
  · exact clearWriteable_self h
  · exact clearWriteable_root h hq hr

/-- The loop depends on the bases only. -/
theorem lastArray_congr {m1 m2 : List Arr} (h : ∀ q : Nat, (m1[q]?).map Arr.base = (m2[q]?).map Arr.base) :
    ∀ fuel p : Nat, lastArray m1 fuel p = lastArray m2 fuel p := by
  intro fuel
  induction fuel with
  | zero =>
    intro p
    have := h p
    cases h1 : m1[p]? <;> cases h2 : m2[p]? <;> simp [h1, h2] at this
    · simp [lastArray, h1, h2]
    · simp [lastArray, h1, h2, this]
  | succ n ih =>
    intro p
    have := h p
    cases h1 : m1[p]? <;> cases h2 : m2[p]? <;> simp [h1, h2] at this
    · simp [lastArray, h1, h2]
    · simp [lastArray, h1, h2, this, ih]

theorem clearFlag_defined {mem : List Arr} {p : Nat} (hp : p < mem.length) : ∃ out, clearFlag mem p = some out := by
  simp [clearFlag, List.getElem?_eq_getElem hp]

/-- A second call is as defined as the first. -/
theorem clearWriteable_again {mem out : List Arr} {p : Nat} (h : clearWriteable mem p = some out) :
    ∃ out2, clearWriteable out p = some out2 := by
  obtain ⟨hlen, hb⟩ := clearWriteable_bases h
  unfold clearWriteable at h
  split at h
  · cases h
  · next mem1 h1 =>
    split at h
    · cases h
    · next q hq =>
      obtain ⟨a, ha, e1⟩ := clearFlag_some h1
      have hp := (List.getElem?_eq_some_iff.1 ha).1
      obtain ⟨b, hb2, _⟩ := clearFlag_some h
      have hq1 := (List.getElem?_eq_some_iff.1 hb2).1
      have hl1 : mem1.length = mem.length := by rw [e1]; simp
      obtain ⟨m3, h3⟩ := clearFlag_defined (mem := out) (p := p) (by omega)
      have hl3 : m3.length = out.length := by
        obtain ⟨_, _, e3⟩ := clearFlag_some h3
        rw [e3]; simp
      have hc := lastArray_congr (m1 := m3) (m2 := mem1) (fun r =>
        (clearFlag_base h3 r).trans ((hb r).trans (clearFlag_base h1 r).symm)) m3.length p
      have hl : m3.length = mem1.length := by omega
      rw [hl, hq] at hc
      obtain ⟨m4, h4⟩ := clearFlag_defined (mem := m3) (p := q) (by omega)
      refine ⟨m4, ?_⟩
      simp only [clearWriteable, h3, hl, hc, h4]

/-- **C168** Once is enough: a second call changes nothing. -/
theorem clearWriteable_twice {mem out : List Arr} {p : Nat} (h : clearWriteable mem p = some out) :
    clearWriteable out p = some out := by
  cases h3 : clearWriteable out p with
  | none =>
    obtain ⟨o, ho⟩ := clearWriteable_again h
    rw [h3] at ho
    cases ho
  | some out2 =>
    obtain ⟨hlen, hbs⟩ := clearWriteable_bases h3
    congr 1
    apply List.ext_getElem?
    intro i
    by_cases hi : i = p ∨ (Under out p i ∧ Root out i)
    · have r1 : ReadOnly out i := by
        rcases hi with rfl | ⟨hu, hr⟩
        · exact clearWriteable_self h
        · exact clearWriteable_root h (under_of_base (clearWriteable_bases h).2 hu)
            (root_of_base (clearWriteable_bases h).2 hr)
      have r2 : ReadOnly out2 i := by
        rcases hi with rfl | ⟨hu, hr⟩
        · exact clearWriteable_self h3
        · exact clearWriteable_root h3 hu hr
      obtain ⟨a, ha, hwa⟩ := r1
      obtain ⟨b, hb, hwb⟩ := r2
      have := hbs i
      rw [ha, hb] at this
      simp at this
      rw [ha, hb]
      cases a; cases b
      simp_all
    · have hi' := not_or.1 hi
      exact clearWriteable_others h3 hi'.1 hi'.2

/-! ### The hypotheses are met -/

example : clearWriteable [⟨true, .object⟩, ⟨true, .array 0⟩, ⟨true, .null⟩] 1
    = some [⟨false, .object⟩, ⟨false, .array 0⟩, ⟨true, .null⟩] := by decide +kernel
example : Older [⟨true, .object⟩, ⟨true, .array 0⟩, ⟨true, .null⟩] := by
  intro p a q h hb
  match p with
  | 0 => simp at h; subst h; simp at hb
  | 1 => simp at h; subst h; simp at hb; omega
  | 2 => simp at h; subst h; simp at hb
  | n + 3 => simp at h
example : Under [⟨true, .object⟩, ⟨true, .array 0⟩] 1 0 := .base 1 0 0 ⟨true, .array 0⟩ rfl rfl (.self 0)
example : Root [⟨true, .object⟩, ⟨true, .array 0⟩] 0 := ⟨_, rfl, by simp⟩
example : ∀ q, Under [⟨true, .object⟩, ⟨true, .array 0⟩] 1 q → q = 1 ∨ Root [⟨true, .object⟩, ⟨true, .array 0⟩] q := by
  intro q h
  cases h with
  | self => exact .inl rfl
  | base _ r _ a ha hb hr =>
    simp at ha; subst ha; simp at hb; subst hb
    cases hr with
    | self => exact .inr ⟨_, rfl, by simp⟩
    | base _ r _ a ha hb hr => simp at ha; subst ha; simp at hb

end Riptide.Shm.ReadOnly
