import Verif.Ema.EntrySpec
import Verif.Work.Props
import Verif.Common.Lists
/-! Lemmas about the call `EmaAll32`. -/
namespace Riptide.Ema.Entry
open Riptide.Ema.Entry.Spec

/-- Every column is done once. -/
theorem ColSched.perm {workers n : Nat} {nt : Bool} {calls : List Nat} (h : ColSched workers n nt calls) :
    calls.Perm (List.range n) := by
  cases h with
  | direct _ => exact List.Perm.refl _
  | pool _ _ h2 => exact h2.perm

theorem turns_some (fa : Arith) (j : Job) (g : Nat → Ret)
    (hg : ∀ i, i < j.cols.length → ∃ c, j.cols[i]? = some c ∧ callCol fa j c = some (g i)) :
    ∀ (calls : List Nat) (slots : List Ret), (∀ i ∈ calls, i < j.cols.length) →
      calls.foldlM (turn fa j) slots = some (calls.foldl (fun a b => a.set b (g b)) slots) := by
  intro calls
  induction calls with
  | nil => intro slots _; rfl
  | cons i is ih =>
    intro slots hlt
    obtain ⟨c, hc, hr⟩ := hg i (hlt i (by simp))
    rw [List.foldlM_cons, List.foldl_cons, turn, hc, Option.bind_some, hr]
    exact ih _ fun k hk => hlt k (by simp [hk])

theorem turns_none (fa : Arith) (j : Job) (i : Nat) (c : Col) (hc : j.cols[i]? = some c) (hn : callCol fa j c = none) :
    ∀ (calls : List Nat) (slots : List Ret), i ∈ calls → calls.foldlM (turn fa j) slots = none := by
  intro calls
  induction calls with
  | nil => intro slots h; cases h
  | cons k ks ih =>
    intro slots h
    rw [List.foldlM_cons]
    by_cases e : k = i
    · subst e
      rw [turn, hc, Option.bind_some, hn]
      rfl
    · have hi : i ∈ ks := by
        rcases List.mem_cons.1 h with h | h
        · exact absurd h.symm e
        · exact h
      cases turn fa j slots k with
      | none => rfl
      | some s => exact ih s hi

/-- The threads do not matter: the columns one after the other. -/
theorem runJob_perm (fa : Arith) (j : Job) (hne : j.cols ≠ []) {calls : List Nat} (h : calls.Perm (List.range j.cols.length)) :
    runJob fa calls j = match j.cols.mapM (callCol fa j) with | none => .undef | some l => .done l := by
  unfold runJob
  rw [if_neg hne]
  by_cases hall : ∀ c ∈ j.cols, (callCol fa j c).isSome
  · have hm : j.cols.mapM (callCol fa j) = some (j.cols.map fun c => (callCol fa j c).getD .pyNone) := by
      apply mapM_some
      intro c hc
      have := hall c hc
      cases hx : callCol fa j c with
      | none => rw [hx] at this; cases this
      | some v => rfl
    rw [hm, turns_some fa j (fun i => (j.cols[i]?.bind (callCol fa j)).getD .pyNone) (fun i hi => by
      refine ⟨j.cols[i], List.getElem?_eq_getElem hi, ?_⟩
      rw [List.getElem?_eq_getElem hi, Option.bind_some]
      have := hall j.cols[i] (List.getElem_mem hi)
      cases hx : callCol fa j j.cols[i] with
      | none => rw [hx] at this; cases this
      | some v => rfl) calls _ (fun i hi => by simpa using h.subset hi),
      foldl_set_perm _ h _ (by simp)]
    dsimp only
    congr 1
    apply List.ext_getElem?
    intro i
    by_cases hi : i < j.cols.length
    · rw [List.getElem?_map, List.getElem?_range hi, List.getElem?_map, List.getElem?_eq_getElem hi]
      simp [List.getElem?_eq_getElem hi]
    · rw [List.getElem?_eq_none (by simpa using hi), List.getElem?_eq_none (by simpa using hi)]
  · have : ∃ c ∈ j.cols, callCol fa j c = none := by
      apply Classical.byContradiction
      intro hx
      apply hall
      intro c hc
      cases hv : callCol fa j c with
      | none => exact absurd ⟨c, hc, hv⟩ hx
      | some v => rfl
    obtain ⟨c, hc, hn⟩ := this
    obtain ⟨i, hi, he⟩ := List.mem_iff_getElem.1 hc
    rw [turns_none fa j i c (by rw [List.getElem?_eq_getElem hi, he]) hn calls _
      (h.symm.subset (by simpa using hi))]
    have : j.cols.mapM (callCol fa j) = none := by
      have gen : ∀ l : List Col, c ∈ l → l.mapM (callCol fa j) = none := by
        intro l
        induction l with
        | nil => intro h; cases h
        | cons d ds ih =>
          intro h
          rw [List.mapM_cons]
          rcases List.mem_cons.1 h with rfl | h
          · rw [hn]; rfl
          · cases callCol fa j d with
            | none => rfl
            | some v => rw [ih h]; rfl
      exact gen _ hc
    rw [this]

/-- What is kept of an object which is a column. -/
def colFor (o : Obj) : Col := ⟨tyOf o, elems o⟩

theorem colOf_iff (o : Obj) : (IsColumn o ∧ colOf o = some (colFor o)) ∨ (¬ IsColumn o ∧ colOf o = none) := by
  cases o with
  | pyNone => exact .inl ⟨trivial, rfl⟩
  | other => exact .inr ⟨id, rfl⟩
  | arr a =>
    by_cases h : a.ty ≤ 20 ∧ a.dims = 1
    · exact .inl ⟨h, by rw [colOf, if_pos h]; rfl⟩
    · exact .inr ⟨h, by rw [colOf, if_neg h]⟩

theorem cols_mapM : ∀ l : List Obj, ((∀ o ∈ l, IsColumn o) ∧ l.mapM colOf = some (l.map colFor)) ∨
    (¬ (∀ o ∈ l, IsColumn o) ∧ l.mapM colOf = none)
  | [] => .inl ⟨by simp, rfl⟩
  | o :: l => by
    rw [List.mapM_cons]
    rcases colOf_iff o with ⟨h, e⟩ | ⟨h, e⟩
    · rcases cols_mapM l with ⟨h', e'⟩ | ⟨h', e'⟩
      · refine .inl ⟨by simpa using ⟨h, h'⟩, ?_⟩
        rw [e, e']; rfl
      · refine .inr ⟨fun hx => h' fun p hp => hx p (by simp [hp]), ?_⟩
        rw [e, e']; rfl
    · refine .inr ⟨fun hx => h (hx o (by simp)), ?_⟩
      rw [e]; rfl

theorem sameRows_iff (l : List Obj) : sameRows (l.map colFor) = true ↔
    ∀ o ∈ l, ∀ p ∈ l, (elems o).length = (elems p).length := by
  cases l with
  | nil => simp [sameRows]
  | cons o l =>
    simp only [sameRows, List.map_cons, List.all_map, List.all_eq_true, colFor, Function.comp_apply, beq_iff_eq]
    constructor
    · intro h
      have key : ∀ p ∈ o :: l, (elems p).length = (elems o).length := by
        intro p hp
        rcases List.mem_cons.1 hp with rfl | hp
        · rfl
        · exact h p hp
      intro p hp q hq
      rw [key p hp, key q hq]
    · intro h p hp
      exact h p (by simp [hp]) o (by simp)

theorem build_cases (cols : Cols) : (GoodCols cols ∧ buildCols cols = some ((entries cols).map colFor)) ∨
    (¬ GoodCols cols ∧ buildCols cols = none) := by
  cases cols with
  | other => exact .inr ⟨fun h => h.1 rfl, rfl⟩
  | one a =>
    rcases colOf_iff (.arr a) with ⟨h, e⟩ | ⟨h, e⟩
    · refine .inl ⟨⟨by simp, by simpa [entries] using h, by simp [entries]⟩, ?_⟩
      rw [buildCols, e]; rfl
    · refine .inr ⟨fun hx => h (hx.2.1 _ (by simp [entries])), ?_⟩
      rw [buildCols, e]; rfl
  | many l =>
    rcases cols_mapM l with ⟨h, e⟩ | ⟨h, e⟩
    · by_cases hs : sameRows (l.map colFor) = true
      · refine .inl ⟨⟨by simp, h, (sameRows_iff l).1 hs⟩, ?_⟩
        rw [buildCols, e, Option.bind_some, if_pos hs]; rfl
      · refine .inr ⟨fun hx => hs ((sameRows_iff l).2 hx.2.2), ?_⟩
        rw [buildCols, e, Option.bind_some, if_neg hs]
    · refine .inr ⟨fun hx => h hx.2.1, ?_⟩
      rw [buildCols, e]; rfl

theorem maskBad_cases (n : Nat) (o : Obj) (ho : o ≠ .other) :
    (IsMask n o ∧ maskBad n o = some false) ∨ (¬ IsMask n o ∧ maskBad n o = some true) := by
  cases o with
  | pyNone => exact .inl ⟨trivial, rfl⟩
  | other => exact absurd rfl ho
  | arr a =>
    unfold maskBad IsMask
    by_cases h : a.ty = 0 ∧ a.vals.length = n
    · exact .inl ⟨h, by simp [h.1, h.2]⟩
    · refine .inr ⟨h, ?_⟩
      by_cases h1 : a.ty = 0
      · have : a.vals.length ≠ n := fun e => h ⟨h1, e⟩
        simp [this]
      · simp [h1]

theorem timeBad_cases (n : Nat) (o : Obj) (ho : o ≠ .other) :
    (IsTime n o ∧ timeBad n o = some false) ∨ (¬ IsTime n o ∧ timeBad n o = some true) := by
  cases o with
  | pyNone => exact .inl ⟨trivial, rfl⟩
  | other => exact absurd rfl ho
  | arr a =>
    unfold timeBad IsTime
    by_cases h1 : a.ty < 5
    · exact .inr ⟨fun h => by omega, by simp [h1]⟩
    · by_cases h2 : 13 < a.ty
      · exact .inr ⟨fun h => by omega, by simp [h2]⟩
      · by_cases h3 : a.vals.length = n
        · exact .inl ⟨⟨by omega, by omega, h3⟩, by simp [h1, h2, h3]⟩
        · exact .inr ⟨fun h => h3 h.2.2, by simp [h3]⟩

theorem key_iff (ty : Nat) : [1, 3, 5, 7, 9].contains ty = isKey ty := by
  by_cases h : ty < 10
  · have : ty = 0 ∨ ty = 1 ∨ ty = 2 ∨ ty = 3 ∨ ty = 4 ∨ ty = 5 ∨ ty = 6 ∨ ty = 7 ∨ ty = 8 ∨ ty = 9 := by omega
    rcases this with h | h | h | h | h | h | h | h | h | h <;> subst h <;> rfl
  · have h1 : [1, 3, 5, 7, 9].contains ty = false := by
      simp only [List.contains_eq_mem, List.mem_cons, List.not_mem_nil, or_false, decide_eq_false_iff_not]
      omega
    rw [h1, isKey]
    simp [h]

/-- The job of a call with proper arguments. -/
def jobOf (a : Arr) (cols : Cols) (uniq func number : Int) (time inc rst : Obj) : Job :=
  { cols := (entries cols).map colFor, key := a.mem.take a.vals.length, rows := a.vals.length, uniq := uniq, func := func,
    timeTy := timeType time, time := (bytesOf a.vals.length time).getD [],
    masks := ⟨(bytesOf a.vals.length inc).map (·.map (· != 0)), (bytesOf a.vals.length rst).map (·.map (· != 0))⟩,
    param := number }

theorem mask_notOther {n : Nat} {o : Obj} (h : IsMask n o) : o ≠ .other := by
  rintro rfl; exact h

theorem time_notOther {n : Nat} {o : Obj} (h : IsTime n o) : o ≠ .other := by
  rintro rfl; exact h

theorem call_good (fa : Arith) (calls : List Nat) (r : Req) (a : Arr) (uniq func number : Int) (time inc rst : Obj)
    (h : Good r a uniq func number time inc rst) :
    emaAll fa calls r = runJob fa calls (jobOf a r.cols uniq func number time inc rst) := by
  have hu : longOf r.uniq = some uniq := by rw [h.uniq.1, longOf, Option.bind_some, if_pos h.uniq.2]
  have hf : longOf r.func = some func := by rw [h.func.1, longOf, Option.bind_some, if_pos h.func.2]
  have hb : buildCols r.cols = some ((entries r.cols).map colFor) := by
    rcases build_cases r.cols with ⟨_, e⟩ | ⟨hn, _⟩
    · exact e
    · exact absurd h.cols hn
  have h1 : maskBad a.vals.length rst = some false := by
    rcases maskBad_cases a.vals.length rst (mask_notOther h.rst) with ⟨_, e⟩ | ⟨hn, _⟩
    · exact e
    · exact absurd h.rst hn
  have h2 : maskBad a.vals.length inc = some false := by
    rcases maskBad_cases a.vals.length inc (mask_notOther h.inc) with ⟨_, e⟩ | ⟨hn, _⟩
    · exact e
    · exact absurd h.inc hn
  have h3 : timeBad a.vals.length time = some false := by
    rcases timeBad_cases a.vals.length time (time_notOther h.time) with ⟨_, e⟩ | ⟨hn, _⟩
    · exact e
    · exact absurd h.time hn
  unfold emaAll
  rw [h.key, hu, hf, h.params]
  dsimp only
  rw [key_iff, h.keyTy, if_pos rfl, callTests, h1]
  dsimp only
  rw [h2]
  dsimp only
  rw [h3]
  dsimp only
  rw [callRun, hb]
  rfl

end Riptide.Ema.Entry
