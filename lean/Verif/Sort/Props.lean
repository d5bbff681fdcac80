import Verif.Sort.Argsort
import Verif.Sort.ParProps
import Verif.Str.Props
import Verif.Work.Props
/-! # C17, C19, C57: argsort and lexsort -/
namespace Riptide.Sort
open Spec

variable {α : Type} {P : α → Prop} {lt : α → α → Bool}

/-! ## The comparisons are strict weak orders -/

theorem intLt_weak (asc : Bool) : Weak (fun _ => True) (intLt asc) := by
  constructor
  · intro x y _ _ h
    cases asc <;> simp only [intLt, if_true, if_false, Bool.false_eq_true, decide_eq_true_eq, decide_eq_false_iff_not] at * <;> omega
  · intro x y z _ _ _ h1 h2
    cases asc <;> simp only [intLt, if_true, if_false, Bool.false_eq_true, decide_eq_false_iff_not] at * <;> omega

theorem floatLt_weak (f : FT) (asc : Bool) : Weak (fun _ => True) (floatLt f asc) := by
  constructor
  · intro x y _ _
    cases asc <;> simp only [floatLt, FT.lt, if_true, if_false, Bool.false_eq_true] <;> cases f.isNan x <;> cases f.isNan y <;> simp <;> omega
  · intro x y z _ _ _
    cases asc <;> simp only [floatLt, FT.lt, if_true, if_false, Bool.false_eq_true] <;> cases f.isNan x <;> cases f.isNan y <;> cases f.isNan z <;> simp <;> omega

/-- Floats: ascending (descending) numbers, then the NaNs. -/
theorem floatLt_iff (f : FT) (asc : Bool) (x y : Nat) :
    floatLt f asc x y = true ↔
      f.isNan x = false ∧ (f.isNan y = true ∨ if asc then f.key x < f.key y else f.key y < f.key x) := by
  cases asc <;> simp only [floatLt, FT.lt, if_true, if_false, Bool.false_eq_true] <;> cases f.isNan x <;> cases f.isNan y <;> simp

theorem strLt_weak (w : Nat) (asc : Bool) : Weak (fun s : List Nat => s.length = w) (Str.sortLt asc) := by
  have hiff := (Str.sort_compare_total w asc).2
  have hneg : ∀ a b : List Nat, a.length = w → b.length = w →
      (Str.sortLt asc a b = false ↔ if asc then Str.Spec.content b ≤ Str.Spec.content a else Str.Spec.content a ≤ Str.Spec.content b) := by
    intro a b ha hb
    rw [← Bool.not_eq_true, hiff a b ha hb]
    cases asc <;> simp [Str.Spec.Before]
  constructor
  · intro x y hx hy h
    rw [hiff x y hx hy] at h
    rw [hneg y x hy hx]
    cases asc <;> simp only [Str.Spec.Before, if_true, if_false, Bool.false_eq_true] at * <;> exact List.le_of_lt h
  · intro x y z hx hy hz h1 h2
    rw [hneg y x hy hx] at h1
    rw [hneg z y hz hy] at h2
    rw [hneg z x hz hx]
    cases asc <;> simp only [if_true, if_false, Bool.false_eq_true] at *
    · exact List.le_trans h2 h1
    · exact List.le_trans h1 h2

theorem weak_of_total {lt : α → α → Bool} (h : Str.Spec.StrictTotal P Eq lt) : Weak P lt := by
  have as : ∀ x y, P x → P y → lt x y = true → lt y x = false := by
    intro x y hx hy hxy
    cases hyx : lt y x with
    | false => rfl
    | true =>
      have h1 := h.trans x y x hx hy hx hxy hyx
      rw [h.irrefl x hx] at h1
      exact h1.symm
  refine ⟨as, ?_⟩
  intro x y z hx hy hz h1 h2
  rcases h.total x y hx hy with h3 | rfl | h3
  · rcases h.total y z hy hz with h4 | rfl | h4
    · exact as x z hx hz (h.trans x y z hx hy hz h3 h4)
    · exact h1
    · rw [h2] at h4; exact absurd h4 (by simp)
  · exact h2
  · rw [h1] at h3; exact absurd h3 (by simp)

/-- The columns the theorems speak about: strings and raw bytes of one width. -/
def Column.Ok : Column → Prop
  | .strs _ v => ∃ w, ∀ s ∈ v, s.length = w
  | .voids _ v => ∃ w, ∀ s ∈ v, Str.Bytes w s
  | _ => True

theorem Spec.Weak.pull {β : Type} {Q : β → Prop} {lt : β → β → Bool} (W : Weak Q lt) (g : α → β) (h : ∀ x, P x → Q (g x)) :
    Weak P fun x y => lt (g x) (g y) :=
  ⟨fun x y hx hy => W.asymm _ _ (h x hx) (h y hy), fun x y z hx hy hz => W.trans _ _ _ (h x hx) (h y hy) (h z hz)⟩

theorem getD_mem {β : Type} (v : List β) (i : Nat) (d : β) (h : i < v.length) : v.getD i d ∈ v := by
  rw [List.getD_eq_getElem?_getD, List.getElem?_eq_getElem h]; exact List.getElem_mem h

theorem Column.weak (c : Column) (h : c.Ok) : Weak (fun i => i < c.len) c.lt := by
  cases c with
  | ints asc v => exact (intLt_weak asc).pull _ fun _ _ => trivial
  | floats f asc v => exact (floatLt_weak f asc).pull _ fun _ _ => trivial
  | strs asc v =>
    obtain ⟨w, hw⟩ := h
    exact (strLt_weak w asc).pull _ fun i hi => hw _ (getD_mem v i [] hi)
  | voids asc v =>
    obtain ⟨w, hw⟩ := h
    exact (weak_of_total (Str.void_compare_total w asc)).pull _ fun i hi => hw _ (getD_mem v i [] hi)

theorem Column.shift_ok (c : Column) (h : c.Ok) (s : Nat) : (c.shift s).Ok := by
  cases c with
  | ints asc v => trivial
  | floats f asc v => trivial
  | strs asc v => exact h.imp fun w hw x hx => hw x (List.mem_of_mem_drop hx)
  | voids asc v => exact h.imp fun w hw x hx => hw x (List.mem_of_mem_drop hx)

theorem Column.shift_len (c : Column) (s : Nat) : (c.shift s).len = c.len - s := by
  cases c <;> simp [Column.shift, Column.len]

/-- Shifting compares the rows of the whole column. -/
theorem Column.shift_lt (c : Column) (s i j : Nat) : (c.shift s).lt i j = c.lt (s + i) (s + j) := by
  cases c <;> simp [Column.shift, Column.lt]

/-! ## C17 -/

/-- **C17.** Argsort returns the stable sort of the index it was given — the same rows, ascending or descending by value,
tied rows in their original order — in every way it can be executed. -/
theorem parSort_exact (W : Weak P lt) (skip : Bool) (a : List α) (hP : ∀ x ∈ a, P x) (r : Option (List α))
    (h : ParSort lt skip a r) : ∃ out, r = some out ∧ StableSort lt a out := by
  cases h with
  | single w hb hw => exact single_sort_exact W skip a w hP (by omega)
  | direct w hb hw => exact single_sort_exact W skip a w hP (by omega)
  | bad w js hb hw hjs hr =>
    obtain ⟨s, hs⟩ := parallel_sort_in_bounds W skip a w hP (by omega) js hjs
    rw [hr] at hs; exact absurd hs (by simp)
  | par w js s hb hw hjs hr hd => exact ⟨s.a, rfl, parallel_sort_exact W skip a w hP (by omega) js hjs s hr hd⟩

/-- **C17.** Argsort of a column: every execution gives the stable argsort. -/
theorem argsort_stable (c : Column) (hc : c.Ok) (idx : List Nat) (hi : ∀ i ∈ idx, i < c.len) (r : Option (List Nat))
    (h : Pass c idx r) : ∃ out, r = some out ∧ StableSort c.lt idx out := by
  cases h with
  | oob h => exact absurd hi h
  | run _ _ hr => exact parSort_exact (c.weak hc) c.skip idx hi r hr

/-- There is an execution. -/
theorem parSort_runs (skip : Bool) (a : List α) : ∃ r, ParSort lt skip a r := by
  rcases Nat.lt_or_ge a.length workItemBig with h | h
  · exact ⟨_, .single (a.take (a.length / 2)) h (by simp; omega)⟩
  · exact ⟨_, .direct a h rfl⟩

/-- In words of positions: for rows in ascending order of row number, an earlier position holds a smaller value, or an equal
value and a smaller row number. -/
theorem stable_positions {lt : Nat → Nat → Bool} {P : Nat → Prop} (W : Weak P lt) {n : Nat} (hP : ∀ i, i < n → P i)
    {out : List Nat} (h : StableSort lt (List.range n) out) :
    out.Perm (List.range n) ∧
      out.Pairwise fun x y => lt x y = true ∨ (lt x y = false ∧ lt y x = false ∧ x < y) := by
  refine ⟨h.perm, ?_⟩
  rw [List.pairwise_iff_forall_sublist]
  intro x y hxy
  have hs := (List.pairwise_iff_forall_sublist.mp h.sorted) hxy
  have hx : x < n := by
    have : x ∈ out := hxy.subset (by simp)
    simpa using h.perm.mem_iff.mp this
  cases hlt : lt x y with
  | true => exact .inl rfl
  | false =>
    refine .inr ⟨rfl, hs, ?_⟩
    have ht : tie lt x y = true := tie_iff.mpr ⟨hlt, hs⟩
    have hf := hxy.filter (tie lt x)
    rw [h.stable x (by simpa using hx)] at hf
    have e : [x, y].filter (tie lt x) = [x, y] := by
      rw [List.filter_cons, tie_self W (hP x hx), List.filter_cons, ht]; rfl
    rw [e] at hf
    have hp : ((List.range n).filter (tie lt x)).Pairwise (· < ·) := (List.pairwise_lt_range).filter _
    exact (List.pairwise_iff_forall_sublist.mp hp) hf

/-- **C17.** From the identity index, in words of positions. -/
theorem argsort_positions (c : Column) (hc : c.Ok) (r : Option (List Nat)) (h : Pass c (List.range c.len) r) :
    ∃ out, r = some out ∧ out.Perm (List.range c.len) ∧
      out.Pairwise fun x y => c.lt x y = true ∨ (c.lt x y = false ∧ c.lt y x = false ∧ x < y) := by
  obtain ⟨out, ho, hs⟩ := argsort_stable c hc _ (by simp) r h
  exact ⟨out, ho, stable_positions (c.weak hc) (fun _ h => h) hs⟩

example : Column.Ok (.floats .f64 false [0x3ff0000000000000, 0x7ff8000000000000, 0x4000000000000000]) := trivial
/-- Descending floats `1.0, nan, 2.0`: `2.0, 1.0, nan`. -/
example : singleSort (Column.lt (.floats .f64 false [0x3ff0000000000000, 0x7ff8000000000000, 0x4000000000000000])) false
    [0, 1, 2] [0] = some [2, 0, 1] := by decide +kernel
/-- A tie keeps the original order, also descending. -/
example : singleSort (Column.lt (.ints false [5, 7, 5, 7])) true [0, 1, 2, 3] [0, 0] = some [1, 3, 0, 2] := by
  decide +kernel
/-- Seventeen rows: the merge is used. -/
example : singleSort (Column.lt (.ints true [3, 1, 4, 1, 5, 9, 2, 6, 5, 3, 5, 8, 9, 7, 9, 3, 2])) true
    (List.range 17) (List.replicate 8 0) = some [1, 3, 6, 16, 0, 9, 15, 2, 4, 8, 10, 7, 13, 11, 5, 12, 14] := by
  decide +kernel

/-! ## C19 -/

theorem lexLt_weak : ∀ {lts : List (α → α → Bool)}, (∀ lt ∈ lts, Weak P lt) → Weak P (lexLt lts)
  | [], _ => ⟨fun _ _ _ _ _ => rfl, fun _ _ _ _ _ _ _ _ => rfl⟩
  | l :: lts, h => by
    have W := h l (by simp)
    have M := lexLt_weak fun lt hlt => h lt (List.mem_cons_of_mem _ hlt)
    constructor
    · intro x y hx hy
      have h1 := M.asymm x y hx hy
      have h2 := W.asymm x y hx hy
      simp only [lexLt]
      revert h1 h2
      cases lexLt lts x y <;> cases lexLt lts y x <;> cases l x y <;> cases l y x <;> simp
    · intro x y z hx hy hz
      have h1 := M.trans x y z hx hy hz
      have h2 := W.trans x y z hx hy hz
      have h3 := M.lt_of_lt_of_le (x := x) (y := y) (z := z) hx hy hz
      have h4 := M.lt_of_le_of_lt (x := x) (y := y) (z := z) hx hy hz
      have h5 := M.asymm x y hx hy
      have h6 := M.asymm y z hy hz
      have h7 := M.asymm x z hx hz
      simp only [lexLt]
      revert h1 h2 h3 h4 h5 h6 h7
      cases lexLt lts x y <;> cases lexLt lts y x <;> cases lexLt lts y z <;> cases lexLt lts z y <;>
        cases lexLt lts x z <;> cases lexLt lts z x <;> simp <;> intros <;> simp_all

theorem tie_lex (l : α → α → Bool) (lts : List (α → α → Bool)) (z x : α) :
    tie (lexLt (l :: lts)) z x = (tie (lexLt lts) z x && tie l z x) := by
  simp only [tie, lexLt]
  cases lexLt lts z x <;> cases lexLt lts x z <;> cases l z x <;> cases l x z <;> rfl

/-- A stable sort by the less significant column and then by the others is a stable sort by all. -/
theorem stable_lex {l : α → α → Bool} {lts : List (α → α → Bool)} (M : Weak P (lexLt lts)) {a o out : List α}
    (hP : ∀ x ∈ a, P x) (h1 : StableSort l a o) (h2 : StableSort (lexLt lts) o out) :
    StableSort (lexLt (l :: lts)) a out := by
  refine ⟨h2.perm.trans h1.perm, ?_, ?_⟩
  · rw [List.pairwise_iff_forall_sublist]
    intro x y hxy
    have hs := (List.pairwise_iff_forall_sublist.mp h2.sorted) hxy
    have hx : x ∈ o := h2.mem.mp (hxy.subset (by simp))
    simp only [lexLt, hs, Bool.false_or]
    cases hm : lexLt lts x y with
    | true => rfl
    | false =>
      have ht : tie (lexLt lts) x y = true := tie_iff.mpr ⟨hm, hs⟩
      have hf := hxy.filter (tie (lexLt lts) x)
      rw [h2.stable x hx] at hf
      have e : [x, y].filter (tie (lexLt lts) x) = [x, y] := by
        rw [List.filter_cons, tie_self M (hP x (h1.mem.mp hx)), List.filter_cons, ht]; rfl
      rw [e] at hf
      have := (List.pairwise_iff_forall_sublist.mp h1.sorted) (hf.trans List.filter_sublist)
      simpa using this
  · intro z hz
    have e : ∀ L : List α, L.filter (tie (lexLt (l :: lts)) z) = (L.filter (tie (lexLt lts) z)).filter (tie l z) := by
      intro L
      rw [List.filter_filter]
      congr 1
      funext x
      rw [tie_lex, Bool.and_comm]
    rw [e, e, h2.stable z (h1.mem.mpr hz), List.filter_filter, List.filter_filter]
    have e2 : ∀ L : List α, L.filter (fun x => tie l z x && tie (lexLt lts) z x) =
        (L.filter (tie l z)).filter (tie (lexLt lts) z) := by
      intro L
      rw [List.filter_filter]
      congr 1
      funext x
      rw [Bool.and_comm]
    rw [e2, e2, h1.stable z hz]

/-- **C19.** Every execution of the passes over the columns leaves the stable sort of the start index by all columns, the last
one the most significant. -/
theorem lexsort_stable (n : Nat) : ∀ (cols : List Column) (idx : List Nat) (r : Option (List Nat)),
    (∀ c ∈ cols, c.Ok ∧ c.len = n) → (∀ i ∈ idx, i < n) → LexRun cols idx r →
    ∃ out, r = some out ∧ StableSort (lexLt (cols.map Column.lt)) idx out := by
  intro cols
  induction cols with
  | nil =>
    intro idx r _ _ h
    cases h
    exact ⟨idx, rfl, StableSort.refl (List.pairwise_of_forall fun _ _ => rfl)⟩
  | cons c cs ih =>
    intro idx r hc hi h
    have hcc := hc c (by simp)
    have hcs : ∀ d ∈ cs, d.Ok ∧ d.len = n := fun d hd => hc d (by simp [hd])
    have hin : ∀ i ∈ idx, i < c.len := fun i h => hcc.2 ▸ hi i h
    cases h with
    | fail _ _ _ h =>
      obtain ⟨out, ho, _⟩ := argsort_stable c hcc.1 idx hin _ h
      exact absurd ho (by simp)
    | step _ _ _ o _ h hr =>
      obtain ⟨o', ho, hs⟩ := argsort_stable c hcc.1 idx hin _ h
      cases ho
      obtain ⟨out, ho, hs2⟩ := ih o r hcs (fun i h => hi i (hs.mem.mp h)) hr
      refine ⟨out, ho, ?_⟩
      rw [List.map_cons]
      refine stable_lex (P := fun i => i < n) ?_ hi hs hs2
      apply lexLt_weak
      intro lt hlt
      obtain ⟨d, hd, rfl⟩ := List.mem_map.mp hlt
      have := d.weak (hcs d hd).1
      rw [(hcs d hd).2] at this
      exact this

/-- There is an execution. -/
theorem lexRun_runs : ∀ (cols : List Column) (idx : List Nat), ∃ r, LexRun cols idx r
  | [], idx => ⟨_, .nil idx⟩
  | c :: cs, idx => by
    by_cases hin : ∀ i ∈ idx, i < c.len
    · obtain ⟨r, hr⟩ := parSort_runs (lt := c.lt) c.skip idx
      cases r with
      | none => exact ⟨_, .fail c cs idx (.run _ hin hr)⟩
      | some o =>
        obtain ⟨r', hr'⟩ := lexRun_runs cs o
        exact ⟨_, .step c cs idx o r' (.run _ hin hr) hr'⟩
    · exact ⟨_, .fail c cs idx (.oob hin)⟩

/-- **C19.** Lexsort: the rows in lexicographic order, the last column the most significant, rows that tie in every column in
their original order. -/
theorem lexsort_exact (idxMax n workers : Nat) (nt : Bool) (cols : List Column) (hc : ∀ c ∈ cols, c.Ok ∧ c.len = n)
    (hn : n ≤ idxMax) (r : Except Unit (Option (List Nat))) (h : LexSort idxMax n workers nt cols none r) :
    ∃ out, r = .ok (some out) ∧ StableSort (lexLt (cols.map Column.lt)) (List.range n) out ∧
      out.Pairwise fun x y => lexLt (cols.map Column.lt) x y = true ∨
        (lexLt (cols.map Column.lt) x y = false ∧ lexLt (cols.map Column.lt) y x = false ∧ x < y) := by
  cases h with
  | tooLong _ h => omega
  | plain r _ hr =>
    obtain ⟨out, ho, hs⟩ := lexsort_stable n cols _ r hc (by simp) hr
    refine ⟨out, by rw [ho], hs, ?_⟩
    refine (stable_positions (P := fun i => i < n) ?_ (fun _ h => h) hs).2
    apply lexLt_weak
    intro lt hlt
    obtain ⟨d, hd, rfl⟩ := List.mem_map.mp hlt
    have := d.weak (hc d hd).1
    rw [(hc d hd).2] at this
    exact this

/-- Two columns, the first descending, the second (most significant) ascending. -/
def exCols : List Column := [.ints false [1, 2, 3, 2], .strs true [[98, 0], [97, 0], [98, 0], [97, 98]]]

example : ∀ c ∈ exCols, c.Ok ∧ c.len = 4 := by
  intro c hc
  simp only [exCols, List.mem_cons, List.not_mem_nil, or_false] at hc
  rcases hc with rfl | rfl
  · exact ⟨trivial, rfl⟩
  · exact ⟨⟨2, by decide⟩, rfl⟩

/-- The run of this example: rows by the string (`a`, `ab`, `b`, `b`), then by the number descending. -/
example : LexSort (2 ^ 31 - 1) 4 0 true exCols none (.ok (some [1, 3, 2, 0])) := by
  have h1 : singleSort (Column.lt (.ints false [1, 2, 3, 2])) true [0, 1, 2, 3] [0, 0] = some [2, 1, 3, 0] := by
    decide +kernel
  have h2 : singleSort (Column.lt (.strs true [[98, 0], [97, 0], [98, 0], [97, 98]])) false [2, 1, 3, 0] [0, 0] =
      some [1, 3, 2, 0] := by decide +kernel
  refine .plain _ (by decide) (.step _ _ _ [2, 1, 3, 0] _ (.run _ (by decide) ?_) (.step _ _ _ [1, 3, 2, 0] _
    (.run _ (by decide) ?_) (.nil _)))
  · rw [← h1]; exact .single _ (by decide) rfl
  · rw [← h2]; exact .single _ (by decide) rfl

/-! ## C57: partitions -/

/-- First row of partition `t`. -/
def cutLo (cuts : List Nat) (t : Nat) : Nat := if t = 0 then 0 else cuts.getD (t - 1) 0

theorem cut_le {cuts : List Nat} (hm : cuts.Pairwise (· ≤ ·)) {t u : Nat} (h : t ≤ u) (hu : u < cuts.length) :
    cuts.getD t 0 ≤ cuts.getD u 0 := by
  rw [List.getD_eq_getElem?_getD, List.getD_eq_getElem?_getD, List.getElem?_eq_getElem hu, List.getElem?_eq_getElem (by omega)]
  rcases Nat.eq_or_lt_of_le h with rfl | h
  · exact Nat.le_refl _
  · exact List.pairwise_iff_getElem.mp hm t u (by omega) hu h

theorem cutLo_le {cuts : List Nat} (hm : cuts.Pairwise (· ≤ ·)) {t : Nat} (ht : t < cuts.length) :
    cutLo cuts t ≤ cuts.getD t 0 := by
  unfold cutLo
  split
  · omega
  · exact cut_le hm (by omega) ht

theorem cut_disjoint {cuts : List Nat} (hm : cuts.Pairwise (· ≤ ·)) {t u : Nat} (ht : t < cuts.length) (hu : u < cuts.length)
    (h : t ≠ u) : cuts.getD t 0 ≤ cutLo cuts u ∨ cuts.getD u 0 ≤ cutLo cuts t := by
  rcases Nat.lt_or_gt_of_ne h with h | h
  · left; unfold cutLo; rw [if_neg (by omega)]; exact cut_le hm (by omega) (by omega)
  · right; unfold cutLo; rw [if_neg (by omega)]; exact cut_le hm (by omega) (by omega)

/-- The rows of the index in partition `t`. -/
def part (cuts a : List Nat) (t : Nat) : List Nat := sl a (cutLo cuts t) (cuts.getD t 0)

theorem sortPart_spec (c : Column) (hc : c.Ok) {cuts : List Nat} (hm : cuts.Pairwise (· ≤ ·)) (w : Nat → List Nat)
    (hw : ∀ t, (w t).length = (cuts.getD t 0 - cutLo cuts t) / 2) (a : List Nat) (t : Nat) (ht : t < cuts.length)
    (hl : cuts.getD t 0 ≤ a.length) (hin : ∀ i ∈ part cuts a t, cutLo cuts t + i < c.len) :
    ∃ a', sortPart c cuts w a t = some a' ∧ a'.length = a.length ∧
      StableSort (c.shift (cutLo cuts t)).lt (part cuts a t) (part cuts a' t) ∧
      ∀ u, u < cuts.length → u ≠ t → part cuts a' u = part cuts a u := by
  have hle := cutLo_le hm ht
  unfold sortPart
  simp only
  change ∃ a', (if cuts.getD t 0 ≤ cutLo cuts t then some a else if a.length < cuts.getD t 0 then none else
    if (part cuts a t).all (fun i => decide (cutLo cuts t + i < c.len)) = true then
      match singleSort (c.shift (cutLo cuts t)).lt c.skip (part cuts a t) (w t) with
      | none => none
      | some out => some (a.take (cutLo cuts t) ++ out ++ a.drop (cuts.getD t 0))
    else none) = some a' ∧ _
  by_cases hemp : cuts.getD t 0 ≤ cutLo cuts t
  · refine ⟨a, by rw [if_pos hemp], rfl, ?_, fun _ _ _ => rfl⟩
    have : part cuts a t = [] := by
      unfold part sl
      rw [show cuts.getD t 0 - cutLo cuts t = 0 by omega, List.take_zero]
    rw [this]
    exact StableSort.refl .nil
  · rw [if_neg hemp, if_neg (by omega), if_pos (by simpa using hin)]
    have hplen : (part cuts a t).length = cuts.getD t 0 - cutLo cuts t := sl_length _ _ _ hl
    obtain ⟨out, ho, hs⟩ := single_sort_exact ((c.shift (cutLo cuts t)).weak (c.shift_ok hc _)) c.skip (part cuts a t) (w t)
      (fun i hi => by have := hin i hi; rw [Column.shift_len]; omega) (by rw [hw, hplen]; omega)
    rw [ho]
    have hol : out.length = (part cuts a t).length := hs.length
    have hpre : (a.take (cutLo cuts t)).length = cutLo cuts t := by simp only [List.length_take]; omega
    have hsp : a = a.take (cutLo cuts t) ++ part cuts a t ++ a.drop (cuts.getD t 0) := sl_split a _ _ hle
    refine ⟨_, rfl, ?_, ?_, ?_⟩
    · conv => rhs; rw [hsp]
      simp [hol]
    · have : part cuts (a.take (cutLo cuts t) ++ out ++ a.drop (cuts.getD t 0)) t = out :=
        sl_mid _ _ _ hpre.symm (by rw [hpre, hol, hplen]; omega)
      rw [this]; exact hs
    · intro u hu hut
      unfold part
      apply sl_congr (lo := cutLo cuts t) (hi := cuts.getD t 0)
      · intro i hi
        conv => rhs; rw [hsp]
        apply out_of_mid hol
        rw [hpre, hplen]; omega
      · exact cut_disjoint hm hu ht hut

theorem sortParts_spec (c : Column) (hc : c.Ok) {cuts : List Nat} (hm : cuts.Pairwise (· ≤ ·)) (w : Nat → List Nat)
    (hw : ∀ t, (w t).length = (cuts.getD t 0 - cutLo cuts t) / 2) : ∀ (ts : List Nat) (a : List Nat), ts.Nodup →
    (∀ t ∈ ts, t < cuts.length) → (∀ t, t < cuts.length → cuts.getD t 0 ≤ a.length) →
    (∀ t, t < cuts.length → ∀ i ∈ part cuts a t, cutLo cuts t + i < c.len) →
    ∃ a', sortParts c cuts w ts a = some a' ∧ a'.length = a.length ∧
      (∀ t ∈ ts, StableSort (c.shift (cutLo cuts t)).lt (part cuts a t) (part cuts a' t)) ∧
      ∀ u, u < cuts.length → u ∉ ts → part cuts a' u = part cuts a u := by
  intro ts
  induction ts with
  | nil => intro a _ _ _ _; exact ⟨a, rfl, rfl, by simp, fun _ _ _ => rfl⟩
  | cons t ts ih =>
    intro a hnd hts hl hin
    rw [List.nodup_cons] at hnd
    have ht := hts t (by simp)
    obtain ⟨a1, h1, hl1, hs1, ho1⟩ := sortPart_spec c hc hm w hw a t ht (hl t ht) (hin t ht)
    obtain ⟨a2, h2, hl2, hs2, ho2⟩ := ih a1 hnd.2 (fun u hu => hts u (by simp [hu])) (by rw [hl1]; exact hl) (by
      intro u hu i hi
      by_cases hut : u = t
      · subst hut; exact hin u hu i (hs1.mem.mp hi)
      · rw [ho1 u hu hut] at hi; exact hin u hu i hi)
    refine ⟨a2, by simp only [sortParts, h1]; exact h2, by rw [hl2, hl1], ?_, ?_⟩
    · intro u hu
      rcases List.mem_cons.mp hu with rfl | hu'
      · rw [ho2 u ht hnd.1]; exact hs1
      · have hne : u ≠ t := fun h => hnd.1 (h ▸ hu')
        rw [← ho1 u (hts u hu) hne]
        exact hs2 u hu'
    · intro u hu hnot
      rw [List.mem_cons, not_or] at hnot
      rw [ho2 u hu hnot.2, ho1 u hu hnot.1]

theorem cutRun_spec {cuts : List Nat} (hm : cuts.Pairwise (· ≤ ·)) (n workers : Nat) (nt : Bool)
    (hn : ∀ t, t < cuts.length → cuts.getD t 0 ≤ n) : ∀ (cols : List Column) (a : List Nat) (r : Option (List Nat)),
    (∀ c ∈ cols, c.Ok ∧ c.len = n) → a.length = n →
    (∀ t, t < cuts.length → ∀ i ∈ part cuts a t, cutLo cuts t + i < n) → CutRun workers nt cuts cols a r →
    ∃ out, r = some out ∧ out.length = n ∧ ∀ t, t < cuts.length →
      StableSort (lexLt (cols.map fun c => (c.shift (cutLo cuts t)).lt)) (part cuts a t) (part cuts out t) := by
  intro cols
  induction cols with
  | nil =>
    intro a r _ hl _ h
    cases h
    exact ⟨a, rfl, hl, fun t _ => StableSort.refl (List.pairwise_of_forall fun _ _ => rfl)⟩
  | cons c cs ih =>
    intro a r hc hl hin h
    have hcc := hc c (by simp)
    have hcs : ∀ d ∈ cs, d.Ok ∧ d.len = n := fun d hd => hc d (by simp [hd])
    have pass : ∀ r', CutPass workers nt c cuts a r' → ∃ o, r' = some o ∧ o.length = n ∧ ∀ t, t < cuts.length →
        StableSort (c.shift (cutLo cuts t)).lt (part cuts a t) (part cuts o t) := by
      intro r' h
      cases h with
      | run w order ho hw =>
        have hp := Work.CountedWork.perm ho
        obtain ⟨o, h1, h2, h3, _⟩ := sortParts_spec c hcc.1 hm w hw order a (hp.nodup_iff.mpr List.nodup_range)
          (fun t ht => by simpa using hp.mem_iff.mp ht) (by rw [hl]; exact hn) (by rw [hcc.2]; exact hin)
        exact ⟨o, h1, by rw [h2, hl], fun t ht => h3 t (hp.mem_iff.mpr (by simpa using ht))⟩
    cases h with
    | fail _ _ _ h =>
      obtain ⟨o, ho, _⟩ := pass _ h
      exact absurd ho (by simp)
    | step _ _ _ o _ h hr =>
      obtain ⟨o', ho, hol, hs⟩ := pass _ h
      cases ho
      obtain ⟨out, ho, hol2, hs2⟩ := ih o r hcs hol (fun t ht i hi => hin t ht i ((hs t ht).mem.mp hi)) hr
      refine ⟨out, ho, hol2, fun t ht => ?_⟩
      rw [List.map_cons]
      refine stable_lex (P := fun i => i < n - cutLo cuts t) ?_ (fun i hi => ?_) (hs t ht) (hs2 t ht)
      · apply lexLt_weak
        intro lt hlt
        obtain ⟨d, hd, rfl⟩ := List.mem_map.mp hlt
        have := (d.shift (cutLo cuts t)).weak (d.shift_ok (hcs d hd).1 _)
        rw [Column.shift_len, (hcs d hd).2] at this
        exact this
      · have := hin t ht i hi; omega

theorem prep_go : ∀ (cuts : List Nat) (start e : Nat), (start :: cuts).Pairwise (· ≤ ·) → cuts.getLast? = some e →
    start + (prepIndex.go start cuts).length = e ∧ ∀ t, t < cuts.length →
      ((prepIndex.go start cuts).drop ((if t = 0 then start else cuts.getD (t - 1) 0) - start)).take
        (cuts.getD t 0 - (if t = 0 then start else cuts.getD (t - 1) 0)) =
      List.range (cuts.getD t 0 - (if t = 0 then start else cuts.getD (t - 1) 0)) := by
  intro cuts
  induction cuts with
  | nil => intro _ _ _ h; simp at h
  | cons c cs ih =>
    intro start e hp hl
    have hsc : start ≤ c := by
      have := List.rel_of_pairwise_cons hp (a' := c) (by simp); exact this
    have hp' : (c :: cs).Pairwise (· ≤ ·) := (List.pairwise_cons.mp hp).2
    unfold prepIndex.go
    cases cs with
    | nil =>
      simp at hl
      subst hl
      refine ⟨by simp [prepIndex.go]; omega, ?_⟩
      intro t ht
      have : t = 0 := by simpa using ht
      subst this
      simp [prepIndex.go]
    | cons d ds =>
      have hl' : (d :: ds).getLast? = some e := by rw [← hl, List.getLast?_cons_cons]
      obtain ⟨h1, h2⟩ := ih c e hp' hl'
      refine ⟨by simp only [List.length_append, List.length_range]; omega, ?_⟩
      intro t ht
      cases t with
      | zero => simp
      | succ t =>
        have h3 := h2 t (by simpa using ht)
        have hge : c ≤ (if t = 0 then c else (d :: ds).getD (t - 1) 0) := by
          split
          · exact Nat.le_refl _
          · rename_i h0
            have hlt : t - 1 < (d :: ds).length := by simp at ht ⊢; omega
            have := getD_mem (d :: ds) (t - 1) 0 hlt
            exact (List.pairwise_cons.mp hp').1 _ this
        have e1 : (if t + 1 = 0 then start else (c :: d :: ds).getD (t + 1 - 1) 0) =
            (if t = 0 then c else (d :: ds).getD (t - 1) 0) := by
          cases t <;> simp
        have e2 : (c :: d :: ds).getD (t + 1) 0 = (d :: ds).getD t 0 := by simp
        rw [e1, e2]
        rw [← h3]
        generalize (if t = 0 then c else (d :: ds).getD (t - 1) 0) = q at *
        rw [List.drop_append]
        have : (List.range (c - start)).drop (q - start) = [] := by
          apply List.drop_eq_nil_of_le; simp; omega
        rw [this, List.nil_append, List.length_range, show q - start - (c - start) = q - c by omega]

theorem prepIndex_spec {cuts : List Nat} {n : Nat} (hm : cuts.Pairwise (· ≤ ·)) (hl : cuts.getLast? = some n) :
    ∃ a, prepIndex n cuts = some a ∧ a.length = n ∧ ∀ t, t < cuts.length →
      part cuts a t = List.range (cuts.getD t 0 - cutLo cuts t) := by
  obtain ⟨h1, h2⟩ := prep_go cuts 0 n (List.pairwise_cons.mpr ⟨fun _ _ => Nat.zero_le _, hm⟩) hl
  refine ⟨prepIndex.go 0 cuts, ?_, by omega, ?_⟩
  · unfold prepIndex
    simp only
    rw [if_pos (by omega), show n - (prepIndex.go 0 cuts).length = 0 by omega]
    simp
  · intro t ht
    exact h2 t ht

/-- **C57.** With cutoffs in ascending order the last of which is the number of rows, every execution sorts each
partition separately: partition `t` of the result is the lexicographic stable argsort of the rows of that partition, numbered
from 0. -/
theorem lexsort_partitions_partial (idxMax n workers : Nat) (nt : Bool) (cols : List Column) (cuts : List Nat)
    (hc : ∀ c ∈ cols, c.Ok ∧ c.len = n) (hn : n ≤ idxMax) (hm : cuts.Pairwise (· ≤ ·)) (hl : cuts.getLast? = some n)
    (r : Except Unit (Option (List Nat))) (h : LexSort idxMax n workers nt cols (some cuts) r) :
    ∃ out, r = .ok (some out) ∧ out.length = n ∧ ∀ t, t < cuts.length →
      let lo := if t = 0 then 0 else cuts.getD (t - 1) 0
      let len := cuts.getD t 0 - lo
      StableSort (fun i j => lexLt (cols.map Column.lt) (lo + i) (lo + j)) (List.range len) ((out.drop lo).take len) := by
  obtain ⟨a, ha, hal, hap⟩ := prepIndex_spec hm hl
  have hle : ∀ t, t < cuts.length → cuts.getD t 0 ≤ n := by
    intro t ht
    have h1 : cuts.getD (cuts.length - 1) 0 = n := by
      rw [List.getD_eq_getElem?_getD, ← List.getLast?_eq_getElem?, hl]; rfl
    rw [← h1]; exact cut_le hm (by omega) (by omega)
  have hlex : ∀ (lo : Nat) (i j : Nat), lexLt (cols.map fun c => (c.shift lo).lt) i j =
      lexLt (cols.map Column.lt) (lo + i) (lo + j) := by
    intro lo i j
    clear hc h
    induction cols generalizing i j with
    | nil => rfl
    | cons c cs ih => simp only [List.map_cons, lexLt, ih, Column.shift_lt]
  cases h with
  | tooLong _ h => omega
  | badCuts _ e _ hl' he => rw [hl] at hl'; cases hl'; exact absurd rfl he
  | noCuts _ => simp at hl
  | prepFail _ _ _ hp => rw [ha] at hp; exact absurd hp (by simp)
  | cuts _ a' r _ _ hp hr =>
    rw [ha] at hp
    cases hp
    obtain ⟨out, ho, hol, hs⟩ := cutRun_spec hm n workers nt hle cols a r hc hal (by
      intro t ht i hi
      rw [hap t ht] at hi
      have := hle t ht
      rw [List.mem_range] at hi
      omega) hr
    refine ⟨out, by rw [ho], hol, fun t ht => ?_⟩
    have := hs t ht
    rw [hap t ht] at this
    have e : (lexLt (cols.map fun c => (c.shift (cutLo cuts t)).lt)) =
        fun i j => lexLt (cols.map Column.lt) (cutLo cuts t + i) (cutLo cuts t + j) := by
      funext i j; exact hlex _ i j
    rw [e] at this
    exact this

/-- Only the last cutoff is checked: for cutoffs that are not ascending the index is written past its end.  Three rows,
cutoffs `3, 0, 3`. -/
theorem lexsort_cutoffs_overflow :
    LexSort (2 ^ 31 - 1) 3 4 false [.ints true [1, 2, 3]] (some [3, 0, 3]) (.ok none) :=
  .prepFail _ (by decide) rfl (by decide)

/-- An empty list of cutoffs makes the check itself read before the array. -/
theorem lexsort_cutoffs_empty : LexSort (2 ^ 31 - 1) 3 4 false [.ints true [1, 2, 3]] (some []) (.ok none) :=
  .noCuts (by decide)

/-- Rows `[5, 3 | 2, 9, 1]`: each partition is sorted on its own. -/
example : ∃ w : Nat → List Nat,
    sortParts (.ints true [5, 3, 2, 9, 1]) [2, 5] w [1, 0] [0, 1, 0, 1, 2] = some [1, 0, 2, 0, 1] :=
  ⟨fun _ => [0], by decide +kernel⟩

example : [2, 5].Pairwise (· ≤ ·) ∧ ([2, 5] : List Nat).getLast? = some 5 := by decide

end Riptide.Sort
