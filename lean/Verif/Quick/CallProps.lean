import Verif.Quick.Call
import Verif.Quick.CallSpec
import Verif.Quick.Props
import Verif.Pack.CallProps
/-! What `IsSorted`, `SortInPlace`, `Sort` and `SortInPlaceIndirect` answer for arrays (C151). -/
namespace Riptide.Quick.Call
open Riptide.Nums Riptide.Sort
open Riptide.Quick.Call.Spec
open Riptide.Pack.Call (items items_of)
open Riptide.Quick.Spec (FloatLe)
open Riptide.Str (sortLt voidLt)
open Riptide.Str.Spec (Before)

/-! ## Reading -/

theorem intType_kind {type : Nat} {t : IT} (h : IntType type t) : kindOf type = some (.ints t) ∧ 0 < t.bits := by
  simp only [IntType, List.mem_cons, List.not_mem_nil, Prod.mk.injEq, or_false] at h
  rcases h with h | h | h | h | h | h | h | h | h | h | h <;> (obtain ⟨rfl, rfl⟩ := h; exact ⟨rfl, by decide⟩)

theorem floatType_kind {type w : Nat} {f : FT} (h : FloatType type f w) : kindOf type = some (.floats f) ∧ floatBytes f = w := by
  simp only [FloatType, List.mem_cons, List.not_mem_nil, Prod.mk.injEq, or_false] at h
  rcases h with ⟨rfl, rfl, rfl⟩ | ⟨rfl, rfl, rfl⟩ <;> exact ⟨rfl, by decide⟩

theorem textType_kind {type u : Nat} (h : TextType type u) : kindOf type = some (.chars u) ∧ 0 < u := by
  simp only [TextType, List.mem_cons, List.not_mem_nil, Prod.mk.injEq, or_false] at h
  rcases h with ⟨rfl, rfl⟩ | ⟨rfl, rfl⟩ <;> exact ⟨rfl, by decide⟩

theorem units_of {u k : Nat} {m : Mem} {o : Int} {r : List Nat} (hl : r.length = k) (h : HasRow u false m o r) : units u k m o = some r := by
  unfold units
  rw [Riptide.Binary.mapM_some_range k _ (fun j => r.getD j 0)]
  · congr 1
    apply List.ext_getElem
    · simp [hl]
    · intro i h1 h2
      simp [List.getD, h2]
  · intro j hj
    exact load_bits (h j (by omega))

theorem floats_of {w : Nat} {a : Arr} {m : Mem} {vs : List Nat} (hi : a.lay.item = w) (hp : Plain a) (hv : Bits w a m vs) :
    vs.length = a.lay.len ∧ units w a.lay.len m 0 = some vs := by
  obtain ⟨h1, h2⟩ := plain_bits hp hv
  refine ⟨h1, ?_⟩
  unfold units
  rw [Riptide.Binary.mapM_some_range a.lay.len _ (fun j => vs.getD j 0)]
  · congr 1
    apply List.ext_getElem
    · simp [h1]
    · intro i h3 h4
      simp [List.getD, h4]
  · intro j hj
    have := h2 j vs[j] (List.getElem?_eq_getElem (by omega))
    rw [hi, Nat.mul_comm] at this
    rw [Int.zero_add, this]
    simp [List.getD, show j < vs.length by omega]

theorem rows_of {u k : Nat} {a : Arr} {m : Mem} {rs : List (List Nat)} (hp : Plain a) (hr : Rows u k a m rs) :
    rs.length = a.lay.len ∧ (∀ r ∈ rs, r.length = k) ∧ rows u k a.lay.item a.lay.len m = some rs := by
  unfold Rows at hr
  rw [hp.2.2] at hr
  obtain ⟨h1, h2⟩ := plain_at hp hr
  refine ⟨h1, ?_, ?_⟩
  · intro r hr
    obtain ⟨i, hi, rfl⟩ := List.getElem_of_mem hr
    exact (h2 i _ (List.getElem?_eq_getElem hi)).1
  · unfold rows
    rw [Riptide.Binary.mapM_some_range a.lay.len _ (fun j => rs.getD j [])]
    · congr 1
      apply List.ext_getElem
      · simp [h1]
      · intro i h3 h4
        simp [List.getD, h4]
    · intro i hi
      have := h2 i rs[i] (List.getElem?_eq_getElem (by omega))
      rw [units_of this.1 this.2]
      simp [List.getD, show i < rs.length by omega]

theorem hasRow_byte {m : Mem} {o : Int} {sw : Bool} {r : List Nat} (h : HasRow 1 sw m o r) : ∀ x ∈ r, x < 256 := by
  intro x hx
  obtain ⟨i, hi, rfl⟩ := List.getElem_of_mem hx
  have := (h i hi).1
  simpa [List.getD, hi] using this

theorem rows_bytes {k : Nat} {a : Arr} {m : Mem} {rs : List (List Nat)} (hr : Rows 1 k a m rs) : ∀ r ∈ rs, ∀ x ∈ r, x < 256 := by
  intro r h
  obtain ⟨h1, h2⟩ := allAt_get hr
  obtain ⟨i, hi, rfl⟩ := List.getElem_of_mem h
  exact hasRow_byte (h2 i _ _ (List.getElem?_eq_getElem (by omega)) (List.getElem?_eq_getElem hi)).2

/-! ## `IsSorted` -/

/-- An array in one dimension which is not refused is plain. -/
theorem accepted_plain {a : Arr} {n : Nat} {s : Int} (hd : a.lay.dims = [n]) (hs : a.lay.strides = [s]) (hw : a.swapped = false)
    (h : ¬ (n > 1 ∧ s ≠ (a.lay.item : Int))) : Plain a ∧ badLayout a = false := by
  constructor
  · refine ⟨by rw [hd, hs]; rfl, ?_, hw⟩
    unfold Riptide.Binary.Lay.cContig
    rw [hd, hs]
    have hl : a.lay.len = n := by unfold Riptide.Binary.Lay.len; rw [hd]; simp [Riptide.Binary.prod]
    simp only [Riptide.Binary.sameStrides, Riptide.Binary.cStrides, Riptide.Binary.prod, hl]
    rcases Nat.lt_or_ge 1 n with h1 | h1
    · have : s = (a.lay.item : Int) := Classical.byContradiction fun h2 => h ⟨h1, h2⟩
      simp [this]
    · have : n = 0 ∨ n = 1 := by omega
      rcases this with h2 | h2 <;> simp [h2]
  · unfold badLayout
    rw [hd, hs]
    simpa using h

/-- The parts of a column which `IsSorted` compares, as a list. -/
theorem pairwise_range {α : Type} (v : List α) (d : α) (R : α → α → Prop) :
    ((List.range v.length).Pairwise fun i j => R (v.getD i d) (v.getD j d)) ↔ v.Pairwise R := by
  rw [List.pairwise_iff_getElem, List.pairwise_iff_getElem]
  constructor
  · intro h i j hi hj hij
    have := h i j (by simpa using hi) (by simpa using hj) hij
    simpa [List.getD, hi, hj] using this
  · intro h i j hi hj hij
    have hi' : i < v.length := by simpa using hi
    have hj' : j < v.length := by simpa using hj
    simpa [List.getD, hi', hj'] using h i j hi' hj' hij

theorem floatLe_iff {f : FT} {x y : Nat} : floatLt f true y x = false ↔ FloatLe f x y := by
  refine ⟨floatLe_of, ?_⟩
  intro h
  have hi := floatLt_iff f true y x
  cases e : floatLt f true y x with
  | false => rfl
  | true =>
    rw [e] at hi
    simp only [if_true, true_iff] at hi
    rcases h with h | ⟨h1, h2⟩
    · rw [hi.1] at h; cases h
    · rcases hi.2 with h3 | h3
      · rw [h3] at h1; cases h1
      · omega

/-- What is checked once the column is read. -/
theorem sorted_answer {workers : Nat} {nt : Bool} {a : Arr} {m : Mem} {n : Nat} {s : Int} {k : Kind} {c : Column} {r : Answer}
    (hd : a.lay.dims = [n]) (hs : a.lay.strides = [s]) (hk : kindOf a.type = some k)
    (hc : badLayout a = false → column a.lay.item a.lay.len m k = some c) (ho : c.Ok) (ha : c.asc = true) (h : SortedCall workers nt a m r) :
    (n > 1 ∧ s ≠ (a.lay.item : Int) ∧ r = .layout) ∨
      ∃ b, r = .flag b ∧ (b = true ↔ (List.range c.len).Pairwise fun i j => c.lt j i = false) := by
  cases hb : badLayout a with
  | true =>
    have hp : prepare a m = .error .layout := by unfold prepare; rw [hb]; rfl
    left
    have : n > 1 ∧ s ≠ (a.lay.item : Int) := by
      unfold badLayout at hb
      rw [hd, hs] at hb
      simpa using hb
    refine ⟨this.1, this.2, ?_⟩
    cases h with
    | early r h => rw [hp] at h; exact (Except.error.inj h).symm
    | run c b h hb => rw [hp] at h; cases h
  | false =>
    have hp : prepare a m = .ok c := by
      unfold prepare
      rw [hb, hk]
      simp only [Bool.false_eq_true, if_false]
      rw [hc hb]
    right
    cases h with
    | early r h => rw [hp] at h; cases h
    | run c' b h hb =>
      rw [hp] at h
      have := Except.ok.inj h
      subst this
      exact ⟨b, rfl, isSorted_exact workers nt c ho ha b hb⟩

theorem plain_of_accepted {a : Arr} {n : Nat} {s : Int} (hd : a.lay.dims = [n]) (hs : a.lay.strides = [s]) (hw : a.swapped = false)
    (h : badLayout a = false) : Plain a := by
  refine (accepted_plain hd hs hw ?_).1
  unfold badLayout at h
  rw [hd, hs] at h
  simpa using h

/-- C151: with an array in one dimension, in the order of bytes of the machine, `IsSorted` either refuses it, namely if its items do not lie one after
the other, or answers for integers whether each is at most the ones behind it. Missing: the other order of bytes (`isSorted_swapped_wrong`). -/
theorem isSorted_ints_partial (workers : Nat) (nt : Bool) (a : Arr) (m : Mem) (n : Nat) (s : Int) (t : IT) (vs : List Int) (r : Answer)
    (hd : a.lay.dims = [n]) (hs : a.lay.strides = [s]) (hw : a.swapped = false) (ht : IntType a.type t) (hi : a.lay.item = t.bits / 8)
    (hv : Ints t a m vs) (h : SortedCall workers nt a m r) :
    (n > 1 ∧ s ≠ (a.lay.item : Int) ∧ r = .layout) ∨ ∃ b, r = .flag b ∧ (b = true ↔ vs.Pairwise (· ≤ ·)) := by
  obtain ⟨hk, hb⟩ := intType_kind ht
  have hc : badLayout a = false → column a.lay.item a.lay.len m (.ints t) = some (.ints true vs) := by
    intro hl
    simp only [column]
    rw [(items_of hb hi (plain_of_accepted hd hs hw hl) hv).2]
    rfl
  rcases sorted_answer hd hs hk hc trivial rfl h with h1 | ⟨b, h1, h2⟩
  · exact .inl h1
  · refine .inr ⟨b, h1, h2.trans ?_⟩
    rw [← pairwise_range vs 0]
    simp only [Column.lt, Column.len, intLt, if_true, decide_eq_false_iff_not, Int.not_lt]

/-- C151: the same for floats: numbers in order, and behind them the NaNs. Missing: the other order of bytes. -/
theorem isSorted_floats_partial (workers : Nat) (nt : Bool) (a : Arr) (m : Mem) (n : Nat) (s : Int) (f : FT) (w : Nat) (vs : List Nat) (r : Answer)
    (hd : a.lay.dims = [n]) (hs : a.lay.strides = [s]) (hw : a.swapped = false) (ht : FloatType a.type f w) (hi : a.lay.item = w)
    (hv : Bits w a m vs) (h : SortedCall workers nt a m r) :
    (n > 1 ∧ s ≠ (a.lay.item : Int) ∧ r = .layout) ∨ ∃ b, r = .flag b ∧ (b = true ↔ vs.Pairwise (FloatLe f)) := by
  obtain ⟨hk, hb⟩ := floatType_kind ht
  have hc : badLayout a = false → column a.lay.item a.lay.len m (.floats f) = some (.floats f true vs) := by
    intro hl
    simp only [column]
    rw [hb, (floats_of hi (plain_of_accepted hd hs hw hl) hv).2]
    rfl
  rcases sorted_answer hd hs hk hc trivial rfl h with h1 | ⟨b, h1, h2⟩
  · exact .inl h1
  · refine .inr ⟨b, h1, h2.trans ?_⟩
    rw [← pairwise_range vs 0]
    simp only [Column.lt, Column.len, floatLe_iff]

/-- C151: the same for strings and unicode, in the order of their characters without the filling. Missing: the other order of bytes. -/
theorem isSorted_texts_partial (workers : Nat) (nt : Bool) (a : Arr) (m : Mem) (n : Nat) (s : Int) (u k : Nat) (rs : List (List Nat)) (r : Answer)
    (hd : a.lay.dims = [n]) (hs : a.lay.strides = [s]) (hw : a.swapped = false) (ht : TextType a.type u) (hi : a.lay.item = u * k)
    (hv : Rows u k a m rs) (h : SortedCall workers nt a m r) :
    (n > 1 ∧ s ≠ (a.lay.item : Int) ∧ r = .layout) ∨ ∃ b, r = .flag b ∧ (b = true ↔ rs.Pairwise fun x y => ¬ Before y x) := by
  obtain ⟨hk, hu⟩ := textType_kind ht
  have hlen : ∀ x ∈ rs, x.length = k := by
    intro x hx
    obtain ⟨h1, h2⟩ := allAt_get hv
    obtain ⟨i, hi, rfl⟩ := List.getElem_of_mem hx
    exact (h2 i _ _ (List.getElem?_eq_getElem (by omega)) (List.getElem?_eq_getElem hi)).1
  have hc : badLayout a = false → column a.lay.item a.lay.len m (.chars u) = some (.strs true rs) := by
    intro hl
    simp only [column]
    rw [show a.lay.item / u = k from by rw [hi]; exact Nat.mul_div_cancel_left k hu, (rows_of (plain_of_accepted hd hs hw hl) hv).2.2]
    rfl
  rcases sorted_answer hd hs hk hc ⟨k, hlen⟩ rfl h with h1 | ⟨b, h1, h2⟩
  · exact .inl h1
  · refine .inr ⟨b, h1, h2.trans ?_⟩
    have e : (rs.Pairwise fun x y => ¬ Before y x) ↔ rs.Pairwise fun x y => sortLt true y x = false := by
      constructor
      · intro hp
        refine List.Pairwise.imp_of_mem (fun {x y} hx hy h => ?_) hp
        have := (Riptide.Str.sortLt_iff y x (by rw [hlen x hx, hlen y hy])).1
        cases e : sortLt true y x with
        | false => rfl
        | true => exact absurd (this.1 e) h
      · intro hp
        refine List.Pairwise.imp_of_mem (fun {x y} hx hy h => ?_) hp
        have := (Riptide.Str.sortLt_iff y x (by rw [hlen x hx, hlen y hy])).1
        intro hb
        rw [this.2 hb] at h
        cases h
    rw [e, ← pairwise_range rs []]
    simp only [Column.lt, Column.len]

/-- C151: of structures `IsSorted` compares the bytes word by word; when it answers true, equal ones lie together. Missing: any order of the fields, of
which it knows nothing (`isSorted_structures_wrong`). -/
theorem isSorted_structures_partial (workers : Nat) (nt : Bool) (a : Arr) (m : Mem) (n : Nat) (s : Int) (k : Nat) (rs : List (List Nat))
    (hd : a.lay.dims = [n]) (hs : a.lay.strides = [s]) (hw : a.swapped = false) (ht : a.type = 20) (hi : a.lay.item = k)
    (hv : Rows 1 k a m rs) (h : SortedCall workers nt a m (.flag true)) : Together rs := by
  have hlen : ∀ x ∈ rs, Riptide.Str.Bytes k x := by
    intro x hx
    refine ⟨?_, rows_bytes hv x hx⟩
    obtain ⟨h1, h2⟩ := allAt_get hv
    obtain ⟨i, hi, rfl⟩ := List.getElem_of_mem hx
    exact (h2 i _ _ (List.getElem?_eq_getElem (by omega)) (List.getElem?_eq_getElem hi)).1
  have hc : badLayout a = false → column a.lay.item a.lay.len m .raw = some (.voids true rs) := by
    intro hl
    simp only [column]
    have := (rows_of (plain_of_accepted hd hs hw hl) hv).2.2
    rw [hi] at this ⊢
    rw [this]
    rfl
  rcases sorted_answer hd hs (by rw [ht]; rfl) hc ⟨k, hlen⟩ rfl h with h1 | ⟨b, h1, h2⟩
  · cases h1.2.2
  · have hb : b = true := by cases h1; rfl
    have hp := h2.1 hb
    simp only [Column.lt, Column.len] at hp
    rw [pairwise_range rs [] fun x y => voidLt true y x = false] at hp
    rw [List.pairwise_iff_getElem] at hp
    intro i j l hij hjl r h3 h4
    have hl : l < rs.length := by
      rcases Nat.lt_or_ge l rs.length with h5 | h5
      · exact h5
      · rw [List.getElem?_eq_none h5] at h4; cases h4
    rw [List.getElem?_eq_getElem (by omega)] at h3
    rw [List.getElem?_eq_getElem hl] at h4
    rw [List.getElem?_eq_getElem (by omega)]
    have e1 := hp i j (by omega) (by omega) hij
    have e2 := hp j l (by omega) hl hjl
    rw [Option.some.inj h3] at e1
    rw [Option.some.inj h4] at e2
    have T := Riptide.Str.void_compare_total k true
    have hr := hlen r (by rw [← Option.some.inj h4]; exact List.getElem_mem hl)
    have hj := hlen rs[j] (List.getElem_mem (by omega))
    rcases T.total r rs[j] hr hj with h5 | h5 | h5
    · rw [h5] at e2; cases e2
    · rw [h5]
    · rw [h5] at e1; cases e1

/-- C151: `IsSorted` refuses whatever has not one dimension, and types which cannot be compared. -/
theorem isSorted_refused (workers : Nat) (nt : Bool) (a : Arr) (m : Mem) (r : Answer) (h : SortedCall workers nt a m r) :
    (a.lay.dims.length ≠ 1 → r = .layout) ∧
    (∀ (n : Nat) (s : Int), a.lay.dims = [n] → a.lay.strides = [s] → ¬ (n > 1 ∧ s ≠ (a.lay.item : Int)) →
      a.type ∉ [0, 1, 2, 3, 4, 5, 6, 7, 8, 9, 10, 11, 12, 18, 19, 20] → r = .typeRefused) := by
  have key : ∀ e, prepare a m = .error e → r = e := by
    intro e he
    cases h with
    | early r h => rw [he] at h; exact (Except.error.inj h).symm
    | run c b h hb => rw [he] at h; cases h
  constructor
  · intro hd
    apply key
    unfold prepare
    rw [if_pos]
    unfold badLayout
    split
    · rename_i h1 _; rw [h1] at hd; exact absurd rfl hd
    · rfl
  · intro n s hd hs hl ht
    apply key
    unfold prepare
    have hb : badLayout a = false := by
      unfold badLayout
      rw [hd, hs]
      simpa using hl
    have hk : kindOf a.type = none := by
      unfold kindOf
      split <;> first | rfl | (exfalso; simp_all)
    rw [hb, hk]
    rfl

/-! ## `SortInPlace` and `Sort` -/

theorem boolsOk_of {type : Nat} {l : List Int} (h : type = 0 → ∀ x ∈ l, x = 0 ∨ x = 1) : boolsOk type l = true := by
  unfold boolsOk
  by_cases h0 : type = 0
  · simp only [h0, ne_eq, not_true, decide_false, Bool.false_or, List.all_eq_true, decide_eq_true_eq]
    exact h h0
  · simp [h0]

theorem dataOf_ints {a : Arr} {m : Mem} {t : IT} {vs : List Int} (hp : Plain a) (ht : IntType a.type t) (hi : a.lay.item = t.bits / 8)
    (hv : Ints t a m vs) (h0 : a.type = 0 → ∀ x ∈ vs, x = 0 ∨ x = 1) : dataOf a m = some (.ints vs) := by
  obtain ⟨hk, hb⟩ := intType_kind ht
  unfold dataOf
  rw [hk]
  simp only []
  rw [(items_of hb hi hp hv).2]
  simp only [Option.bind_some, boolsOk_of h0, if_true]

theorem dataOf_floats {a : Arr} {m : Mem} {f : FT} {w : Nat} {vs : List Nat} (hp : Plain a) (ht : FloatType a.type f w) (hi : a.lay.item = w)
    (hv : Bits w a m vs) : dataOf a m = some (.floats f vs) := by
  obtain ⟨hk, hb⟩ := floatType_kind ht
  unfold dataOf
  rw [hk]
  simp only []
  rw [hb, (floats_of hi hp hv).2]
  rfl

theorem sortData_run {scratch : Bool} {mode : Int} {wi : List Int} {wn : List Nat} {d : Data} (h : mode = 2 → scratch = true) :
    sortData scratch mode wi wn d = .of (sortArray mode wi wn d) := by
  unfold sortData
  rw [if_neg]
  rintro ⟨h1, h2⟩
  rw [h h1] at h2
  cases h2

/-- C151: integers and booleans which lie one after the other in C order, in any number of dimensions and in each of the three modes: afterwards they are
in order in the order in which numpy lists them. Missing: other layouts (`sortInPlace_strided_wrong`, `sortInPlace_fortran_wrong`), the other order of
bytes, and no memory for the mergesort (`sortInPlace_no_memory`). -/
theorem sortInPlace_call_ints_partial (scratch : Bool) (mode : Int) (wi : List Int) (wn : List Nat) (a : Arr) (m : Mem) (t : IT) (vs : List Int)
    (hp : Plain a) (ht : IntType a.type t) (hi : a.lay.item = t.bits / 8) (hv : Ints t a m vs)
    (h0 : a.type = 0 → ∀ x ∈ vs, x = 0 ∨ x = 1) (hm : mode = 1 ∨ mode = 2 ∨ mode = 3) (hs : mode = 2 → scratch = true)
    (hn : vs.length < 2 ^ 63) (hw : wi.length = vs.length / 2) :
    ∃ out, sortInPlace scratch mode wi wn a m = .items (.ints out) ∧ out.Perm vs ∧ out.Pairwise (· ≤ ·) := by
  obtain ⟨out, h1, h2, h3⟩ := sortInPlace_ints mode wi wn vs hn hw hm
  refine ⟨out, ?_, h2, h3⟩
  unfold sortInPlace
  rw [dataOf_ints hp ht hi hv h0]
  simp only []
  rw [sortData_run hs, h1]
  rfl

/-- C151: floats with quicksort and heapsort, and `float` with mergesort: numbers in order, NaNs behind them. Missing as above, and `double` with mergesort
(`sortInPlace_merge_double_false`). -/
theorem sortInPlace_call_floats_partial (scratch : Bool) (mode : Int) (wi : List Int) (wn : List Nat) (a : Arr) (m : Mem) (f : FT) (w : Nat) (vs : List Nat)
    (hp : Plain a) (ht : FloatType a.type f w) (hi : a.lay.item = w) (hv : Bits w a m vs)
    (hm : mode = 1 ∨ mode = 3 ∨ (mode = 2 ∧ scratch = true ∧ f = .f32)) (hn : vs.length < 2 ^ 63) (hw : wn.length = vs.length / 2) :
    ∃ out, sortInPlace scratch mode wi wn a m = .items (.floats f out) ∧ out.Perm vs ∧ out.Pairwise (FloatLe f) := by
  have key : ∃ out, sortArray mode wi wn (.floats f vs) = some (.floats f out) ∧ out.Perm vs ∧ out.Pairwise (FloatLe f) := by
    rcases hm with h | h | ⟨h, _, h2⟩
    · exact sortInPlace_floats f mode wi wn vs hn (.inl h)
    · exact sortInPlace_floats f mode wi wn vs hn (.inr h)
    · subst h h2; exact sortInPlace_merge_float wi wn vs hw
  obtain ⟨out, h1, h2, h3⟩ := key
  refine ⟨out, ?_, h2, h3⟩
  unfold sortInPlace
  rw [dataOf_floats hp ht hi hv]
  simp only []
  rw [sortData_run, h1]
  · rfl
  · intro h; rcases hm with h1 | h1 | h1
    · omega
    · omega
    · exact h1.2.1

/-- C151, false of the code: without memory for the mergesort the items stay as they are, and the call succeeds. -/
theorem sortInPlace_no_memory (wi : List Int) (wn : List Nat) (a : Arr) (m : Mem) (t : IT) (vs : List Int)
    (hp : Plain a) (ht : IntType a.type t) (hi : a.lay.item = t.bits / 8) (hv : Ints t a m vs) (h0 : a.type = 0 → ∀ x ∈ vs, x = 0 ∨ x = 1) :
    sortInPlace false 2 wi wn a m = .items (.ints vs) := by
  unfold sortInPlace
  rw [dataOf_ints hp ht hi hv h0]
  rfl

/-- C151, false of the code: the same for any mode but 1, 2 and 3. -/
theorem sortInPlace_other_modes (scratch : Bool) (mode : Int) (wi : List Int) (wn : List Nat) (a : Arr) (m : Mem) (t : IT) (vs : List Int)
    (hp : Plain a) (ht : IntType a.type t) (hi : a.lay.item = t.bits / 8) (hv : Ints t a m vs) (h0 : a.type = 0 → ∀ x ∈ vs, x = 0 ∨ x = 1)
    (hm : mode ≠ 1 ∧ mode ≠ 2 ∧ mode ≠ 3) : sortInPlace scratch mode wi wn a m = .items (.ints vs) := by
  unfold sortInPlace
  rw [dataOf_ints hp ht hi hv h0]
  simp only []
  rw [sortData_run (fun h => absurd h hm.2.1)]
  simp only [sortArray, sortRun, if_neg hm.1, if_neg hm.2.1, if_neg hm.2.2]
  rfl

/-- C151, false of the code: types which `SortArray` does not know, unicode and structures among them, are neither sorted nor refused. -/
theorem sortInPlace_other_types (scratch : Bool) (mode : Int) (wi : List Int) (wn : List Nat) (a : Arr) (m : Mem)
    (ht : a.type ∉ [0, 1, 2, 3, 4, 5, 6, 7, 8, 9, 10, 11, 12, 18]) : sortInPlace scratch mode wi wn a m = .items .other := by
  have hd : dataOf a m = some .other := by
    unfold dataOf kindOf
    split <;> rename_i h <;> (split at h <;> simp_all)
  unfold sortInPlace
  rw [hd]
  simp only [sortData, sortArray, ite_self, Sorted.of]

/-! `Sort` -/

theorem hasBits_bytes {w : Nat} {sw : Bool} {m : Mem} {o : Int} {b : Nat} (h : HasBits w sw m o b) : ∀ j : Nat, j < w → (m (o + j)).isSome = true := by
  intro j hj
  have hl : (if sw then (bytesOf w b).reverse else bytesOf w b).length = w := by split <;> simp [bytesOf_length]
  have := h.2 j (by rw [hl]; exact hj)
  rw [this, List.getElem?_eq_getElem (by rw [hl]; exact hj)]
  rfl

theorem units_some {n : Nat} {m : Mem} (h : ∀ j : Nat, j < n → (m (j : Int)).isSome = true) : ∃ l, units 1 n m 0 = some l := by
  unfold units
  refine ⟨(List.range n).map fun (j : Nat) => ((m (j : Int)).getD 0).toNat, ?_⟩
  apply Riptide.Binary.mapM_some_range
  intro j hj
  obtain ⟨b, hb⟩ := Option.isSome_iff_exists.1 (h j hj)
  rw [Int.zero_add, Nat.one_mul]
  simp [load, hb]

theorem copied {β : Type} {P : Int → β → Prop} {a : Arr} {m : Mem} {xs : List β} (hp : Plain a)
    (hP : ∀ o x, P o x → ∀ j : Nat, j < a.lay.item → (m (o + j)).isSome = true)
    (h : AllAt P (Riptide.Mask.Call.Spec.inC a.lay.dims a.lay.strides) xs) : ∃ l, units 1 (a.lay.len * a.lay.item) m 0 = some l := by
  obtain ⟨h1, h2⟩ := plain_at hp h
  apply units_some
  intro k hk
  have hi : 0 < a.lay.item := by
    rcases Nat.eq_zero_or_pos a.lay.item with h | h
    · rw [h] at hk; omega
    · exact h
  have hq : k / a.lay.item < a.lay.len := (Nat.div_lt_iff_lt_mul hi).2 hk
  have := hP _ _ (h2 (k / a.lay.item) xs[k / a.lay.item] (List.getElem?_eq_getElem (by omega))) (k % a.lay.item) (Nat.mod_lt k hi)
  rw [← Int.natCast_add, Nat.mul_comm, Nat.div_add_mod] at this
  exact this

theorem int_not_flexible {type : Nat} {t : IT} (h : IntType type t) : flexible type = false := by
  simp only [IntType, List.mem_cons, List.not_mem_nil, Prod.mk.injEq, or_false] at h
  rcases h with h | h | h | h | h | h | h | h | h | h | h <;> (obtain ⟨rfl, rfl⟩ := h; rfl)

theorem float_not_flexible {type w : Nat} {f : FT} (h : FloatType type f w) : flexible type = false := by
  simp only [FloatType, List.mem_cons, List.not_mem_nil, Prod.mk.injEq, or_false] at h
  rcases h with ⟨rfl, rfl, rfl⟩ | ⟨rfl, rfl, rfl⟩ <;> rfl

/-- C151: `Sort` answers with a new array of the integers in order. Missing: as for `SortInPlace`. -/
theorem sort_call_ints_partial (scratch : Bool) (mode : Int) (wi : List Int) (wn : List Nat) (a : Arr) (m : Mem) (t : IT) (vs : List Int)
    (hp : Plain a) (ht : IntType a.type t) (hi : a.lay.item = t.bits / 8) (hv : Ints t a m vs)
    (h0 : a.type = 0 → ∀ x ∈ vs, x = 0 ∨ x = 1) (hm : mode = 1 ∨ mode = 2 ∨ mode = 3) (hs : mode = 2 → scratch = true)
    (hn : vs.length < 2 ^ 63) (hw : wi.length = vs.length / 2) :
    ∃ out, sortCopy true scratch mode wi wn a m = .items (.ints out) ∧ out.Perm vs ∧ out.Pairwise (· ≤ ·) := by
  obtain ⟨out, h1, h2, h3⟩ := sortInPlace_call_ints_partial scratch mode wi wn a m t vs hp ht hi hv h0 hm hs hn hw
  refine ⟨out, ?_, h2, h3⟩
  obtain ⟨l, hl⟩ := copied (m := m) hp (fun o x h j hj => hasBits_bytes h.2 j (by rw [← hi]; exact hj)) hv
  unfold sortCopy
  rw [if_neg (by decide), if_neg (by rw [int_not_flexible ht]; simp), hl, if_neg (by simp), h1]

/-- C151: the same for floats. -/
theorem sort_call_floats_partial (scratch : Bool) (mode : Int) (wi : List Int) (wn : List Nat) (a : Arr) (m : Mem) (f : FT) (w : Nat) (vs : List Nat)
    (hp : Plain a) (ht : FloatType a.type f w) (hi : a.lay.item = w) (hv : Bits w a m vs)
    (hm : mode = 1 ∨ mode = 3 ∨ (mode = 2 ∧ scratch = true ∧ f = .f32)) (hn : vs.length < 2 ^ 63) (hw : wn.length = vs.length / 2) :
    ∃ out, sortCopy true scratch mode wi wn a m = .items (.floats f out) ∧ out.Perm vs ∧ out.Pairwise (FloatLe f) := by
  obtain ⟨out, h1, h2, h3⟩ := sortInPlace_call_floats_partial scratch mode wi wn a m f w vs hp ht hi hv hm hn hw
  refine ⟨out, ?_, h2, h3⟩
  obtain ⟨l, hl⟩ := copied (m := m) hp (fun o x h j hj => hasBits_bytes h j (by rw [← hi]; exact hj)) hv
  unfold sortCopy
  rw [if_neg (by decide), if_neg (by rw [float_not_flexible ht]; simp), hl, if_neg (by simp), h1]

/-- C151, false of the code: with strings, unicode or structures of more than one byte each `Sort` writes behind the end of its new array, in which each item
has one byte. -/
theorem sort_texts_overflow (scratch : Bool) (mode : Int) (wi : List Int) (wn : List Nat) (a : Arr) (m : Mem) (ht : a.type ∈ [18, 19, 20])
    (hi : 1 < a.lay.item) (hn : a.lay.len ≠ 0) : sortCopy true scratch mode wi wn a m = .undefined := by
  unfold sortCopy
  rw [if_neg (by decide), if_pos]
  refine ⟨?_, by omega, hn⟩
  simpa [flexible] using ht

/-- C151: without memory for the new array `Sort` says so. -/
theorem sort_no_memory (scratch : Bool) (mode : Int) (wi : List Int) (wn : List Nat) (a : Arr) (m : Mem) :
    sortCopy false scratch mode wi wn a m = .memory := by unfold sortCopy; rw [if_pos rfl]

/-! ## `SortInPlaceIndirect` -/

/-- C151: the pairs of types which `SortInPlaceIndirect` takes: the keys, and the order. -/
theorem indirectTypes_some {x y : Nat} {t u : IT} (h : (x, y, t, u) ∈ [(5, 5, IT.i32, IT.i32), (5, 7, .i32, .i64), (7, 7, .i64, .i64)]) :
    indirectTypes x y = some (t, u) ∧ IntType x t ∧ IntType y u := by
  simp only [List.mem_cons, List.not_mem_nil, Prod.mk.injEq, or_false] at h
  rcases h with ⟨rfl, rfl, rfl, rfl⟩ | ⟨rfl, rfl, rfl, rfl⟩ | ⟨rfl, rfl, rfl, rfl⟩ <;> exact ⟨rfl, by decide, by decide⟩

/-- C151: with one of the three pairs of types, an order without repetitions and keys among it, each key is replaced by its place in the order.
Missing: keys and orders outside of that (`sortIndirect_unchecked`), other types, other layouts. -/
theorem indirect_call_partial (a s : Arr) (m sm : Mem) (t u : IT) (keys srt : List Int)
    (ht : (a.type, s.type, t, u) ∈ [(5, 5, IT.i32, IT.i32), (5, 7, .i32, .i64), (7, 7, .i64, .i64)])
    (hp : Plain a) (hi : a.lay.item = t.bits / 8) (hk : Ints t a m keys) (hps : Plain s) (his : s.lay.item = u.bits / 8) (hks : Ints u s sm srt)
    (h1 : ∀ p ∈ srt, 0 ≤ p ∧ p < srt.length) (h2 : srt.Nodup) (h3 : ∀ k ∈ keys, k ∈ srt) (h4 : (srt.length : Int) ≤ t.hi + 1) :
    ∃ out : List Nat, indirect true a m s sm = .items (out.map fun (p : Nat) => some (p : Int)) ∧ out.length = keys.length ∧
      ∀ i p : Nat, out[i]? = some p → srt[p]? = keys[i]? := by
  obtain ⟨e1, e2, e3⟩ := indirectTypes_some ht
  obtain ⟨out, o1, o2, o3⟩ := sortIndirect_partial srt keys h1 h2 h3
  refine ⟨out, ?_, o2, o3⟩
  have hb := (intType_kind e2).2
  unfold indirect
  rw [e1]
  simp only [Bool.true_eq_false, false_and, if_false]
  rw [(items_of hb hi hp hk).2, (items_of (intType_kind e3).2 his hps hks).2]
  simp only []
  rw [o1]
  simp only [stored, List.map_map]
  congr 1
  apply List.map_congr_left
  intro p hmem
  obtain ⟨i, hi', rfl⟩ := List.getElem_of_mem hmem
  have hg := o3 i out[i] (List.getElem?_eq_getElem hi')
  rw [List.getElem?_eq_getElem (show i < keys.length by omega)] at hg
  have hlt : out[i] < srt.length := by
    rcases Nat.lt_or_ge out[i] srt.length with h | h
    · exact h
    · rw [List.getElem?_eq_none h] at hg; cases hg
  simp only [Function.comp, Option.map_some]
  rw [IT.wrap_of_inRange t hb]
  unfold IT.InRange
  have hlo : t.lo ≤ 0 := by
    simp only [List.mem_cons, List.not_mem_nil, Prod.mk.injEq, or_false] at ht
    rcases ht with ⟨_, _, rfl, _⟩ | ⟨_, _, rfl, _⟩ | ⟨_, _, rfl, _⟩ <;> decide
  omega

/-- C151, false of the code: for all other pairs of types the keys stay as they are and the call succeeds. -/
theorem indirect_other_types (scratch : Bool) (a s : Arr) (m sm : Mem) (h : (a.type, s.type) ∉ [(5, 5), (5, 7), (7, 7)]) :
    indirect scratch a m s sm = .unchanged := by
  have : indirectTypes a.type s.type = none := by
    unfold indirectTypes
    split <;> first | rfl | (exfalso; simp_all)
  unfold indirect
  rw [this]

/-- C151, false of the code: whether memory was granted is not looked at. -/
theorem indirect_no_memory (a s : Arr) (m sm : Mem) (h : (a.type, s.type) ∈ [(5, 5), (5, 7), (7, 7)]) (hn : s.lay.len ≠ 0) :
    indirect false a m s sm = .undefined := by
  have : ∃ p, indirectTypes a.type s.type = some p := by
    simp only [List.mem_cons, List.not_mem_nil, Prod.mk.injEq, or_false] at h
    rcases h with ⟨h1, h2⟩ | ⟨h1, h2⟩ | ⟨h1, h2⟩ <;> (rw [h1, h2]; exact ⟨_, rfl⟩)
  obtain ⟨⟨t, u⟩, e⟩ := this
  unfold indirect
  rw [e]
  simp only []
  rw [if_pos ⟨by simp, .inr hn⟩]

end Riptide.Quick.Call
