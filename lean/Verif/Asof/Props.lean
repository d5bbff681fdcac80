import Verif.Asof.Lemmas
import Verif.Hash.MemberProps
/-! # As-of merges: backward (C15) and forward (C16) -/
namespace Riptide.Asof
open Riptide.Hash Spec

variable {K V : Type}

theorem numbered_get (l : List V) (i : Nat) : (numbered l)[i]? = l[i]?.map fun v => (i, v) := by
  simp [numbered, List.getElem?_zipIdx]
  cases l[i]? <;> simp

theorem mem_numbered {l : List V} {p : Nat × V} : p ∈ numbered l ↔ l[p.1]? = some p.2 := by
  rw [List.mem_iff_getElem?]
  constructor
  · rintro ⟨i, h⟩
    rw [numbered_get] at h
    cases hl : l[i]? with
    | none => rw [hl] at h; simp at h
    | some v => rw [hl] at h; simp at h; subst h; exact hl
  · intro h; exact ⟨p.1, by rw [numbered_get, h]; rfl⟩

theorem numbered_pairwise (l : List V) : (numbered l).Pairwise fun a b => a.1 < b.1 := by
  rw [List.pairwise_iff_getElem]
  intro i j hi hj hij
  have h1 := numbered_get l i
  have h2 := numbered_get l j
  rw [List.getElem?_eq_getElem hi] at h1
  rw [List.getElem?_eq_getElem hj] at h2
  cases hl1 : l[i]? with
  | none => rw [hl1] at h1; simp at h1
  | some v =>
    cases hl2 : l[j]? with
    | none => rw [hl2] at h2; simp at h2
    | some w =>
      rw [hl1] at h1; rw [hl2] at h2
      simp at h1 h2
      rw [h1, h2]; exact hij

theorem numbered_pairwise_val {R : V → V → Prop} {l : List V} (h : l.Pairwise R) :
    (numbered l).Pairwise fun a b => R a.2 b.2 := by
  rw [List.pairwise_iff_getElem] at h ⊢
  intro i j hi hj hij
  have h1 := numbered_get l i
  have h2 := numbered_get l j
  rw [List.getElem?_eq_getElem hi] at h1
  rw [List.getElem?_eq_getElem hj] at h2
  have hil : i < l.length := by simpa [numbered] using hi
  have hjl : j < l.length := by simpa [numbered] using hj
  rw [List.getElem?_eq_getElem hil] at h1
  rw [List.getElem?_eq_getElem hjl] at h2
  simp at h1 h2
  rw [h1, h2]
  exact h i j hil hjl hij

theorem last_of_increasing {P : Nat × V → Bool} : ∀ {l : List (Nat × V)} {p : Nat × V},
    l.Pairwise (fun a b => a.1 < b.1) → (l.filter P).getLast? = some p →
    p ∈ l ∧ P p = true ∧ ∀ q ∈ l, p.1 < q.1 → P q = false := by
  intro l p hl hp
  have hmem : p ∈ l.filter P := List.mem_of_getLast? hp
  rw [List.mem_filter] at hmem
  refine ⟨hmem.1, hmem.2, fun q hq hlt => ?_⟩
  cases hPq : P q with
  | false => rfl
  | true =>
    have hqf : q ∈ l.filter P := List.mem_filter.mpr ⟨hq, hPq⟩
    have hpw : (l.filter P).Pairwise (fun a b => a.1 < b.1) := hl.filter P
    obtain ⟨ys, hys⟩ := List.getLast?_eq_some_iff.mp hp
    rw [hys, List.pairwise_append] at hpw
    rw [hys] at hqf
    rcases List.mem_append.mp hqf with h | h
    · have := hpw.2.2 q h p (by simp); omega
    · have : q = p := by simpa using h
      subst this; omega

theorem before_backward {valid : V → Bool} {lt same : V → V → Bool} (O : Ordered valid lt same)
    (ex : Bool) (x y : V) (hx : valid x = true) (hy : valid y = true) :
    (lt x y || (!ex && same x y)) = false ↔ (if ex then lt x y = false else lt y x = true) := by
  cases ex with
  | true => simp
  | false =>
    have := O.same_iff x y hx hy
    cases h1 : lt x y <;> cases h2 : lt y x <;> cases h3 : same x y <;> simp_all
    have := O.trans x y x hx hy hx h1 h2
    rw [O.irrefl x hx] at this; simp at this

theorem weak_lt {valid : V → Bool} {lt same : V → V → Bool} (O : Ordered valid lt same)
    {x y z : V} (hx : valid x = true) (hy : valid y = true) (hz : valid z = true)
    (h1 : lt y x = false) (h2 : lt y z = true) : lt x z = true := by
  cases hxy : lt x y with
  | true => exact O.trans x y z hx hy hz hxy h2
  | false =>
    cases hxz : lt x z with
    | true => rfl
    | false =>
      cases hzx : lt z x with
      | true =>
        have := O.trans y z x hy hz hx h2 hzx
        rw [h1] at this; simp at this
      | false =>
        have a := (O.same_iff x z hx hz).mpr ⟨hxz, hzx⟩
        have b := (O.same_iff y x hy hx).mpr ⟨h1, hxy⟩
        have c := (O.same_iff y z hy hz).mp (O.same_trans y x z hy hx hz b a)
        rw [h2] at c; simp at c

theorem weak_lt' {valid : V → Bool} {lt same : V → V → Bool} (O : Ordered valid lt same)
    {x y z : V} (hx : valid x = true) (hy : valid y = true) (hz : valid z = true)
    (h1 : lt x y = true) (h2 : lt z y = false) : lt x z = true := by
  cases hyz : lt y z with
  | true => exact O.trans x y z hx hy hz h1 hyz
  | false =>
    cases hxz : lt x z with
    | true => rfl
    | false =>
      cases hzx : lt z x with
      | true =>
        have := O.trans z x y hz hx hy hzx h1
        rw [h2] at this; simp at this
      | false =>
        have a := (O.same_iff x z hx hz).mpr ⟨hxz, hzx⟩
        have b := (O.same_iff z y hz hy).mpr ⟨h2, hyz⟩
        have c := (O.same_iff x y hx hy).mp (O.same_trans x z y hx hz hy a b)
        rw [h1] at c; simp at c

/-- `before` (backward) in terms of one comparison, and how it moves along sorted columns. -/
theorem before_mono_left {valid : V → Bool} {lt same : V → V → Bool} (O : Ordered valid lt same) (ex : Bool)
    {x x' y : V} (hx : valid x = true) (hx' : valid x' = true) (hy : valid y = true) (h : lt x' x = false)
    (hb : (lt x' y || (!ex && same x' y)) = true) : (lt x y || (!ex && same x y)) = true := by
  cases hc : (lt x y || (!ex && same x y)) with
  | true => rfl
  | false =>
    rw [before_backward O ex x y hx hy] at hc
    have hn : (lt x' y || (!ex && same x' y)) = false := by
      rw [before_backward O ex x' y hx' hy]
      cases ex with
      | true =>
        simp only [if_true] at hc ⊢
        cases hl : lt x' y with
        | false => rfl
        | true => have := weak_lt O hx hx' hy h hl; rw [hc] at this; simp at this
      | false =>
        simp only [Bool.false_eq_true, if_false] at hc ⊢
        exact weak_lt' O hy hx hx' hc h
    rw [hn] at hb; simp at hb

theorem before_mono_right {valid : V → Bool} {lt same : V → V → Bool} (O : Ordered valid lt same) (ex : Bool)
    {x y y' : V} (hx : valid x = true) (hy : valid y = true) (hy' : valid y' = true) (h : lt y' y = false)
    (hb : (lt x y || (!ex && same x y)) = true) : (lt x y' || (!ex && same x y')) = true := by
  cases hc : (lt x y' || (!ex && same x y')) with
  | true => rfl
  | false =>
    rw [before_backward O ex x y' hx hy'] at hc
    have hn : (lt x y || (!ex && same x y)) = false := by
      rw [before_backward O ex x y hx hy]
      cases ex with
      | true =>
        simp only [if_true] at hc ⊢
        cases hl : lt x y with
        | false => rfl
        | true => have := weak_lt' O hx hy hy' hl h; rw [hc] at this; simp at this
      | false =>
        simp only [Bool.false_eq_true, if_false] at hc ⊢
        exact weak_lt O hy hy' hx h hc
    rw [hn] at hb; simp at hb

theorem ordered_flip {valid : V → Bool} {lt same : V → V → Bool} (O : Ordered valid lt same) :
    Ordered valid (fun x y => lt y x) same where
  irrefl := O.irrefl
  trans := fun x y z hx hy hz h1 h2 => O.trans z y x hz hy hx h2 h1
  same_iff := fun x y hx hy => (O.same_iff x y hx hy).trans And.comm
  same_trans := O.same_trans

/-- Rows named by the events of a walk. -/
theorem walk_rows (valid : V → Bool) (before : V → V → Bool) (n m : Nat) (as bs : List (Nat × V)) :
    (∀ a ∈ as, a.1 < n) → (∀ b ∈ bs, b.1 < m) → ∀ e ∈ walk valid before as bs,
      match e with
      | .bad _ => True
      | .look i => i < n
      | .put i j => i < n ∧ j < m := by
  induction as, bs using walk.induct (valid := valid) (before := before) with
  | case1 bs => intro _ _ e he; simp [walk] at he
  | case2 a as ih =>
    intro ha hb e he
    unfold walk at he
    rcases List.mem_cons.mp he with rfl | he
    · cases valid a.2
      · trivial
      · exact ha a (by simp)
    · exact ih (fun a h => ha a (by simp [h])) hb e he
  | case3 a as b bs hv ih =>
    intro ha hb e he
    unfold walk at he
    rw [if_pos hv] at he
    rcases List.mem_cons.mp he with rfl | he
    · trivial
    · exact ih (fun a h => ha a (by simp [h])) hb e he
  | case4 a as b bs hv hvb ih =>
    intro ha hb e he
    unfold walk at he
    rw [if_neg hv, if_pos hvb] at he
    exact ih ha (fun b hb' => hb b (by simp [hb'])) e he
  | case5 a as b bs hv hvb hbef ih =>
    intro ha hb e he
    unfold walk at he
    rw [if_neg hv, if_neg hvb, if_pos hbef] at he
    rcases List.mem_cons.mp he with rfl | he
    · exact ha a (by simp)
    · exact ih (fun a h => ha a (by simp [h])) hb e he
  | case6 a as b bs hv hvb hbef ih =>
    intro ha hb e he
    unfold walk at he
    rw [if_neg hv, if_neg hvb, if_neg hbef] at he
    rcases List.mem_cons.mp he with rfl | he
    · exact ⟨ha a (by simp), hb b (by simp)⟩
    · exact ih ha (fun b hb' => hb b (by simp [hb'])) e he

theorem getD_mem {α : Type} {l : List α} {i : Nat} (d : α) (h : i < l.length) : l.getD i d ∈ l := by
  rw [List.getD_eq_getElem?_getD, List.getElem?_eq_getElem h]
  exact List.getElem_mem h

theorem loop_eq [DecidableEq K] [Inhabited K] {ops : Ops K Nat} {Ql Q : K → Prop}
    {Rel : Slots K Nat → (K → Option Nat) → Prop} (M : IsMap ops Ql Q Rel) (t0 : Slots K Nat)
    (h0 : Rel t0 noKeys)
    (valid : V → Bool) (before : V → V → Bool) (key1 key2 : List K) (as bs : List (Nat × V))
    (ha : ∀ a ∈ as, a.1 < key1.length) (hb : ∀ b ∈ bs, b.1 < key2.length)
    (h1 : ∀ k ∈ key1, Ql k) (h2 : ∀ k ∈ key2, Q k)
    (hA : as.Pairwise (fun a a' => valid a.2 = true → valid a'.2 = true →
      ∀ y, valid y = true → before a'.2 y = true → before a.2 y = true))
    (hB : bs.Pairwise (fun b b' => valid b.2 = true → valid b'.2 = true →
      ∀ x, valid x = true → before x b.2 = true → before x b'.2 = true)) :
    ∃ t, tableLoop ops (asofPlan key1 key2) asofNext t0 [] (walk valid before as bs) =
      .ok (t, as.map fun a => (a.1, answer valid before key1 key2 bs a)) := by
  obtain ⟨t, e, _⟩ := loop_eq_map M (asofPlan key1 key2) asofNext
    (walk valid before as bs)
    (by
      intro s r hrm
      have := walk_rows valid before key1.length key2.length as bs ha hb r hrm
      cases r with
      | bad i => trivial
      | look i => exact h1 _ (getD_mem _ this)
      | put i j => exact h2 _ (getD_mem _ this.2))
    t0 noKeys [] h0
  refine ⟨t, ?_⟩
  rw [e]
  have := walk_spec valid before key1 key2 as bs [] noKeys [] (by intro k; simp [noKeys, stored]) (by simp) hA hB
  rw [this]
  simp

theorem runWrites_numbered {α : Type} (l : List V) (f : Nat × V → α) {ws : List (Nat × V)}
    (h : ws.Perm (numbered l)) :
    ∃ out : List α, runWrites l.length (ws.map fun a => (a.1, f a)) = some (out.map some) ∧
      out.length = l.length ∧ ∀ (i : Nat) v, l[i]? = some v → out[i]? = some (f (i, v)) := by
  have hperm : (ws.map fun a => (a.1, f a)).Perm (((numbered l).map f).zipIdx.map Prod.swap) := by
    have : (((numbered l).map f).zipIdx.map Prod.swap) = (numbered l).map fun a => (a.1, f a) := by
      apply List.ext_getElem?
      intro i
      simp only [List.getElem?_map, List.getElem?_zipIdx]
      rw [numbered_get]
      cases l[i]? <;> simp
    rw [this]
    exact h.map _
  refine ⟨(numbered l).map f, ?_, by simp [numbered], fun i v hv => ?_⟩
  · have := runWrites_perm hperm
    simpa [numbered] using this
  · rw [List.getElem?_map, numbered_get, hv]; rfl

/-- `elig` is eligibility. -/
theorem elig_iff [DecidableEq K] [Inhabited K] {valid : V → Bool} {lt same : V → V → Bool}
    (O : Ordered valid lt same) (ex : Bool) {key1 key2 : List K} {val1 val2 : List V}
    (h1 : key1.length = val1.length) (h2 : key2.length = val2.length) {i j : Nat} {x y : V}
    (hi : val1[i]? = some x) (hj : val2[j]? = some y) (hx : valid x = true) :
    elig valid (fun x y => lt x y || (!ex && same x y)) key1 key2 (i, x) (j, y) = true ↔
      Eligible valid lt ex key1 key2 val1 val2 i j := by
  have hil : i < key1.length := by rw [h1]; exact (List.getElem?_eq_some_iff.mp hi).1
  have hjl : j < key2.length := by rw [h2]; exact (List.getElem?_eq_some_iff.mp hj).1
  have hk : key2.getD j default = key1.getD i default ↔ key1[i]? = key2[j]? := by
    rw [List.getD_eq_getElem?_getD, List.getD_eq_getElem?_getD, List.getElem?_eq_getElem hil,
      List.getElem?_eq_getElem hjl]
    simp [eq_comm]
  unfold elig Eligible
  simp only [Bool.and_eq_true, decide_eq_true_eq, hk, Bool.not_eq_true']
  constructor
  · rintro ⟨⟨hy, hb⟩, hk⟩
    exact ⟨x, y, hi, hj, hx, hy, hk, (before_backward O ex x y hx hy).mp hb⟩
  · rintro ⟨x', y', hi', hj', _, hy, hk, hb⟩
    rw [hi] at hi'; rw [hj] at hj'
    cases hi'; cases hj'
    exact ⟨⟨hy, (before_backward O ex x y hx hy).mpr hb⟩, hk⟩

theorem answer_backward [DecidableEq K] [Inhabited K] {valid : V → Bool} {lt same : V → V → Bool}
    (O : Ordered valid lt same) (ex : Bool) {key1 key2 : List K} {val1 val2 : List V}
    (h1 : key1.length = val1.length) (h2 : key2.length = val2.length) {i : Nat} {x : V}
    (hi : val1[i]? = some x) :
    BackwardAt (Eligible valid lt ex key1 key2 val1 val2 i)
      (answer valid (fun x y => lt x y || (!ex && same x y)) key1 key2 (numbered val2) (i, x)) := by
  unfold answer
  cases hx : valid x with
  | false =>
    rw [if_neg (by simp)]
    rintro j ⟨x', y', hi', _, hx', _⟩
    rw [hi] at hi'; cases hi'; rw [hx] at hx'; simp at hx'
  | true =>
    rw [if_pos rfl]
    cases hl : ((numbered val2).filter
        (elig valid (fun x y => lt x y || (!ex && same x y)) key1 key2 (i, x))).getLast? with
    | none =>
      rw [List.getLast?_eq_none_iff, List.filter_eq_nil_iff] at hl
      intro j hj
      obtain ⟨_, y, _, hy, _⟩ := id hj
      exact hl (j, y) (mem_numbered.mpr hy) ((elig_iff O ex h1 h2 hi hy hx).mpr hj)
    | some p =>
      obtain ⟨hm, hp, hlast⟩ := last_of_increasing (numbered_pairwise val2) hl
      refine ⟨(elig_iff O ex h1 h2 hi (mem_numbered.mp hm) hx).mp hp, fun l hlt hel => ?_⟩
      obtain ⟨_, y, _, hy, _⟩ := id hel
      have := hlast (l, y) (mem_numbered.mpr hy) hlt
      rw [(elig_iff O ex h1 h2 hi hy hx).mpr hel] at this
      simp at this

theorem answer_forward [DecidableEq K] [Inhabited K] {valid : V → Bool} {lt same : V → V → Bool}
    (O : Ordered valid lt same) (ex : Bool) {key1 key2 : List K} {val1 val2 : List V}
    (h1 : key1.length = val1.length) (h2 : key2.length = val2.length) {i : Nat} {x : V}
    (hi : val1[i]? = some x) :
    ForwardAt (Eligible valid lt ex key1 key2 val1 val2 i)
      (answer valid (fun x y => lt x y || (!ex && same x y)) key1 key2 (numbered val2).reverse (i, x)) := by
  unfold answer
  cases hx : valid x with
  | false =>
    rw [if_neg (by simp)]
    rintro j ⟨x', y', hi', _, hx', _⟩
    rw [hi] at hi'; cases hi'; rw [hx] at hx'; simp at hx'
  | true =>
    rw [if_pos rfl, List.filter_reverse, List.getLast?_reverse]
    cases hl : ((numbered val2).filter
        (elig valid (fun x y => lt x y || (!ex && same x y)) key1 key2 (i, x))).head? with
    | none =>
      rw [List.head?_eq_none_iff, List.filter_eq_nil_iff] at hl
      intro j hj
      obtain ⟨_, y, _, hy, _⟩ := id hj
      exact hl (j, y) (mem_numbered.mpr hy) ((elig_iff O ex h1 h2 hi hy hx).mpr hj)
    | some p =>
      obtain ⟨ys, hys⟩ := List.head?_eq_some_iff.mp hl
      have hmem : p ∈ (numbered val2).filter
        (elig valid (fun x y => lt x y || (!ex && same x y)) key1 key2 (i, x)) := by rw [hys]; simp
      have hpw := (numbered_pairwise val2).filter
        (elig valid (fun x y => lt x y || (!ex && same x y)) key1 key2 (i, x))
      rw [hys, List.pairwise_cons] at hpw
      obtain ⟨hm, hp⟩ := List.mem_filter.mp hmem
      refine ⟨(elig_iff O ex h1 h2 hi (mem_numbered.mp hm) hx).mp hp, fun l hlt hel => ?_⟩
      obtain ⟨_, y, _, hy, _⟩ := id hel
      have hq : (l, y) ∈ p :: ys := by
        rw [← hys]
        exact List.mem_filter.mpr ⟨mem_numbered.mpr hy, (elig_iff O ex h1 h2 hi hy hx).mpr hel⟩
      rcases List.mem_cons.mp hq with h | h
      · rw [← h] at hlt; simp at hlt
      · have := hpw.1 _ h
        simp at this hlt
        omega

theorem numbered_lt {l : List V} {a : Nat × V} (h : a ∈ numbered l) : a.1 < l.length :=
  (List.getElem?_eq_some_iff.mp (mem_numbered.mp h)).1

/-- The rows of a sorted left column, seen by the walk. -/
theorem sorted_left {valid : V → Bool} {lt same : V → V → Bool} (O : Ordered valid lt same) (ex : Bool)
    {l : List V} (hs : Sorted valid lt l) :
    (numbered l).Pairwise (fun a a' => valid a.2 = true → valid a'.2 = true →
      ∀ y, valid y = true → (lt a'.2 y || (!ex && same a'.2 y)) = true → (lt a.2 y || (!ex && same a.2 y)) = true) :=
  (numbered_pairwise_val hs).imp fun h hx hx' _ hy hb => before_mono_left O ex hx hx' hy (h hx hx') hb

theorem sorted_right {valid : V → Bool} {lt same : V → V → Bool} (O : Ordered valid lt same) (ex : Bool)
    {l : List V} (hs : Sorted valid lt l) :
    (numbered l).Pairwise (fun b b' => valid b.2 = true → valid b'.2 = true →
      ∀ x, valid x = true → (lt x b.2 || (!ex && same x b.2)) = true → (lt x b'.2 || (!ex && same x b'.2)) = true) :=
  (numbered_pairwise_val hs).imp fun h hy hy' _ hx hb => before_mono_right O ex hx hy hy' (h hy hy') hb

theorem sorted_left_rev {valid : V → Bool} {lt same : V → V → Bool} (O : Ordered valid lt same) (ex : Bool)
    {l : List V} (hs : Sorted valid lt l) :
    (numbered l).reverse.Pairwise (fun a a' => valid a.2 = true → valid a'.2 = true →
      ∀ y, valid y = true → (lt y a'.2 || (!ex && same a'.2 y)) = true → (lt y a.2 || (!ex && same a.2 y)) = true) := by
  rw [List.pairwise_reverse]
  exact (numbered_pairwise_val hs).imp fun h hx hx' _ hy hb =>
    before_mono_left (ordered_flip O) ex hx hx' hy (h hx' hx) hb

theorem sorted_right_rev {valid : V → Bool} {lt same : V → V → Bool} (O : Ordered valid lt same) (ex : Bool)
    {l : List V} (hs : Sorted valid lt l) :
    (numbered l).reverse.Pairwise (fun b b' => valid b.2 = true → valid b'.2 = true →
      ∀ x, valid x = true → (lt b.2 x || (!ex && same x b.2)) = true → (lt b'.2 x || (!ex && same x b'.2)) = true) := by
  rw [List.pairwise_reverse]
  exact (numbered_pairwise_val hs).imp fun h hy hy' _ hx hb =>
    before_mono_right (ordered_flip O) ex hx hy hy' (h hy' hy) hb

/-- **C15** (hash path). The backward as-of merge: for every hash function with values below the table size, a table
with more slots than right rows (`AllocMemory(arraySize2)`, see C11), any keys, and times sorted apart from invalid
ones, every output is written, and it is the last right row with the same key and a valid time not after
(before) the left time; none if there is no such row or the left time is invalid. -/
theorem asof_backward [DecidableEq K] [Inhabited K] (hash : K → Nat) (size : Nat) (hr : ∀ k, hash k < size)
    {valid : V → Bool} {lt same : V → V → Bool} (O : Ordered valid lt same) (ex : Bool) {key1 key2 : List K}
    {val1 val2 : List V} (h1 : key1.length = val1.length) (h2 : key2.length = val2.length)
    (hs : val2.length < size) (s1 : Sorted valid lt val1) (s2 : Sorted valid lt val2) :
    ∃ out : List (Option Nat),
      findLastMatch hash size valid lt same ex key1 key2 val1 val2 = some (out.map some) ∧
      out.length = val1.length ∧
      ∀ (i : Nat) o, out[i]? = some o → BackwardAt (Eligible valid lt ex key1 key2 val1 val2 i) o := by
  obtain ⟨t, e⟩ := loop_eq (probing_isMap (V := Nat) hash size key2 hr (h2 ▸ hs)) _
    (represents_fresh hash size key2) valid (fun x y => lt x y || (!ex && same x y)) key1 key2
    (numbered val1) (numbered val2) (fun a h => h1 ▸ numbered_lt h) (fun a h => h2 ▸ numbered_lt h)
    (fun _ _ => trivial) (fun _ h => h) (sorted_left O ex s1) (sorted_right O ex s2)
  obtain ⟨out, hw, hlen, hget⟩ := runWrites_numbered val1
    (answer valid (fun x y => lt x y || (!ex && same x y)) key1 key2 (numbered val2)) (List.Perm.refl _)
  refine ⟨out, ?_, hlen, fun i o ho => ?_⟩
  · unfold findLastMatch
    rw [e]
    exact hw
  · have hi : i < val1.length := by rw [← hlen]; exact (List.getElem?_eq_some_iff.mp ho).1
    have hx := List.getElem?_eq_getElem hi
    have := hget i _ hx
    rw [ho] at this
    cases this
    exact answer_backward O ex h1 h2 hx

/-- **C16**. The forward as-of merge: the first right row with the same key and a valid time not before
(after) the left time. -/
theorem asof_forward [DecidableEq K] [Inhabited K] (hash : K → Nat) (size : Nat) (hr : ∀ k, hash k < size)
    {valid : V → Bool} {lt same : V → V → Bool} (O : Ordered valid lt same) (ex : Bool) {key1 key2 : List K}
    {val1 val2 : List V} (h1 : key1.length = val1.length) (h2 : key2.length = val2.length)
    (hs : val2.length < size) (s1 : Sorted valid lt val1) (s2 : Sorted valid lt val2) :
    ∃ out : List (Option Nat),
      findNextMatch hash size valid lt same ex key1 key2 val1 val2 = some (out.map some) ∧
      out.length = val1.length ∧
      ∀ (i : Nat) o, out[i]? = some o →
        ForwardAt (Eligible valid (fun x y => lt y x) ex key1 key2 val1 val2 i) o := by
  obtain ⟨t, e⟩ := loop_eq (probing_isMap (V := Nat) hash size key2 hr (h2 ▸ hs)) _
    (represents_fresh hash size key2) valid (fun x y => lt y x || (!ex && same x y)) key1 key2
    (numbered val1).reverse (numbered val2).reverse
    (fun a h => h1 ▸ numbered_lt (List.mem_reverse.mp h)) (fun a h => h2 ▸ numbered_lt (List.mem_reverse.mp h))
    (fun _ _ => trivial) (fun _ h => h) (sorted_left_rev O ex s1) (sorted_right_rev O ex s2)
  obtain ⟨out, hw, hlen, hget⟩ := runWrites_numbered val1
    (answer valid (fun x y => lt y x || (!ex && same x y)) key1 key2 (numbered val2).reverse)
    (List.reverse_perm (numbered val1))
  refine ⟨out, ?_, hlen, fun i o ho => ?_⟩
  · unfold findNextMatch
    rw [e]
    exact hw
  · have hi : i < val1.length := by rw [← hlen]; exact (List.getElem?_eq_some_iff.mp ho).1
    have hx := List.getElem?_eq_getElem hi
    have := hget i _ hx
    rw [ho] at this
    cases this
    exact answer_forward (ordered_flip O) ex h1 h2 hx

/-- Integer times: any set of valid values (all but the minimum of the type). -/
theorem ordered_int (valid : Int → Bool) : Ordered valid (fun x y => decide (x < y)) (fun x y => decide (x = y)) where
  irrefl := by intro x _; simp
  trans := by intro x y z _ _ _ h1 h2; simp at *; omega
  same_iff := by intro x y _ _; simp; omega
  same_trans := by intro x y z _ _ _ h1 h2; simp at *; omega

/-- Floating point times: valid means not NaN; the two zeros are the same time. -/
theorem ordered_float (f : FT) : Ordered (fun x => !f.isNan x) f.lt f.eq where
  irrefl := by intro x _; simp [FT.lt]
  trans := by intro x y z hx hy hz h1 h2; simp [FT.lt] at *; refine ⟨⟨hx, hz⟩, by omega⟩
  same_iff := by intro x y hx hy; simp [FT.lt, FT.eq] at *; simp [hx, hy]; omega
  same_trans := by intro x y z hx hy hz h1 h2; simp [FT.eq] at *; refine ⟨⟨hx, hz⟩, by omega⟩

/-- Keys a, b against a, b, a at times 3, 5, 9 / 1, 5, 8: exact matches allowed and not. -/
example : findLastMatch (fun k => k % 4) 4 (fun _ => true) (fun x y : Int => decide (x < y))
      (fun x y => decide (x = y)) true [7, 8, 7] [7, 8, 7] [3, 5, 9] [1, 5, 8] =
    some [some (some 0), some (some 1), some (some 2)] ∧
    findLastMatch (fun k => k % 4) 4 (fun _ => true) (fun x y : Int => decide (x < y))
      (fun x y => decide (x = y)) false [7, 8, 7] [7, 8, 7] [3, 5, 9] [1, 5, 8] =
    some [some (some 0), some none, some (some 2)] ∧
    findNextMatch (fun k => k % 4) 4 (fun _ => true) (fun x y : Int => decide (x < y))
      (fun x y => decide (x = y)) true [7, 8, 7] [7, 8, 7] [3, 5, 9] [1, 5, 8] =
    some [some (some 2), some (some 1), some none] := by decide +kernel

/-- The hypotheses are met by that case. -/
example := asof_backward (K := Nat) (fun k => k % 4) 4 (fun k => Nat.mod_lt k (by decide)) (ordered_int fun _ => true) true
  (key1 := [7, 8, 7]) (key2 := [7, 8, 7]) (val1 := [3, 5, 9]) (val2 := [1, 5, 8]) rfl rfl (by decide)
  (by unfold Sorted; decide) (by unfold Sorted; decide)

/-- Float times with a NaN in the middle (64 bit: 1.0, NaN, 2.0). -/
example := asof_forward (K := Nat) (fun k => k % 4) 4 (fun k => Nat.mod_lt k (by decide)) (ordered_float FT.f64) false
  (key1 := [7, 8, 7]) (key2 := [7, 7, 7])
  (val1 := [0x3FF0000000000000, 0x7FF8000000000000, 0x4000000000000000])
  (val2 := [0x3FF0000000000000, 0x7FF8000000000000, 0x4000000000000000]) rfl rfl (by decide)
  (by unfold Sorted; decide +kernel) (by unfold Sorted; decide +kernel)

/-! ## Known categories -/

theorem direct_isMap {V : Type} (size : Nat) :
    IsMap (direct (V := V)) (fun k => k < size) (fun k => k < size) (Direct size) where
  find := by
    intro t m k h hk
    show (match t[k]? with | none => _ | some o => _) = _
    rw [h.2 k hk]
    cases m k <;> rfl
  put := by
    intro t m k v0 f h hk
    have hl : k < t.length := by rw [h.1]; exact hk
    refine ⟨t.set k (some (k, ((m k).map f).getD v0)), ?_, by simpa using h.1, fun p hp => ?_⟩
    · show (match t[k]? with | none => _ | some o => _) = _
      rw [h.2 k hk]
      cases m k <;> rfl
    · rw [List.getElem?_set]
      unfold mapPut
      by_cases hkp : k = p
      · subst hkp; rw [if_pos rfl, if_pos hl, if_pos rfl]; rfl
      · rw [if_neg hkp, if_neg (Ne.symm hkp)]; exact h.2 p hp

theorem tableLoop_congr {K V R S : Type} (ops : Ops K V) (p q : S → R → Op K V) (next : S → R → Option V → S)
    (rs : List R) (h : ∀ s, ∀ r ∈ rs, p s r = q s r) (t : Slots K V) (s : S) :
    tableLoop ops p next t s rs = tableLoop ops q next t s rs := by
  induction rs generalizing t s with
  | nil => rfl
  | cons r rs ih =>
    have ih := ih fun s r hr => h s r (by simp [hr])
    unfold tableLoop
    rw [h s r (by simp)]
    simp only [ih]

/-- The categorical merge stores right row `j` under the key of right row `i`, the *left* position: here left row 0
(key 0) is matched with right row 1, whose key is 1. -/
theorem categorical_wrong_key :
    findLastCategorical 2 (fun x y : Int => decide (x < y)) [0, 0] [0, 1] [9, 9] [1, 2] =
      some [some (some 1), some (some 1)] ∧
    Eligible (fun _ => true) (fun x y : Int => decide (x < y)) true [0, 0] [0, 1] [9, 9] [1, 2] 0 0 ∧
    ¬ Eligible (fun _ => true) (fun x y : Int => decide (x < y)) true [0, 0] [0, 1] [9, 9] [1, 2] 0 1 := by
  refine ⟨by decide +kernel, ⟨9, 1, by simp⟩, ?_⟩
  rintro ⟨x, y, _, _, _, _, h, _⟩
  simp at h

/-- It can read the right keys outside the array: two left rows before the second right row, which is the only one. -/
theorem categorical_outside :
    findLastCategorical 1 (fun x y : Int => decide (x < y)) [0, 0] [0] [1, 9] [5] = none := by decide +kernel

/-- **C15** for known categories, as far as it holds: when every right row has the same key as the right row at each left
position (in particular no left row lies beyond the right rows, unless there are none). -/
theorem categorical_partial {lt same : V → V → Bool} (size : Nat) (O : Ordered (fun _ => true) lt same)
    {key1 key2 : List Nat} {val1 val2 : List V} (h1 : key1.length = val1.length) (h2 : key2.length = val2.length)
    (hk1 : ∀ k ∈ key1, k < size) (hk2 : ∀ k ∈ key2, k < size)
    (s1 : Sorted (fun _ => true) lt val1) (s2 : Sorted (fun _ => true) lt val2)
    (hsame : ∀ i j, i < key1.length → j < key2.length → key2[i]? = key2[j]?) :
    ∃ out : List (Option Nat),
      findLastCategorical size lt key1 key2 val1 val2 = some (out.map some) ∧
      out.length = val1.length ∧
      ∀ (i : Nat) o, out[i]? = some o → BackwardAt (Eligible (fun _ => true) lt true key1 key2 val1 val2 i) o := by
  have hbef : (fun x y => lt x y || (!true && same x y)) = lt := by funext x y; simp
  obtain ⟨t, e⟩ := loop_eq (direct_isMap (V := Nat) size) _ (direct_fresh size) (fun _ => true)
    (fun x y => lt x y || (!true && same x y)) key1 key2
    (numbered val1) (numbered val2) (fun a h => h1 ▸ numbered_lt h) (fun a h => h2 ▸ numbered_lt h)
    hk1 hk2 (sorted_left O true s1) (sorted_right O true s2)
  obtain ⟨out, hw, hlen, hget⟩ := runWrites_numbered val1
    (answer (fun _ => true) (fun x y => lt x y || (!true && same x y)) key1 key2 (numbered val2)) (List.Perm.refl _)
  refine ⟨out, ?_, hlen, fun i o ho => ?_⟩
  · unfold findLastCategorical
    rw [tableLoop_congr direct (catPlan size key1 key2) (asofPlan key1 key2)]
    · rw [hbef] at e
      rw [e]
      rw [hbef] at hw
      exact hw
    · intro s r hr
      have := walk_rows (fun _ => true) lt key1.length key2.length (numbered val1) (numbered val2)
        (fun a h => h1 ▸ numbered_lt h) (fun a h => h2 ▸ numbered_lt h) r hr
      cases r with
      | bad i => rfl
      | look i =>
        have : i < key1.length := this
        show Op.look (key1.getD i size) = Op.look (key1.getD i default)
        rw [List.getD_eq_getElem?_getD, List.getD_eq_getElem?_getD, List.getElem?_eq_getElem this]
        rfl
      | put i j =>
        show Op.put (key2.getD i size) j _ = Op.put (key2.getD j default) j _
        have hij := hsame i j this.1 this.2
        rw [List.getD_eq_getElem?_getD, List.getD_eq_getElem?_getD, hij, List.getElem?_eq_getElem this.2]
        rfl
  · have hi : i < val1.length := by rw [← hlen]; exact (List.getElem?_eq_some_iff.mp ho).1
    have hx := List.getElem?_eq_getElem hi
    have := hget i _ hx
    rw [ho] at this
    cases this
    exact answer_backward O true h1 h2 hx

example : findLastCategorical 3 (fun x y : Int => decide (x < y)) [2, 0] [2, 2, 2] [4, 9] [1, 4, 8] =
    some [some (some 1), some none] := by decide +kernel

end Riptide.Asof
