import Verif.Bins.QuantileProps
/-! # Cuts of sorted floats: from the values to the labels -/
namespace Riptide.Bins

/-- What is counted over the rows in any order is counted over the values. -/
theorem rows_countP {data index : List Nat} (p : Nat → Bool) (h : index.Perm (List.range data.length)) :
    index.countP (fun r => p (data.getD r 0)) = data.countP p := by
  rw [h.countP_eq]
  have hd : data = (List.range data.length).map (fun r => data.getD r 0) := by
    refine List.ext_getElem? fun i => ?_
    rw [List.getElem?_map]
    by_cases hi : i < data.length
    · rw [List.getElem?_range hi]
      simp [List.getD, hi]
    · rw [List.getElem?_eq_none (by omega), List.getElem?_eq_none (by simp; omega)]
      rfl
  have h2 : data.countP p = ((List.range data.length).map (fun r => data.getD r 0)).countP p := by rw [← hd]
  rw [h2, List.countP_map]
  rfl

theorem countP_or {α : Type} {p q : α → Bool} : ∀ (l : List α), (∀ x, p x = true → q x = false) → l.countP (fun x => p x || q x) = l.countP p + l.countP q
  | [], _ => rfl
  | a :: l, h => by
    have := countP_or l h
    rw [List.countP_cons, List.countP_cons, List.countP_cons, this]
    have ha := h a
    cases hp : p a <;> cases hq : q a <;> simp_all <;> omega

/-- `NanInfCountFromSort`, then `BinsToCutsSorted` with its counts, on floats: every NaN and every infinity gets 0, and every other value the label of its
bin; undefined if a value is above the last edge and reading behind the edges is.  `conv` is the cast to `double`. -/
theorem float_cuts {f : FT} (hf : 0 < f.eb) {conv : Nat → Nat} (hnan : ∀ x, f.isNan x = false → FT.f64.isNan (conv x) = false)
    (hmono : ∀ x y, f.isNan x = false → f.isNan y = false → f.key x ≤ f.key y → FT.f64.key (conv x) ≤ FT.f64.key (conv y))
    {data index edges : List Nat} {past : Option Nat} (hs : Sorts (Sort.floatLt f true) data index) (hn : data.length < 2 ^ 31) (he : Edges edges)
    (hlen : edges.length < 2 ^ 63) (hlen2 : 2 ≤ edges.length) {top : Nat} (htop : edges[edges.length - 1]? = some top) :
    ∃ nan inf neg, countFloats f data index = some (nan, inf, neg) ∧
      ((past = none ∧ (∃ x ∈ data, f.isFinite x = true ∧ FT.f64.key top < FT.f64.key (conv x)) ∧ binsToCutsSorted data conv index edges past nan inf neg = none) ∨
       ((past ≠ none ∨ ∀ x ∈ data, f.isFinite x = true → FT.f64.key (conv x) ≤ FT.f64.key top) ∧
        ∃ out : List Int, binsToCutsSorted data conv index edges past nan inf neg = some (out.map some) ∧ out.length = data.length ∧
          ∀ (r x : Nat), data[r]? = some x → ∃ label : Int, out[r]? = some label ∧ (f.isFinite x = false → label = 0) ∧ (f.isFinite x = true → IsLabel edges (conv x) label))) := by
  refine ⟨_, _, _, floats_counted hf hs hn, ?_⟩
  have hpos : 0 < f.infMag := by
    unfold FT.infMag
    have h1 := Nat.one_lt_two_pow (n := f.eb) (by omega)
    exact Nat.mul_pos (by omega) (Nat.two_pow_pos _)
  let x : Nat → Nat := fun r => data.getD r 0
  have hx : ∀ r y, data[r]? = some y → x r = y := by
    intro r y h
    show data.getD r 0 = y
    simp [List.getD, h]
  have hget : ∀ r, r < data.length → data[r]? = some (x r) := by
    intro r hr
    show _ = some (data.getD r 0)
    simp [List.getD, hr]
  have hilen : index.length = data.length := by rw [hs.perm.length_eq, List.length_range]
  have hin : ∀ r ∈ index, r < data.length := fun r hr => List.mem_range.mp (hs.perm.mem_iff.mp hr)
  let P : Nat → Bool := fun y => f.isNan y || f.eq y f.infMag
  let Q : Nat → Bool := fun y => f.eq y (2 ^ (f.eb + f.mb) + f.infMag)
  have hord : index.Pairwise (fun r s => (f.isNan (x r) = true → f.isNan (x s) = true) ∧ (f.isNan (x r) = false → f.isNan (x s) = false → f.key (x r) ≤ f.key (x s))) := by
    refine hs.sorted.imp_of_mem ?_
    intro a b ha hb h
    exact floatLt_false (h _ _ (hget a (hin a ha)) (hget b (hin b hb)))
  have hP : index.Pairwise (fun r s => P (x r) = true → P (x s) = true) := by
    refine hord.imp ?_
    intro a b ⟨h1, h2⟩ h
    show (f.isNan (x b) || f.eq (x b) f.infMag) = true
    have h' : (f.isNan (x a) || f.eq (x a) f.infMag) = true := h
    rw [Bool.or_eq_true] at h' ⊢
    rcases h' with h' | h'
    · exact .inl (h1 h')
    · rw [pinf_eq] at h'
      cases hb : f.isNan (x b) with
      | true => exact .inl rfl
      | false =>
        have h3 := h2 h'.1 hb
        have h4 := key_bounds hb
        exact .inr (pinf_eq.mpr ⟨hb, by omega⟩)
  have hQ : index.Pairwise (fun r s => (!Q (x r)) = true → (!Q (x s)) = true) := by
    refine hord.imp ?_
    intro a b ⟨h1, h2⟩ h
    have h' : (!f.eq (x a) (2 ^ (f.eb + f.mb) + f.infMag)) = true := h
    show (!f.eq (x b) (2 ^ (f.eb + f.mb) + f.infMag)) = true
    rw [Bool.not_eq_true'] at h' ⊢
    cases hq : f.eq (x b) (2 ^ (f.eb + f.mb) + f.infMag) with
    | false => rfl
    | true =>
      rw [ninf_eq] at hq
      cases ha : f.isNan (x a) with
      | true => rw [h1 ha] at hq; cases hq.1
      | false =>
        have h3 := h2 ha hq.1
        have h4 := key_bounds ha
        rw [ninf_eq.mpr ⟨ha, by omega⟩] at h'
        cases h'
  have hcP : index.countP (fun r => P (x r)) = data.countP f.isNan + data.countP (fun x => f.eq x f.infMag) := by
    rw [← countP_or data]
    · exact rows_countP P hs.perm
    · intro y hy
      unfold FT.eq
      simp [hy]
  have hcQ : index.countP (fun r => Q (x r)) = data.countP (fun x => f.eq x (2 ^ (f.eb + f.mb) + f.infMag)) := rows_countP Q hs.perm
  have hcQ' : index.countP (fun r => !Q (x r)) = data.length - data.countP (fun x => f.eq x (2 ^ (f.eb + f.mb) + f.infMag)) := by
    have := List.length_eq_countP_add_countP (fun r => Q (x r)) (l := index)
    have h2 : index.countP (fun r => !Q (x r)) = index.countP (fun r => decide ¬Q (x r) = true) := by
      refine List.countP_congr ?_
      intro r _
      simp
    omega
  have hqle : data.countP (fun x => f.eq x (2 ^ (f.eb + f.mb) + f.infMag)) ≤ data.length := List.countP_le_length
  obtain ⟨p1, p2⟩ := last_ones (p := fun r => P (x r)) index hP
  obtain ⟨q1, q2⟩ := last_ones (p := fun r => !Q (x r)) index hQ
  rw [hcP, hilen] at p1 p2
  rw [hcQ', hilen] at q1 q2
  have hcount : data.countP (fun x => f.eq x (2 ^ (f.eb + f.mb) + f.infMag)) + (data.countP f.isNan + data.countP (fun x => f.eq x f.infMag)) ≤ data.length := by
    have hdis : ∀ y, P y = true → Q y = false := by
      intro y hy
      have hy' : (f.isNan y || f.eq y f.infMag) = true := hy
      show f.eq y (2 ^ (f.eb + f.mb) + f.infMag) = false
      cases hq : f.eq y (2 ^ (f.eb + f.mb) + f.infMag) with
      | false => rfl
      | true =>
        rw [ninf_eq] at hq
        rw [hq.1, Bool.false_or, pinf_eq] at hy'
        omega
    have := countP_or index (p := fun r => P (x r)) (q := fun r => Q (x r)) (fun r hr => hdis _ hr)
    rw [hcP, hcQ] at this
    have h2 := List.countP_le_length (p := fun r => P (x r) || Q (x r)) (l := index)
    omega
  generalize hnan' : data.countP f.isNan = nan at *
  generalize hinf' : data.countP (fun x => f.eq x f.infMag) = inf at *
  generalize hneg' : data.countP (fun x => f.eq x (2 ^ (f.eb + f.mb) + f.infMag)) = neg at *
  rw [show data.length - (data.length - neg) = neg by omega] at q1 q2
  have hmid1 : ∀ r ∈ (index.drop neg).take (data.length - (nan + inf) - neg), r ∈ index := fun r hr =>
    ((List.take_sublist _ _).trans (List.drop_sublist _ _)).mem hr
  have hmid2 : ∀ r ∈ (index.drop neg).take (data.length - (nan + inf) - neg), f.isFinite (x r) = true := by
    intro r hr
    have h1 : (!Q (x r)) = true := q2 r ((List.take_sublist _ _).mem hr)
    have h2 : P (x r) = false := by
      refine p1 r ?_
      have : (index.drop neg).take (data.length - (nan + inf) - neg) = (index.take (data.length - (nan + inf))).drop neg := by
        rw [List.drop_take]
      rw [this] at hr
      exact (List.drop_sublist _ _).mem hr
    have h1' : (!f.eq (x r) (2 ^ (f.eb + f.mb) + f.infMag)) = true := h1
    have h2' : (f.isNan (x r) || f.eq (x r) f.infMag) = false := h2
    rw [Bool.or_eq_false_iff] at h2'
    have hb := key_bounds h2'.1
    have n1 : ¬ f.key (x r) = f.infMag := by
      intro h
      rw [pinf_eq.mpr ⟨h2'.1, h⟩] at h2'
      cases h2'.2
    have n2 : ¬ f.key (x r) = -(f.infMag : Int) := by
      intro h
      rw [ninf_eq.mpr ⟨h2'.1, h⟩] at h1'
      cases h1'
    unfold FT.isFinite
    unfold FT.key at hb n1 n2
    rw [decide_eq_true_iff]
    split at hb <;> rename_i hs <;> simp only [hs] at n1 n2 <;> simp at n1 n2 <;> omega
  have hfin : ∀ y, f.isFinite y = true → f.isNan y = false := by
    intro y hy
    unfold FT.isFinite at hy
    unfold FT.isNan
    simp at hy ⊢
    omega
  have hends : ∀ r ∈ index.take neg ++ index.drop (data.length - (nan + inf)), f.isFinite (x r) = false := by
    intro r hr
    rw [List.mem_append] at hr
    cases hq : f.isFinite (x r) with
    | false => rfl
    | true =>
      have hnn := hfin _ hq
      unfold FT.isFinite at hq
      rw [decide_eq_true_iff] at hq
      have hkey : -(f.infMag : Int) < f.key (x r) ∧ f.key (x r) < f.infMag := by
        unfold FT.key
        split <;> omega
      rcases hr with hr | hr
      · have h1 : (!Q (x r)) = false := q1 r hr
        have h1' : (!f.eq (x r) (2 ^ (f.eb + f.mb) + f.infMag)) = false := h1
        rw [Bool.not_eq_false', ninf_eq] at h1'
        omega
      · have h2 : P (x r) = true := p2 r hr
        have h2' : (f.isNan (x r) || f.eq (x r) f.infMag) = true := h2
        rw [hnn, Bool.false_or, pinf_eq] at h2'
        omega
  have key := cuts_labelled (past := past) (conv := conv) (nan := nan) (inf := inf) (neg := neg) (v := fun r => conv (x r)) hs.perm hcount
    (fun r y h => by rw [hx r y h]) (fun r hr => hnan _ (hfin _ (hmid2 r hr))) (by
      have hsub : ((index.drop neg).take (data.length - (nan + inf) - neg)).Sublist index := (List.take_sublist _ _).trans (List.drop_sublist _ _)
      refine (hord.sublist hsub).imp_of_mem ?_
      intro a b ha hb h
      exact hmono _ _ (hfin _ (hmid2 a ha)) (hfin _ (hmid2 b hb)) (h.2 (hfin _ (hmid2 a ha)) (hfin _ (hmid2 b hb)))) he hlen hlen2 htop
  have hdec := drop_take_append index hcount
  have hwhere : ∀ r y, data[r]? = some y → r ∈ index.take neg ++ index.drop (data.length - (nan + inf)) ∨
      r ∈ (index.drop neg).take (data.length - (nan + inf) - neg) := by
    intro r y h
    have hr : r ∈ index := hs.perm.mem_iff.mpr (List.mem_range.mpr (List.getElem?_eq_some_iff.mp h).1)
    rw [hdec, List.mem_append, List.mem_append] at hr
    rw [List.mem_append]
    rcases hr with h1 | h1 | h1
    · exact .inl (.inl h1)
    · exact .inr h1
    · exact .inl (.inr h1)
  rcases key with ⟨a1, ⟨r, hr, a2⟩, a3⟩ | ⟨a1, out, a2, a3, a4, a5⟩
  · exact .inl ⟨a1, ⟨x r, List.mem_of_getElem? (hget r (hin r (hmid1 r hr))), hmid2 r hr, a2⟩, a3⟩
  · refine .inr ⟨?_, out, a2, a3, ?_⟩
    · rcases a1 with a1 | a1
      · exact .inl a1
      · refine .inr fun y hy hq => ?_
        obtain ⟨r, hr⟩ := List.getElem?_of_mem hy
        rcases hwhere r y hr with h | h
        · have := hends r h
          rw [hx r y hr, hq] at this
          cases this
        · have := a1 r h
          rwa [hx r y hr] at this
    · intro r y hr
      rcases hwhere r y hr with h | h
      · have h2 := hends r h
        rw [hx r y hr] at h2
        exact ⟨0, a4 r h, (fun _ => rfl), (fun h3 => absurd h3 (by rw [h2]; nofun))⟩
      · obtain ⟨label, b1, b2⟩ := a5 r h
        have h2 := hmid2 r h
        rw [hx r y hr] at h2 b2
        exact ⟨label, b1, (fun h3 => absurd h3 (by rw [h2]; nofun)), fun _ => b2⟩

/-- `qcut` on `double`s, when nothing finite is above the last edge. -/
theorem quantile_cuts_partial {data index edges : List Nat} (past : Option Nat) (hs : Sorts (Sort.floatLt FT.f64 true) data index) (hn : data.length < 2 ^ 31)
    (he : Edges edges) (hlen : edges.length < 2 ^ 63) (hlen2 : 2 ≤ edges.length) {top : Nat} (htop : edges[edges.length - 1]? = some top)
    (hall : ∀ x ∈ data, FT.f64.isFinite x = true → FT.f64.key x ≤ FT.f64.key top) :
    ∃ (nan inf neg : Nat) (out : List Int), countFloats FT.f64 data index = some (nan, inf, neg) ∧
      binsToCutsSorted data id index edges past nan inf neg = some (out.map some) ∧ out.length = data.length ∧
      ∀ (r x : Nat), data[r]? = some x → ∃ label : Int, out[r]? = some label ∧ (FT.f64.isFinite x = false → label = 0) ∧ (FT.f64.isFinite x = true → IsLabel edges x label) := by
  obtain ⟨nan, inf, neg, h1, h2⟩ := float_cuts (f := FT.f64) (conv := id) (past := past) (by decide) (fun _ h => h) (fun _ _ _ _ h => h) hs hn he hlen hlen2 htop
  rcases h2 with ⟨_, ⟨x, hx, hq, hl⟩, _⟩ | ⟨_, out, h3, h4, h5⟩
  · have := hall x hx hq
    simp only [id] at hl
    omega
  · exact ⟨nan, inf, neg, out, h1, h3, h4, h5⟩

/-- A finite value above the last edge: the edge behind the last one is read, and that is outside of the array. -/
theorem above_last_edge {data index edges : List Nat} (hs : Sorts (Sort.floatLt FT.f64 true) data index) (hn : data.length < 2 ^ 31)
    (he : Edges edges) (hlen : edges.length < 2 ^ 63) (hlen2 : 2 ≤ edges.length) {top : Nat} (htop : edges[edges.length - 1]? = some top)
    {x : Nat} (hx : x ∈ data) (hq : FT.f64.isFinite x = true) (hl : FT.f64.key top < FT.f64.key x) :
    ∃ nan inf neg, countFloats FT.f64 data index = some (nan, inf, neg) ∧ binsToCutsSorted data id index edges none nan inf neg = none := by
  obtain ⟨nan, inf, neg, h1, h2⟩ := float_cuts (f := FT.f64) (conv := id) (past := none) (by decide) (fun _ h => h) (fun _ _ _ _ h => h) hs hn he hlen hlen2 htop
  rcases h2 with ⟨_, _, h3⟩ | ⟨h3, _⟩
  · exact ⟨nan, inf, neg, h1, h3⟩
  · rcases h3 with h3 | h3
    · exact absurd rfl h3
    · have := h3 x hx hq
      simp only [id] at this
      omega

theorem Sorts.of_check {α : Type} (d : α) {lt : α → α → Bool} {data : List α} {index : List Nat} (hp : index.Perm (List.range data.length))
    (hs : index.Pairwise (fun i j => lt (data.getD j d) (data.getD i d) = false)) : Sorts lt data index :=
  ⟨hp, hs.imp fun {i j} h x y hx hy => by simpa [List.getD, hx, hy] using h⟩

/-! Doubles: 1, 2, 3, infinity, minus infinity, NaN. -/

/-- The label of the value of a single edge that is equal to it is that of values outside. -/
theorem one_edge : binsToCutsSorted [0x3FF0000000000000] id [0] [0x3FF0000000000000] none 0 0 0 = some [some 1] := by decide +kernel

/-- No edges: the first is read all the same, even if there is nothing to label. -/
theorem no_edges (past : Option Nat) (hp : past = none) : binsToCutsSorted ([] : List Nat) id [] [] past 0 0 0 = none := by subst hp; decide +kernel

/-- The index is not compared with the values in length: a longer one leads outside of the values, a shorter one is read behind its end. -/
theorem index_not_checked :
    binsToCutsSorted [0x3FF0000000000000] id [1] [0, 0x4000000000000000] none 0 0 0 = none ∧
    binsToCutsSorted [0x3FF0000000000000, 0x3FF0000000000000] id [0] [0, 0x4000000000000000] none 0 0 0 = none ∧
    binsToCutsSorted [0x3FF0000000000000, 0x3FF0000000000000] id [0] [0, 0x4000000000000000] none 0 0 2 = none := by decide +kernel

/-- Integers are compared as `double`s: `2^53 + 1` is in the bin that ends at `2^53`. -/
theorem rounded_into_bin :
    binsToCutsSorted [(2 : Int) ^ 53 + 1] FT.f64.ofInt [0] [0, FT.f64.ofInt (2 ^ 53), FT.f64.ofInt (2 ^ 54)] none 0 0 0 = some [some 2] ∧
    FT.f64.scaled (FT.f64.ofInt (2 ^ 53)) < (2 ^ 53 + 1) * 2 ^ FT.f64.unit := by decide +kernel

/-- Edges that are not in order: a value inside gets no bin of its own. -/
theorem edges_out_of_order :
    binsToCutsSorted [0x4000000000000000, 0x4008000000000000] id [0, 1] [0, 0x4008000000000000, 0x3FF0000000000000] none 0 0 0 = some [some 2, some 2] := by decide +kernel

example : Sorts (Sort.floatLt FT.f64 true) [0x4000000000000000, 0x7FF8000000000000, 0x3FF0000000000000, 0x7FF0000000000000, 0xFFF0000000000000] [4, 2, 0, 3, 1] :=
  (Sorts.of_check 0 (by decide) (by decide +kernel))

example : countFloats FT.f64 [0x4000000000000000, 0x7FF8000000000000, 0x3FF0000000000000, 0x7FF0000000000000, 0xFFF0000000000000] [4, 2, 0, 3, 1] = some (1, 1, 1) ∧
    binsToCutsSorted [0x4000000000000000, 0x7FF8000000000000, 0x3FF0000000000000, 0x7FF0000000000000, 0xFFF0000000000000] id [4, 2, 0, 3, 1]
      [0x3FF0000000000000, 0x3FF8000000000000, 0x4000000000000000] none 1 1 1 = some [some 3, some 0, some 2, some 0, some 0] := by decide +kernel

example := quantile_cuts_partial (data := [0x4000000000000000, 0x7FF8000000000000, 0x3FF0000000000000, 0x7FF0000000000000, 0xFFF0000000000000])
  (index := [4, 2, 0, 3, 1]) (edges := [0x3FF0000000000000, 0x3FF8000000000000, 0x4000000000000000]) none (Sorts.of_check 0 (by decide) (by decide +kernel)) (by decide)
  ⟨by decide +kernel, by decide +kernel⟩ (by decide) (by decide) (top := 0x4000000000000000) rfl (by decide +kernel)

example := above_last_edge (data := [0x4000000000000000, 0x7FF8000000000000, 0x3FF0000000000000]) (index := [2, 0, 1])
  (edges := [0x3FF0000000000000, 0x3FF8000000000000]) (Sorts.of_check 0 (by decide) (by decide +kernel)) (by decide)
  ⟨by decide +kernel, by decide +kernel⟩ (by decide) (by decide) (top := 0x3FF8000000000000) rfl (x := 0x4000000000000000) (by decide) (by decide +kernel) (by decide +kernel)

example := ints_counted (t := IT.i8) (data := [5, -128, 3, -128]) (index := [1, 3, 2, 0]) (Sorts.of_check 0 (by decide) (by decide)) (by decide) (by decide)
example := ints_counted (t := IT.u8) (data := [5, 255, 3]) (index := [2, 0, 1]) (Sorts.of_check 0 (by decide) (by decide)) (by decide) (by decide)

end Riptide.Bins
