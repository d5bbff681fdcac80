import Verif.Bins.SortedLemmas
import Verif.Bins.SortedSpec
import Verif.Bins.QuantileCuts
/-! What `NanInfCountFromSort` and `BinsToCutsSorted` answer (C148). -/
namespace Riptide.Bins.Sorted
open Riptide.Nums Riptide.Nums.Info
open Riptide.Bins.Call (Num dataType convF)

theorem index_type {x : Arr} {m : Mem} {index : List Nat} (h : IsIndex x m index) :
    ∃ U : IT, indexType x.type = some U ∧ 0 < U.bits ∧ x.lay.item = U.bits / 8 ∧ x.swapped = false ∧ Ints U x m (index.map fun (r : Nat) => (r : Int)) := by
  obtain ⟨hs, ⟨h1, h2, h3⟩ | ⟨h1 | h1, h2, h3⟩⟩ := h
  · exact ⟨.i32, by rw [h1]; rfl, by decide, h2, hs, h3⟩
  · exact ⟨.i64, by rw [h1]; rfl, by decide, h2, hs, h3⟩
  · exact ⟨.i64, by rw [h1]; rfl, by decide, h2, hs, h3⟩

theorem sorted_at {α : Type} {data : List α} {index : List Nat} {lt : α → α → Bool} (hs : Sorts lt data index) {i : Nat} (hi : i < data.length) :
    ∃ r x, index[i]? = some r ∧ data[r]? = some x ∧ sortedAt data index i = some x := by
  have hl : index.length = data.length := by rw [hs.perm.length_eq, List.length_range]
  have h1 : index[i]? = some index[i] := List.getElem?_eq_getElem (by omega)
  have h2 : index[i] < data.length := List.mem_range.mp (hs.perm.mem_iff.mp (List.getElem_mem _))
  refine ⟨index[i], data[index[i]], h1, List.getElem?_eq_getElem h2, ?_⟩
  unfold sortedAt
  rw [h1]
  exact List.getElem?_eq_getElem h2

/-- The two entries of the call. -/
theorem two_entries {n : Nat} {a x : Arr} {m im : Mem} {args : List PyArg} (hargs : prepared args = [.array a m, .array x im])
    (ha : OneDim a n) (hx : OneDim x n) : ∃ d e, nanInf true (fun _ => true) args = countTwo d e ∧ Describes n (.array a m) d ∧ Describes n (.array x im) e := by
  obtain ⟨es, h1, h2, h3⟩ := build_describes [.array a m, .array x im] n (by
    intro y hy
    simp only [List.mem_cons, List.not_mem_nil, or_false] at hy
    rcases hy with rfl | rfl
    · exact ha
    · exact hx)
  match es, h2 with
  | [d, e], _ =>
    obtain ⟨d', hd, hd2⟩ := h3 0 _ rfl
    obtain ⟨e', he, he2⟩ := h3 1 _ rfl
    simp only [List.getElem?_cons_zero, List.getElem?_cons_succ, Option.some.injEq] at hd he
    subst hd he
    refine ⟨d, e, ?_, hd2, he2⟩
    unfold nanInf
    rw [hargs, h1]

/-- The two ways of passing the values and the index. -/
theorem prepared_two (a x : Arr) (m im : Mem) (rest : List PyArg) :
    prepared [.arg (.array a m), .arg (.array x im)] = [.array a m, .array x im] ∧
    prepared (.list [.array a m, .array x im] :: rest) = [.array a m, .array x im] := ⟨rfl, rfl⟩

/-- For floats in the order of the index the NaNs, the infinities and the negative infinities are counted. -/
theorem float_counts_partial {f : FT} {n : Nat} {a x : Arr} {m im : Mem} {bs index : List Nat} {args : List PyArg}
    (hargs : prepared args = [.array a m, .array x im]) (ha : OneDim a n) (hx : OneDim x n) (hf : IsFloats f a m bs) (hi : IsIndex x im index)
    (hs : Sorts (Sort.floatLt f true) bs index) (hn : n < 2 ^ 31) :
    nanInf true (fun _ => true) args =
      .done (bs.countP f.isNan, bs.countP (fun b => f.eq b f.infMag), bs.countP (fun b => f.eq b (2 ^ (f.eb + f.mb) + f.infMag))) := by
  obtain ⟨d, e, h1, h2, h3⟩ := two_entries hargs ha hx
  obtain ⟨U, u1, u2, u3, u4, u5⟩ := index_type hi
  obtain ⟨v1, v2⟩ := describes_ints h3 u4 u2 u3 u5
  have hty : (a.type = 11 ∧ f = FT.f32 ∨ a.type = 12 ∧ f = FT.f64) ∧ a.lay.item = (1 + f.eb + f.mb) / 8 ∧ Bits a.lay.item a m bs := by
    obtain ⟨_, ⟨g1, g2, g3, g4⟩ | ⟨g1, g2, g3, g4⟩⟩ := hf
    · refine ⟨Or.inl ⟨g1, g2⟩, by rw [g3, g2]; rfl, by rw [g3]; exact g4⟩
    · refine ⟨Or.inr ⟨g1, g2⟩, by rw [g3, g2]; rfl, by rw [g3]; exact g4⟩
  obtain ⟨w1, w2⟩ := describes_bits h2 hf.1 hty.2.2
  have hd : dataType a.type = some (.flt f) ∧ a.type ≠ 13 ∧ 0 < f.eb := by
    rcases hty.1 with ⟨g1, g2⟩ | ⟨g1, g2⟩ <;> rw [g1, g2] <;> decide
  rw [h1]
  unfold countTwo
  rw [h3.2.1, u1, h2.2.1]
  simp only
  rw [if_neg hd.2.1, hd.1]
  simp only [count]
  rw [h2.2.2.2.2.1, ← w1, countF_eq (index := index), floats_counted hd.2.2 hs (by omega)]
  · rfl
  · intro i hi
    obtain ⟨r, b, r1, r2, r3⟩ := sorted_at hs hi
    rw [r3]
    have := v2 i r (by rw [List.getElem?_map, r1]; rfl)
    unfold indexAt
    rw [this]
    show (load d.data _ _).map _ = _
    have := w2 r b r2
    rw [hty.2.1] at this
    rw [this]

/-- For integers in the order of the index the invalid ones are counted: the third number for signed types, the second for unsigned ones. -/
theorem int_counts_partial {t : IT} {n : Nat} {a x : Arr} {m im : Mem} {vs : List Int} {index : List Nat} {args : List PyArg}
    (hargs : prepared args = [.array a m, .array x im]) (ha : OneDim a n) (hx : OneDim x n) (ht : IsInts t a m vs) (hi : IsIndex x im index)
    (hs : Sorts (Sort.intLt true) vs index) (hn : n < 2 ^ 31) :
    nanInf true (fun _ => true) args = .done (0, if t.signed then 0 else vs.count t.inv, if t.signed then vs.count t.inv else 0) := by
  obtain ⟨d, e, h1, h2, h3⟩ := two_entries hargs ha hx
  obtain ⟨U, u1, u2, u3, u4, u5⟩ := index_type hi
  obtain ⟨v1, v2⟩ := describes_ints h3 u4 u2 u3 u5
  obtain ⟨t1, t2, t3, t4, t5⟩ := ht
  have hle : a.type ≤ 10 := by
    unfold Call.Spec.whole at t3
    split at t3
    · assumption
    · cases t3
  have hd : dataType a.type = some (.int t) ∧ 0 < t.bits ∧ (t.signed = true ↔ a.type % 2 = 1) := by
    have : a.type = 1 ∨ a.type = 2 ∨ a.type = 3 ∨ a.type = 4 ∨ a.type = 5 ∨ a.type = 6 ∨ a.type = 7 ∨ a.type = 8 ∨ a.type = 9 ∨ a.type = 10 := by omega
    rcases this with h | h | h | h | h | h | h | h | h | h <;> rw [h] at t3 ⊢ <;> simp only [Call.Spec.whole] at t3 <;>
      simp at t3 <;> subst t3 <;> simp [dataType, IT.i8, IT.u8, IT.i16, IT.u16, IT.i32, IT.u32, IT.i64, IT.u64]
  obtain ⟨w1, w2⟩ := describes_ints h2 t1 hd.2.1 t4 t5
  have hget : ∀ i, i < vs.length → ((indexAt U e.data i).bind (value (.int t) d.data)) = (sortedAt vs index i).map id := by
    intro i hi
    obtain ⟨r, b, r1, r2, r3⟩ := sorted_at hs hi
    rw [r3]
    have := v2 i r (by rw [List.getElem?_map, r1]; rfl)
    unfold indexAt
    rw [this]
    exact w2 r b r2
  have hc := ints_counted hs (by omega) (ints_range t5)
  rw [h1]
  unfold countTwo
  rw [h3.2.1, u1, h2.2.1]
  simp only
  rw [if_neg (by omega), hd.1]
  simp only [count]
  rw [h2.2.2.2.2.1, ← w1, if_neg t2, frontLoop_eq vs.length 0 (fun i hi => hget i (by omega)), backLoop_eq vs.length hget]
  unfold countInts at hc
  simp only [id, ← hd.2.2]
  rw [hc]
  rfl

/-- Booleans have no invalid values. -/
theorem bool_counts {n : Nat} {a x : Arr} {m im : Mem} {index : List Nat} {args : List PyArg}
    (hargs : prepared args = [.array a m, .array x im]) (ha : OneDim a n) (hx : OneDim x n) (ht : a.type = 0) (hi : IsIndex x im index) :
    nanInf true (fun _ => true) args = .done (0, 0, 0) := by
  obtain ⟨d, e, h1, h2, h3⟩ := two_entries hargs ha hx
  obtain ⟨U, u1, _⟩ := index_type hi
  rw [h1]
  unfold countTwo
  rw [h3.2.1, u1, h2.2.1, ht]
  rfl

/-! ## `BinsToCutsSorted` -/

theorem doubles_read {a : Arr} {m : Mem} {ds : List Nat} (hp : Plain a) (h : IsDoubles a m ds) :
    ∃ T, dataType a.type = some T ∧ a.type ≠ 13 ∧ ds.length = a.lay.len ∧
      ∀ (r : Nat) v, ds[r]? = some v → (value T m r).map (asDouble T) = some v := by
  rcases h with ⟨_, ⟨_, h, _⟩ | ⟨h1, _, h2, h3⟩⟩ | ⟨bs, ⟨_, ⟨h1, _, h2, h3⟩ | ⟨_, h, _⟩⟩, rfl⟩ | ⟨t, vs, ⟨t1, t2, t3, t4, t5⟩, rfl⟩
  · exact absurd h (by decide)
  · obtain ⟨g1, g2⟩ := plain_bits hp h3
    refine ⟨.flt FT.f64, by rw [h1]; rfl, by omega, g1, fun r v hr => ?_⟩
    have := g2 r v hr
    rw [h2, Int.natCast_mul] at this
    show ((load m ((r : Int) * 8) 8).map _).map _ = _
    rw [show ((8 : Nat) : Int) = 8 from rfl] at this
    rw [this]
    simp [asDouble]
  · obtain ⟨g1, g2⟩ := plain_bits hp h3
    refine ⟨.flt FT.f32, by rw [h1]; rfl, by omega, by simpa using g1, fun r v hr => ?_⟩
    rw [List.getElem?_map] at hr
    cases hb : bs[r]? with
    | none => rw [hb] at hr; cases hr
    | some b =>
      rw [hb] at hr
      simp only [Option.map_some, Option.some.injEq] at hr
      have := g2 r b hb
      rw [h2, Int.natCast_mul] at this
      show ((load m ((r : Int) * 4) 4).map _).map _ = _
      rw [show ((4 : Nat) : Int) = 4 from rfl] at this
      rw [this, ← hr]
      simp [asDouble, show ¬ (FT.f32 = FT.f64) from by decide]
  · exact absurd h (by decide)
  · have hle : a.type ≤ 10 := by
      unfold Call.Spec.whole at t3
      split at t3
      · assumption
      · cases t3
    have hd : dataType a.type = some (.int t) ∧ 0 < t.bits := by
      have : a.type = 1 ∨ a.type = 2 ∨ a.type = 3 ∨ a.type = 4 ∨ a.type = 5 ∨ a.type = 6 ∨ a.type = 7 ∨ a.type = 8 ∨ a.type = 9 ∨ a.type = 10 := by omega
      rcases this with h | h | h | h | h | h | h | h | h | h <;> rw [h] at t3 ⊢ <;> simp only [Call.Spec.whole] at t3 <;>
        simp at t3 <;> subst t3 <;> simp [dataType, IT.i8, IT.u8, IT.i16, IT.u16, IT.i32, IT.u32, IT.i64, IT.u64]
    obtain ⟨g1, g2⟩ := plain_ints hd.2 hp t5
    refine ⟨.int t, hd.1, by omega, by simpa using g1, fun r v hr => ?_⟩
    rw [List.getElem?_map] at hr
    cases hb : vs[r]? with
    | none => rw [hb] at hr; cases hr
    | some b =>
      rw [hb] at hr
      simp only [Option.map_some, Option.some.injEq] at hr
      have := g2 r b hb
      rw [t4, Int.natCast_mul] at this
      show (loadInt t m _).map _ = _
      rw [this, ← hr]
      rfl

/-- The call on arrays in C order, with counts which fit: the function on lists. -/
theorem cuts_lists {a b x : Arr} {m bm im : Mem} {ds edges index : List Nat} {nan inf neg : Nat} (ha : Plain a) (hb : Plain b) (hx : Plain x)
    (hd : IsDoubles a m ds) (he : IsFloats FT.f64 b bm edges) (hi : IsIndex x im index) (hp : index.Perm (List.range ds.length))
    (hc : neg + (nan + inf) ≤ ds.length) (hn : ds.length < 2 ^ 63) :
    cuts true a m b bm x im nan inf neg = .of (binsToCutsSorted ds id index edges (load bm ((edges.length : Int) * 8) 8) nan inf neg) := by
  obtain ⟨T, t1, t2, t3, t4⟩ := doubles_read ha hd
  obtain ⟨U, u1, u2, u3, u4, u5⟩ := index_type hi
  obtain ⟨v1, v2⟩ := plain_ints u2 hx u5
  obtain ⟨_, ⟨_, h, _⟩ | ⟨e1, _, e2, e3⟩⟩ := he
  · exact absurd h (by decide)
  obtain ⟨w1, w2⟩ := plain_bits hb e3
  unfold cuts
  rw [if_neg (by omega), u1]
  simp only
  rw [if_neg t2, t1]
  simp only
  rw [if_neg (by decide), ← t3, ← w1, cutAll_eq (data := ds) (conv := id) (index := index) (past := load bm ((edges.length : Int) * 8) 8)]
  · rw [hp.length_eq, List.length_range]
  · exact fun r hr => List.mem_range.mp (hp.mem_iff.mp hr)
  · intro i r hr
    have := v2 i r (by rw [List.getElem?_map, hr]; rfl)
    rw [u3, Int.natCast_mul] at this
    exact this
  · exact t4
  · intro k hk
    unfold edgeAt
    by_cases h : k = edges.length
    · rw [if_pos h, h]
    · rw [if_neg h, List.getElem?_eq_getElem (by omega)]
      have := w2 k edges[k] (List.getElem?_eq_getElem (by omega))
      rw [e2, Int.natCast_mul] at this
      exact this
  · exact hc
  · exact hn

/-- Values in order between the counted ones, none of them above the last edge: the counted rows get 0, the others the label of their bin. -/
theorem cuts_partial {a b x : Arr} {m bm im : Mem} {ds edges index : List Nat} {nan inf neg : Nat} (ha : Plain a) (hb : Plain b) (hx : Plain x)
    (hd : IsDoubles a m ds) (he : IsFloats FT.f64 b bm edges) (hi : IsIndex x im index) (hp : index.Perm (List.range ds.length))
    (hc : neg + (nan + inf) ≤ ds.length) (hn : ds.length < 2 ^ 63)
    (hvalid : ∀ r ∈ (index.drop neg).take (ds.length - (nan + inf) - neg), FT.f64.isNan (ds.getD r 0) = false)
    (hsort : ((index.drop neg).take (ds.length - (nan + inf) - neg)).Pairwise (fun r s => FT.f64.key (ds.getD r 0) ≤ FT.f64.key (ds.getD s 0)))
    (hed : Edges edges) (hlen : edges.length < 2 ^ 63) (hlen2 : 2 ≤ edges.length) {top : Nat} (htop : edges[edges.length - 1]? = some top)
    (hall : ∀ r ∈ (index.drop neg).take (ds.length - (nan + inf) - neg), FT.f64.key (ds.getD r 0) ≤ FT.f64.key top) :
    ∃ out : List Int, cuts true a m b bm x im nan inf neg = .done (out.map some) ∧ out.length = ds.length ∧
      (∀ r ∈ index.take neg ++ index.drop (ds.length - (nan + inf)), out[r]? = some 0) ∧
      ∀ r ∈ (index.drop neg).take (ds.length - (nan + inf) - neg), ∃ label, out[r]? = some label ∧ IsLabel edges (ds.getD r 0) label := by
  rw [cuts_lists ha hb hx hd he hi hp hc hn]
  rcases cuts_labelled (data := ds) (conv := id) (past := load bm ((edges.length : Int) * 8) 8) (v := fun r => ds.getD r 0) hp hc
    (fun r y hr => by simp [List.getD, hr]) hvalid hsort hed hlen hlen2 htop with ⟨_, ⟨r, h1, h2⟩, _⟩ | ⟨_, out, h1, h2⟩
  · have := hall r h1
    omega
  · exact ⟨out, by rw [h1]; rfl, h2⟩

/-- C148, false of the code: if a value is above the last edge, the edge behind the last one is read. -/
theorem above_edge_undefined {a b x : Arr} {m bm im : Mem} {ds edges index : List Nat} {nan inf neg : Nat} (ha : Plain a) (hb : Plain b) (hx : Plain x)
    (hd : IsDoubles a m ds) (he : IsFloats FT.f64 b bm edges) (hi : IsIndex x im index) (hp : index.Perm (List.range ds.length))
    (hc : neg + (nan + inf) ≤ ds.length) (hn : ds.length < 2 ^ 63)
    (hvalid : ∀ r ∈ (index.drop neg).take (ds.length - (nan + inf) - neg), FT.f64.isNan (ds.getD r 0) = false)
    (hsort : ((index.drop neg).take (ds.length - (nan + inf) - neg)).Pairwise (fun r s => FT.f64.key (ds.getD r 0) ≤ FT.f64.key (ds.getD s 0)))
    (hed : Edges edges) (hlen : edges.length < 2 ^ 63) (hlen2 : 2 ≤ edges.length) {top : Nat} (htop : edges[edges.length - 1]? = some top)
    {r : Nat} (hr : r ∈ (index.drop neg).take (ds.length - (nan + inf) - neg)) (habove : FT.f64.key top < FT.f64.key (ds.getD r 0))
    (hend : bm ((edges.length : Int) * 8) = none) : cuts true a m b bm x im nan inf neg = .undefined := by
  have hpast : load bm ((edges.length : Int) * 8) 8 = none := by
    unfold load
    rw [hend]
    rfl
  rw [cuts_lists ha hb hx hd he hi hp hc hn, hpast]
  rcases cuts_labelled (data := ds) (conv := id) (past := none) (v := fun r => ds.getD r 0) hp hc
    (fun r y hr => by simp [List.getD, hr]) hvalid hsort hed hlen hlen2 htop with ⟨_, _, h⟩ | ⟨h | h, _⟩
  · rw [h]
    rfl
  · exact absurd rfl h
  · have := h r hr
    omega

/-- Both calls on float64: every NaN and every infinity gets 0, every other value the label of its bin. -/
theorem quantile_calls_partial {n : Nat} {a b x : Arr} {m bm im : Mem} {ds edges index : List Nat} {args : List PyArg}
    (hargs : prepared args = [.array a m, .array x im]) (ha : Plain a) (hb : Plain b) (hx : Plain x) (ha1 : OneDim a n) (hx1 : OneDim x n)
    (hd : IsFloats FT.f64 a m ds) (he : IsFloats FT.f64 b bm edges) (hi : IsIndex x im index) (hs : Sorts (Sort.floatLt FT.f64 true) ds index)
    (hn : n < 2 ^ 31) (hed : Edges edges) (hlen : edges.length < 2 ^ 63) (hlen2 : 2 ≤ edges.length) {top : Nat}
    (htop : edges[edges.length - 1]? = some top) (hall : ∀ v ∈ ds, FT.f64.isFinite v = true → FT.f64.key v ≤ FT.f64.key top) :
    ∃ (nan inf neg : Nat) (out : List Int), nanInf true (fun _ => true) args = .done (nan, inf, neg) ∧
      cuts true a m b bm x im nan inf neg = .done (out.map some) ∧ out.length = n ∧
      ∀ (r v : Nat), ds[r]? = some v → ∃ label : Int, out[r]? = some label ∧ (FT.f64.isFinite v = false → label = 0) ∧
        (FT.f64.isFinite v = true → IsLabel edges v label) := by
  have hdn : ds.length = n := by
    obtain ⟨T, _, _, h, _⟩ := doubles_read ha (Or.inl hd)
    rw [h, Binary.Lay.len, ha1.2.1]
    simp [Binary.prod]
  obtain ⟨nan, inf, neg, out, h1, h2, h3, h4⟩ := quantile_cuts_partial (load bm ((edges.length : Int) * 8) 8) hs (by omega) hed hlen hlen2 htop hall
  have hcount := floats_counted (f := FT.f64) (by decide) hs (by omega)
  rw [h1] at hcount
  have hsum : neg + (nan + inf) ≤ ds.length := by
    simp only [Option.some.injEq, Prod.mk.injEq] at hcount
    rw [hcount.1, hcount.2.1, hcount.2.2]
    have e1 : ∀ v, FT.f64.isNan v = true → FT.f64.eq v FT.f64.infMag = false := by
      intro v hv; unfold FT.eq; rw [hv]; simp
    have e2 : ∀ v, (FT.f64.isNan v || FT.f64.eq v FT.f64.infMag) = true → FT.f64.eq v (2 ^ (FT.f64.eb + FT.f64.mb) + FT.f64.infMag) = false := by
      intro v hv
      cases hn : FT.f64.isNan v with
      | true => unfold FT.eq; rw [hn]; simp
      | false =>
        rw [hn, Bool.false_or] at hv
        unfold FT.eq at hv ⊢
        simp only [Bool.and_eq_true, decide_eq_true_eq, Bool.and_eq_false_iff] at hv ⊢
        right
        rw [hv.2]
        decide
    have c1 := countP_or ds e1
    have c2 := countP_or ds e2
    have c3 : ds.countP (fun v => (FT.f64.isNan v || FT.f64.eq v FT.f64.infMag) || FT.f64.eq v (2 ^ (FT.f64.eb + FT.f64.mb) + FT.f64.infMag)) ≤ ds.length :=
      List.countP_le_length
    omega
  refine ⟨nan, inf, neg, out, ?_, ?_, by omega, h4⟩
  · rw [float_counts_partial hargs ha1 hx1 hd hi hs hn]
    simp only [Option.some.injEq] at hcount
    rw [hcount]
  · rw [cuts_lists ha hb hx (Or.inl hd) he hi hs.perm hsum (by omega), h2]
    rfl

end Riptide.Bins.Sorted
