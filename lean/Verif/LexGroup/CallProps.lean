import Verif.LexGroup.Call
import Verif.LexGroup.CallSpec
import Verif.LexGroup.PartProps
import Verif.Quick.CallProps
/-! # Theorems about the call `GroupFromLexSort` (C152) -/
namespace Riptide.LexGroup.Call
open Riptide.Nums Riptide.Pack.Call Riptide.Quick.Call Riptide.LexGroup.Call.Spec Riptide.Quick.Call.Spec

theorem nats_of (l : List Nat) : nats (l.map fun (i : Nat) => (i : Int)) = some l := by
  unfold nats
  induction l with
  | nil => rfl
  | cons x l ih => rw [List.map_cons, List.mapM_cons, if_pos (by omega), ih]; rfl

theorem seen_all (t : IT) (hb : 0 < t.bits) (l : List Int) (h : t.InRange (l.length : Int)) : seen t l = l := by
  unfold seen
  rw [IT.wrap_of_inRange t hb h]
  split
  · rename_i h0; exact (List.length_eq_zero_iff.1 (by omega)).symm
  · rename_i h0
    apply List.take_of_length_le
    omega

/-- The order of bytes plays no part for single bytes. -/
theorem values_rows {a : Arr} {m : Mem} {rs : List (List Nat)} (h : Values a m rs) :
    rs.length = a.lay.len ∧ (∀ r ∈ rs, r.length = a.lay.item ∧ ∀ x ∈ r, x < 256) ∧ rows 1 a.lay.item a.lay.item a.lay.len m = some rs := by
  have hr : Rows 1 a.lay.item { a with swapped := false } m rs := by
    have e : ∀ b : Nat, (bytesOf 1 b).reverse = bytesOf 1 b := fun b => rfl
    have := h.bytes
    unfold Rows HasRow HasBits at this ⊢
    simpa [e] using this
  obtain ⟨h1, h2, h3⟩ := rows_of (a := { a with swapped := false }) ⟨h.dims, h.contig, rfl⟩ hr
  exact ⟨h1, fun r hr' => ⟨h2 r hr', rows_bytes hr r hr'⟩, h3⟩

theorem index_type {a : Arr} {t : IT} {m : Mem} {order : List Nat} (h : Index a t m order) : indexType a.type = some t ∧ 0 < t.bits := by
  rcases h.type with ⟨h1, h2⟩ | ⟨h1 | h1, h2⟩ <;> rw [h1, h2] <;> exact ⟨rfl, by decide⟩

theorem filter_fits {n : Nat} {f : Option Arr} (h : FilterFits n f) : filterBad n f = false := by
  cases f with
  | none => rfl
  | some a =>
    show decide _ = false
    rw [decide_eq_false_iff_not]
    intro hh
    exact hh.2 (h a rfl hh.1)

theorem prepare_none {room : Room} {idx vals : Arr} {im vm : Mem} {ex : Extra} {t : IT} {order : List Nat} {rs : List (List Nat)}
    (hi : Index idx t im order) (hv : Values vals vm rs) (hle : order.length ≤ rs.length) (hc : ex.cuts = none) (hf : FilterFits order.length ex.filter)
    (hm : room.arrays = true) :
    prepare room idx im vals vm ex = .ok ⟨t, order.map fun (i : Nat) => (i : Int), rs, none⟩ := by
  obtain ⟨ht, hb⟩ := index_type hi
  obtain ⟨a1, a2⟩ := items_of hb hi.item hi.plain hi.vals
  obtain ⟨b1, -, b3⟩ := values_rows hv
  rw [List.length_map] at a1
  unfold prepare
  rw [if_neg (by omega), ht]
  simp only [hc, cutsBad, cutItems]
  rw [← a1, filter_fits hf, a1, a2, b3, hm]
  rfl

theorem prepare_some {room : Room} {idx vals ca : Arr} {im vm cm : Mem} {ex : Extra} {t : IT} {order cuts : List Nat} {rs : List (List Nat)}
    (hi : Index idx t im order) (hv : Values vals vm rs) (hle : order.length ≤ rs.length) (hc : ex.cuts = some (ca, cm)) (hcu : Cuts ca cm cuts)
    (hl : cuts.getLast? = some order.length) (hf : FilterFits order.length ex.filter) (hm : room.arrays = true) :
    prepare room idx im vals vm ex = .ok ⟨t, order.map fun (i : Nat) => (i : Int), rs, some (cuts.map fun (c : Nat) => (c : Int))⟩ := by
  obtain ⟨ht, hb⟩ := index_type hi
  obtain ⟨a1, a2⟩ := items_of hb hi.item hi.plain hi.vals
  obtain ⟨b1, -, b3⟩ := values_rows hv
  obtain ⟨c1, c2⟩ := items_of (t := .i64) (by decide) hcu.item hcu.plain hcu.vals
  obtain ⟨-, c3⟩ := plain_ints (t := .i64) (by decide) hcu.plain hcu.vals
  rw [List.length_map] at a1 c1
  have hne : cuts ≠ [] := fun e => by subst e; simp at hl
  have hpos : 0 < cuts.length := List.length_pos_iff.2 hne
  have hlast : item .i64 cm (ca.lay.len - 1) = some ((order.length : Nat) : Int) := by
    have := c3 (ca.lay.len - 1) ((order.length : Nat) : Int) (by
      rw [List.getElem?_map, ← c1, ← List.getLast?_eq_getElem?, hl]; rfl)
    rw [hcu.item] at this
    exact this
  unfold prepare
  rw [if_neg (by omega), ht]
  simp only [hc, cutsBad, cutItems]
  rw [if_pos hcu.type, if_neg (by omega), hlast, ← a1]
  simp only [ne_eq, not_true_eq_false, if_false]
  rw [filter_fits hf, a1, a2, b3, c2, hm]
  rfl

theorem raised_not {b : Option Int} (h : ∀ v, b = some v → IT.i64.InRange v) : raised b = false := by
  cases b with
  | none => rfl
  | some v => show decide _ = false; rw [decide_eq_false_iff_not]; exact fun hh => hh (h v rfl)

theorem baseOf_other {b : Option Int} (h : b ≠ some 0) : baseOf b = 1 := by
  unfold baseOf
  split
  · exact absurd rfl h
  · rfl

theorem isRuns_congr {β : Type} {v w : Nat → β} {order : List Nat} {L : List (List Nat)} (h : IsRuns v order L) (he : ∀ i ∈ order, v i = w i) :
    IsRuns w order L := by
  have hm : ∀ l ∈ L, ∀ i ∈ l, v i = w i := fun l hl i hi => he i (by rw [← h.flat]; exact List.mem_flatten.2 ⟨l, hl, hi⟩)
  refine ⟨h.flat, h.nonempty, ?_, ?_⟩
  · intro l hl i hi j hj; rw [← hm l hl i hi, ← hm l hl j hj]; exact h.same l hl i hi j hj
  · intro k l l' hl hl' i hi j hj
    rw [← hm l (List.mem_of_getElem? hl) i hi, ← hm l' (List.mem_of_getElem? hl') j hj]
    exact h.apart k l l' hl hl' i hi j hj

/-- Without cutoffs the answer is that of the kernel. -/
theorem call_none {room : Room} {idx vals : Arr} {im vm : Mem} {ex : Extra} {t : IT} {order : List Nat} {rs : List (List Nat)}
    (hi : Index idx t im order) (hv : Values vals vm rs) (hle : order.length ≤ rs.length) (hc : ex.cuts = none) (hf : FilterFits order.length ex.filter)
    (hm : room.arrays = true) (r : Outcome) :
    GroupCall room idx im vals vm ex r ↔ r = whole room ex vals.lay.item ⟨t, order.map fun (i : Nat) => (i : Int), rs, none⟩ := by
  have hp := prepare_none hi hv hle hc hf hm
  constructor
  · intro h
    cases h with
    | early r h => rw [hp] at h; cases h
    | direct q h _ => rw [hp] at h; cases h; rfl
    | unordered q l h hc' _ => rw [hp] at h; cases h; cases hc'
    | split q l _ _ _ h hc' _ _ _ => rw [hp] at h; cases h; cases hc'
  · rintro rfl
    exact .direct _ hp rfl

theorem grouped {room : Room} {idx vals : Arr} {im vm : Mem} {ex : Extra} {t : IT} {order : List Nat} {rs : List (List Nat)}
    (hi : Index idx t im order) (hv : Values vals vm rs) (hw : vals.lay.item ≠ 7) (hn : t.InRange (order.length : Int)) (hne : order ≠ [])
    (hb : ∀ i ∈ order, i < rs.length) (hnd : order.Nodup) (hc : ex.cuts = none) (hf : FilterFits order.length ex.filter)
    (h1 : room.arrays = true) (h2 : room.later = true) (hr : ∀ v, ex.base = some v → IT.i64.InRange v) :
    ∃ L out, IsRuns (fun i => rs.getD i []) order L ∧
      (∀ r, GroupCall room idx im vals vm ex r ↔ r = .groups out) ∧
      out.firsts = L.map (fun l => some (l.headD 0)) ∧
      out.counts = (if cslotOf vals.lay.item (baseOf ex.base) = 1 then some 0 :: L.map (fun l => some l.length)
        else L.map (fun l => some l.length) ++ [none]) ∧
      out.keys.length = rs.length ∧
      (∀ (k : Nat) l, L[k]? = some l → ∀ i ∈ l, out.keys[i]? = some (some (k + baseOf ex.base))) ∧
      (∀ i, i < rs.length → i ∉ order → out.keys[i]? = some none) := by
  obtain ⟨b1, b2, -⟩ := values_rows hv
  have get : ∀ i ∈ order, rs.getD i [] ∈ rs := by
    intro i hi
    rw [List.getD_eq_getElem?_getD, List.getElem?_eq_getElem (hb i hi)]
    exact List.getElem_mem _
  have hp : order.Pairwise (fun i j => differ vals.lay.item (rs.getD i []) (rs.getD j []) = false ↔ rs.getD i [] = rs.getD j []) := by
    rw [List.pairwise_iff_getElem]
    intro i j hi hj _
    have g1 := b2 _ (get _ (List.getElem_mem hi))
    have g2 := b2 _ (get _ (List.getElem_mem hj))
    exact differ_exact _ hw _ _ g1.1 g2.1 g1.2 g2.2
  have hlen : order.length ≤ rs.length := by
    have := List.Nodup.length_le_of_subset hnd (l₂ := List.range rs.length) (fun i hi => List.mem_range.2 (hb i hi))
    simpa using this
  have hcs : cslotOf vals.lay.item (baseOf ex.base) ≤ 1 := by
    have : baseOf ex.base ≤ 1 := by unfold baseOf; split <;> omega
    unfold cslotOf; split <;> omega
  obtain ⟨L, out, g1, g2, g3⟩ := group_runs (differ vals.lay.item) rs [] (baseOf ex.base) _ hcs order hne hb hnd hp
  refine ⟨L, out, g1, ?_, g3⟩
  intro r
  rw [call_none hi hv hlen hc hf h1]
  have : whole room ex vals.lay.item ⟨t, order.map fun (i : Nat) => (i : Int), rs, none⟩ = .groups out := by
    unfold whole
    simp only
    rw [seen_all _ (index_type hi).2 _ (by rw [List.length_map]; exact hn), nats_of, Option.bind_some, g2]
    simp only [h2, given, raised_not hr]
    rfl
  rw [this]

/-- **C152.** On plain arrays of any type but those of seven bytes an item, an order of distinct rows and a `base_index` other than 0: the rows are
numbered from 1 on by the runs of items with the same bytes; first rows and counts are those of the runs, behind a 0 for the zero bin. The filter
plays no part. Missing: items of seven bytes (`width_seven_merged`), arrays with strides (`strided_index_wrong`, `strided_values_wrong`) and an order
without rows (`no_rows_count_unset`). -/
theorem groupFromLexSort_partial {room : Room} {idx vals : Arr} {im vm : Mem} {ex : Extra} {t : IT} {order : List Nat} {rs : List (List Nat)}
    (hi : Index idx t im order) (hv : Values vals vm rs) (hw : vals.lay.item ≠ 7) (hn : t.InRange (order.length : Int)) (hne : order ≠ [])
    (hb : ∀ i ∈ order, i < rs.length) (hnd : order.Nodup) (hc : ex.cuts = none) (hf : FilterFits order.length ex.filter)
    (h1 : room.arrays = true) (h2 : room.later = true) (hr : ∀ v, ex.base = some v → v ≠ 0 ∧ IT.i64.InRange v) :
    ∃ L out, IsRuns (fun i => rs.getD i []) order L ∧
      (∀ r, GroupCall room idx im vals vm ex r ↔ r = .groups out) ∧
      out.firsts = L.map (fun l => some (l.headD 0)) ∧
      out.counts = some 0 :: L.map (fun l => some l.length) ∧
      out.keys.length = rs.length ∧
      (∀ (k : Nat) l, L[k]? = some l → ∀ i ∈ l, out.keys[i]? = some (some (k + 1))) ∧
      (∀ i, i < rs.length → i ∉ order → out.keys[i]? = some none) := by
  obtain ⟨L, out, g1, g2, g3, g4, g5⟩ := grouped hi hv hw hn hne hb hnd hc hf h1 h2 (fun v hv => (hr v hv).2)
  have hbo : baseOf ex.base = 1 := baseOf_other fun e => (hr 0 e).1 rfl
  rw [hbo] at g4 g5
  rw [if_pos (by unfold cslotOf; split <;> rfl)] at g4
  exact ⟨L, out, g1, g2, g3, g4, g5⟩

/-- With base 0 the groups are numbered from 0 on. For numbers the counts have no zero bin and a last place which nothing writes to; for items of other
widths the zero bin stays. -/
theorem base_zero {room : Room} {idx vals : Arr} {im vm : Mem} {ex : Extra} {t : IT} {order : List Nat} {rs : List (List Nat)}
    (hi : Index idx t im order) (hv : Values vals vm rs) (hw : vals.lay.item ≠ 7) (hn : t.InRange (order.length : Int)) (hne : order ≠ [])
    (hb : ∀ i ∈ order, i < rs.length) (hnd : order.Nodup) (hc : ex.cuts = none) (hf : FilterFits order.length ex.filter)
    (h1 : room.arrays = true) (h2 : room.later = true) (hr : ex.base = some 0) :
    ∃ L out, IsRuns (fun i => rs.getD i []) order L ∧
      (∀ r, GroupCall room idx im vals vm ex r ↔ r = .groups out) ∧
      out.firsts = L.map (fun l => some (l.headD 0)) ∧
      out.counts = (if NumberWidth vals.lay.item then L.map (fun l => some l.length) ++ [none] else some 0 :: L.map (fun l => some l.length)) ∧
      out.keys.length = rs.length ∧
      (∀ (k : Nat) l, L[k]? = some l → ∀ i ∈ l, out.keys[i]? = some (some k)) ∧
      (∀ i, i < rs.length → i ∉ order → out.keys[i]? = some none) := by
  obtain ⟨L, out, g1, g2, g3, g4, g5⟩ := grouped hi hv hw hn hne hb hnd hc hf h1 h2 (fun v hv => by
    rw [hr] at hv; cases hv; decide)
  have hbo : baseOf ex.base = 0 := by rw [hr]; rfl
  rw [hbo] at g4 g5
  refine ⟨L, out, g1, g2, g3, ?_, g5⟩
  rw [g4]
  unfold cslotOf NumberWidth
  simp only [List.mem_cons, List.not_mem_nil, or_false]
  by_cases hh : vals.lay.item = 1 ∨ vals.lay.item = 2 ∨ vals.lay.item = 4 ∨ vals.lay.item = 8
  · rw [if_pos hh, if_pos hh, if_neg (by decide)]
  · rw [if_neg hh, if_neg hh, if_pos rfl]

/-! ### With cutoffs -/

theorem lo_first (cuts : List Nat) (t : Nat) : lo cuts t = first cuts t := by cases t <;> simp [lo, first]

theorem rising_of {t : IT} {n : Nat} {cuts : List Nat} (hn : t.InRange (n : Int)) (hm : cuts.Pairwise (· ≤ ·)) :
    rising t n (cuts.map fun (c : Nat) => (c : Int)) = some cuts := by
  unfold rising
  rw [if_pos hn, nats_of, Option.bind_some, if_pos hm]

theorem filter_take {cuts : List Nat} (hm : cuts.Pairwise (· ≤ ·)) (p t : Nat) (ht : t < cuts.length) (hp : p < cuts.getD t 0)
    (hlo : first cuts t ≤ p) : cuts.filter (fun c => decide (c ≤ p)) = cuts.take t := by
  have hs : cuts = cuts.take t ++ cuts.drop t := (List.take_append_drop t cuts).symm
  have hget : ∀ i j (hi : i < cuts.length) (hj : j < cuts.length), i ≤ j → cuts[i] ≤ cuts[j] := by
    intro i j hi hj hij
    rcases Nat.eq_or_lt_of_le hij with rfl | hlt
    · exact Nat.le_refl _
    · exact List.pairwise_iff_getElem.1 hm i j hi hj hlt
  have hp' : p < cuts[t] := by simpa [List.getD, ht] using hp
  calc cuts.filter (fun c => decide (c ≤ p))
      = (cuts.take t ++ cuts.drop t).filter (fun c => decide (c ≤ p)) := by rw [← hs]
    _ = (cuts.take t).filter (fun c => decide (c ≤ p)) ++ (cuts.drop t).filter (fun c => decide (c ≤ p)) := List.filter_append ..
    _ = cuts.take t ++ [] := by
        congr 1
        · rw [List.filter_eq_self]
          intro c hc
          obtain ⟨i, hi, rfl⟩ := List.getElem_of_mem hc
          rw [List.length_take] at hi
          rw [decide_eq_true_iff, List.getElem_take]
          cases t with
          | zero => omega
          | succ t =>
            have e : first cuts (t + 1) = cuts[t] := by simp [first, List.getD, show t < cuts.length by omega]
            have := hget i t (by omega) (by omega) (by omega)
            omega
        · rw [List.filter_eq_nil_iff]
          intro c hc
          obtain ⟨i, hi, rfl⟩ := List.getElem_of_mem hc
          rw [List.length_drop] at hi
          rw [decide_eq_true_iff, List.getElem_drop]
          have := hget t (t + i) ht (by omega) (by omega)
          omega
    _ = cuts.take t := List.append_nil _

theorem startOf_first {cuts : List Nat} (hm : cuts.Pairwise (· ≤ ·)) (p t : Nat) (ht : t < cuts.length) (hp : p < cuts.getD t 0)
    (hlo : first cuts t ≤ p) : startOf cuts p = first cuts t := by
  unfold startOf
  rw [filter_take hm p t ht hp hlo]
  cases t with
  | zero => simp [first]
  | succ t =>
    rw [List.getLast?_take, if_neg (by omega)]
    simp [first, List.getD, show t < cuts.length by omega]

/-- With cutoffs the answer is one of those of the kernel. -/
theorem call_some {room : Room} {idx vals ca : Arr} {im vm cm : Mem} {ex : Extra} {t : IT} {order cuts : List Nat} {rs : List (List Nat)}
    (hi : Index idx t im order) (hv : Values vals vm rs) (hle : order.length ≤ rs.length) (hc : ex.cuts = some (ca, cm)) (hcu : Cuts ca cm cuts)
    (hl : cuts.getLast? = some order.length) (hm : cuts.Pairwise (· ≤ ·)) (hn : t.InRange (order.length : Int)) (hf : FilterFits order.length ex.filter)
    (h1 : room.arrays = true) (r : Outcome) :
    GroupCall room idx im vals vm ex r ↔ ∃ o, GroupParts (differ vals.lay.item) (cslotOf vals.lay.item 0) rs order cuts o ∧
      r = partsOut room ex t cuts (order.map fun (i : Nat) => (i : Int)) o := by
  have hp := prepare_some hi hv hle hc hcu hl hf h1
  have hris : rising t (order.map fun (i : Nat) => (i : Int)).length (cuts.map fun (c : Nat) => (c : Int)) = some cuts := by
    rw [List.length_map]; exact rising_of hn hm
  constructor
  · intro h
    cases h with
    | early r h => rw [hp] at h; cases h
    | direct q h hc' => rw [hp] at h; cases h; cases hc'
    | unordered q l h hc' hn' =>
      rw [hp] at h; cases h; cases hc'
      rcases hn' with hn' | hn'
      · rw [nats_of] at hn'; cases hn'
      · rw [hris] at hn'; cases hn'
    | split q l rows cuts' o h hc' hi' hl' hr' =>
      rw [hp] at h; cases h; cases hc'
      rw [nats_of] at hi'; cases hi'
      rw [hris] at hl'; cases hl'
      exact ⟨o, hr', rfl⟩
  · rintro ⟨o, ho, rfl⟩
    exact .split _ _ _ _ o hp rfl (nats_of _) hris ho

/-- **C152, with cutoffs.** For numbers and rising cutoffs each partition is grouped on its own, whatever the threads do; `base_index` and the filter play
no part. The index, which is the caller's array, holds the rows of the whole array afterwards. -/
theorem cutoffs_partial {room : Room} {idx vals ca : Arr} {im vm cm : Mem} {ex : Extra} {t : IT} {order cuts : List Nat} {rs : List (List Nat)}
    (hi : Index idx t im order) (hv : Values vals vm rs) (hw : NumberWidth vals.lay.item) (hle : order.length ≤ rs.length)
    (hc : ex.cuts = some (ca, cm)) (hcu : Cuts ca cm cuts) (hl : cuts.getLast? = some order.length) (hm : cuts.Pairwise (· ≤ ·))
    (hn : t.InRange (order.length : Int)) (hf : FilterFits order.length ex.filter) (h1 : room.arrays = true) (h2 : room.later = true)
    (hr : ∀ v, ex.base = some v → IT.i64.InRange v)
    (hin : ∀ p, p < cuts.length → ∀ i ∈ part cuts order p, i < cuts.getD p 0 - first cuts p)
    (hnd : ∀ p, p < cuts.length → (part cuts order p).Nodup) :
    (∃ r, GroupCall room idx im vals vm ex r) ∧ ∀ r, GroupCall room idx im vals vm ex r →
      ∃ (L : Nat → List (List Nat)) (out : POut) (after : List Int), r = .parts out after ∧
        (∀ p, p < cuts.length → IsRuns (fun i => rs.getD (first cuts p + i) []) (part cuts order p) (L p)) ∧
        out.keys.length = rs.length ∧
        (∀ p, p < cuts.length → ∀ (k : Nat) l, (L p)[k]? = some l → ∀ i ∈ l,
          out.keys[first cuts p + i]? = some (some (((List.range p).map fun u => (L u).length).sum + k + 1))) ∧
        out.firsts = (List.range cuts.length).flatMap (fun p => (L p).map fun l => some (l.headD 0 + first cuts p)) ∧
        out.counts = some 0 :: (List.range cuts.length).flatMap (fun p => (L p).map fun l => some l.length) ∧
        out.uniques = ((List.range cuts.length).map fun p => ((List.range (p + 1)).map fun u => (L u).length).sum) ∧
        after.length = order.length ∧
        (∀ (p k : Nat), p < cuts.length → first cuts p ≤ k → k < cuts.getD p 0 → ∀ x, order[k]? = some x →
          after[k]? = some ((x + first cuts p : Nat) : Int)) := by
  have hcs : cslotOf vals.lay.item 0 = 0 := by
    unfold cslotOf
    unfold NumberWidth at hw
    simp only [List.mem_cons, List.not_mem_nil, or_false] at hw
    rw [if_pos hw]
  obtain ⟨b1, b2, -⟩ := values_rows hv
  have hcall := call_some hi hv hle hc hcu hl hm hn hf h1
  rw [hcs] at hcall
  refine ⟨?_, ?_⟩
  · cases ha : allParts (differ vals.lay.item) 0 rs order cuts with
    | none => exact ⟨_, (hcall _).2 ⟨none, .oob ha, rfl⟩⟩
    | some ws => exact ⟨_, (hcall _).2 ⟨_, .run ws _ _ _ _ ha (List.Perm.refl _) (List.Perm.refl _) (List.Perm.refl _) (List.Perm.refl _), rfl⟩⟩
  · intro r hh
    obtain ⟨o, ho, rfl⟩ := (hcall r).1 hh
    have hd0 : ∀ i, (rs.getD i (List.replicate vals.lay.item 0)).length = vals.lay.item ∧ ∀ x ∈ rs.getD i (List.replicate vals.lay.item 0), x < 256 := by
      intro i
      rw [List.getD_eq_getElem?_getD]
      cases hg : rs[i]? with
      | none => simp only [Option.getD_none, List.length_replicate, true_and]; intro x hx; rw [(List.mem_replicate.1 hx).2]; omega
      | some v => exact b2 v (List.mem_of_getElem? hg)
    have hw7 : vals.lay.item ≠ 7 := by intro e; rw [e] at hw; exact absurd hw (by decide)
    have hcut : ∀ t u, t ≤ u → u < cuts.length → cuts.getD t 0 ≤ cuts.getD u 0 := by
      intro t u h hu
      rw [List.getD_eq_getElem?_getD, List.getD_eq_getElem?_getD, List.getElem?_eq_getElem hu, List.getElem?_eq_getElem (by omega)]
      rcases Nat.eq_or_lt_of_le h with rfl | h
      · exact Nat.le_refl _
      · exact List.pairwise_iff_getElem.mp hm t u (by omega) hu h
    have hend : ∀ p, p < cuts.length → cuts.getD p 0 ≤ order.length := by
      intro p hp
      have := hcut p (cuts.length - 1) (by omega) (by omega)
      rw [List.getLast?_eq_getElem?] at hl
      have e : cuts.getD (cuts.length - 1) 0 = order.length := by rw [List.getD_eq_getElem?_getD, hl]; rfl
      omega
    have hlo : ∀ p, p < cuts.length → first cuts p ≤ cuts.getD p 0 := by
      intro p hp
      cases p with
      | zero => exact Nat.zero_le _
      | succ p => exact hcut p (p + 1) (by omega) hp
    have hpart : ∀ p, (order.drop (lo cuts p)).take (len cuts p) = part cuts order p := by
      intro p; unfold part len; rw [lo_first]
    have hlen : ∀ p, len cuts p = cuts.getD p 0 - first cuts p := by intro p; unfold len; rw [lo_first]
    obtain ⟨L, out, rfl, g1, g2, g3, g4, g5, g6⟩ := group_parts_partial (differ vals.lay.item) rs (List.replicate vals.lay.item 0) order cuts hm hl hle
      (by intro p hp; rw [hpart, hlen]; exact hin p hp) (by intro p hp; rw [hpart]; exact hnd p hp)
      (fun i j => differ_exact _ hw7 _ _ (hd0 i).1 (hd0 j).1 (hd0 i).2 (hd0 j).2) o ho
    simp only [lo_first] at g1 g3 g4
    refine ⟨L, out, indexAfter t cuts (order.map fun (i : Nat) => (i : Int)), ?_, ?_, g2, g3, g4, g5, g6, ?_, ?_⟩
    · unfold partsOut
      simp only [h2, given, raised_not hr]
      rfl
    · intro p hp
      have := g1 p hp
      rw [hlen] at this
      refine isRuns_congr this ?_
      intro i hi'
      have h3 := hin p hp i hi'
      have h4 := hend p hp
      have h5 : first cuts p + i < rs.length := by omega
      simp only [List.getD_eq_getElem?_getD, List.getElem?_eq_getElem h5, Option.getD_some]
    · unfold indexAfter; rw [List.length_mapIdx, List.length_map]
    · intro p k hp hk1 hk2 x hx
      unfold indexAfter
      rw [List.getElem?_mapIdx, List.getElem?_map, hx, Option.map_some, Option.map_some, startOf_first hm k p hp hk2 hk1]
      congr 1
      rw [IT.wrap_of_inRange t (index_type hi).2]
      · omega
      · have hxm : x ∈ part cuts order p := by
          unfold part
          rw [List.mem_iff_getElem?]
          refine ⟨k - first cuts p, ?_⟩
          rw [List.getElem?_take, if_pos (by omega), List.getElem?_drop, show first cuts p + (k - first cuts p) = k by omega, hx]
        have h3 := hin p hp x hxm
        have h4 := hend p hp
        have h5 : ((x : Int) + ((first cuts p : Nat) : Int)) ≤ (order.length : Int) := by omega
        unfold IT.InRange at hn ⊢
        rcases hi.type with ⟨-, e⟩ | ⟨-, e⟩ <;> subst e
        · rw [show IT.i32.lo = -2147483648 from by decide, show IT.i32.hi = 2147483647 from by decide] at *; omega
        · rw [show IT.i64.lo = -9223372036854775808 from by decide, show IT.i64.hi = 9223372036854775807 from by decide] at *; omega

/-! ### What is refused -/

theorem early_only {room : Room} {idx vals : Arr} {im vm : Mem} {ex : Extra} {e : Outcome} (h : prepare room idx im vals vm ex = .error e) (r : Outcome) :
    GroupCall room idx im vals vm ex r ↔ r = e := by
  constructor
  · intro hh
    cases hh with
    | early r h' => rw [h] at h'; cases h'; rfl
    | direct q h' _ => rw [h] at h'; cases h'
    | unordered q l h' _ _ => rw [h] at h'; cases h'
    | split q l _ _ _ h' _ _ _ _ => rw [h] at h'; cases h'
  · rintro rfl; exact .early _ h

/-- More rows than values are refused. -/
theorem longer_refused {room : Room} {idx vals : Arr} {im vm : Mem} {ex : Extra} (h : vals.lay.len < idx.lay.len) (r : Outcome) :
    GroupCall room idx im vals vm ex r ↔ r = .lengths := by
  apply early_only
  unfold prepare; rw [if_pos h]

/-- An index of another type is refused. -/
theorem type_refused {room : Room} {idx vals : Arr} {im vm : Mem} {ex : Extra} (hl : idx.lay.len ≤ vals.lay.len) (h : idx.type ∉ [5, 7, 9]) (r : Outcome) :
    GroupCall room idx im vals vm ex r ↔ r = .typeRefused := by
  apply early_only
  unfold prepare; rw [if_neg (by omega)]
  have : indexType idx.type = none := by
    simp only [List.mem_cons, List.not_mem_nil, or_false, not_or] at h
    unfold indexType
    split <;> simp_all
  rw [this]

theorem indexType_in {n : Nat} (h : n ∈ [5, 7, 9]) : ∃ t, indexType n = some t := by
  simp only [List.mem_cons, List.not_mem_nil, or_false] at h
  rcases h with rfl | rfl | rfl <;> exact ⟨_, rfl⟩

/-- Cutoffs of another type are refused. -/
theorem cutoffs_type_refused {room : Room} {idx vals ca : Arr} {im vm cm : Mem} {ex : Extra} (hl : idx.lay.len ≤ vals.lay.len) (ht : idx.type ∈ [5, 7, 9])
    (hc : ex.cuts = some (ca, cm)) (h : ca.type ≠ 7 ∧ ca.type ≠ 9) (r : Outcome) : GroupCall room idx im vals vm ex r ↔ r = .cutType := by
  apply early_only
  obtain ⟨t, e⟩ := indexType_in ht
  unfold prepare; rw [if_neg (by omega), e]
  simp only [hc, cutsBad]
  rw [if_neg (by omega)]

/-- Cutoffs which do not end with the number of rows are refused. -/
theorem cutoffs_last_refused {room : Room} {idx vals ca : Arr} {im vm cm : Mem} {ex : Extra} {cuts : List Nat} {c : Nat} (hl : idx.lay.len ≤ vals.lay.len)
    (ht : idx.type ∈ [5, 7, 9]) (hc : ex.cuts = some (ca, cm)) (hcu : Cuts ca cm cuts) (h : cuts.getLast? = some c) (hne : c ≠ idx.lay.len) (r : Outcome) :
    GroupCall room idx im vals vm ex r ↔ r = .cutLast := by
  apply early_only
  obtain ⟨t, e⟩ := indexType_in ht
  obtain ⟨c1, c3⟩ := plain_ints (t := .i64) (by decide) hcu.plain hcu.vals
  rw [List.length_map] at c1
  have hpos : 0 < cuts.length := List.length_pos_iff.2 fun e => by subst e; simp at h
  have hlast := c3 (ca.lay.len - 1) (c : Int) (by rw [List.getElem?_map, ← c1, ← List.getLast?_eq_getElem?, h]; rfl)
  rw [hcu.item] at hlast
  unfold prepare; rw [if_neg (by omega), e]
  simp only [hc, cutsBad]
  rw [if_pos hcu.type, if_neg (by omega), show item .i64 cm (ca.lay.len - 1) = some (c : Int) from hlast]
  simp only
  rw [if_pos (by omega)]

/-- A filter of booleans of another length is refused. -/
theorem filter_length_refused {room : Room} {idx vals f : Arr} {im vm : Mem} {ex : Extra} (hl : idx.lay.len ≤ vals.lay.len)
    (ht : idx.type ∈ [5, 7, 9]) (hc : ex.cuts = none) (hf : ex.filter = some f) (hb : f.type = 0) (h : f.lay.len ≠ idx.lay.len) (r : Outcome) :
    GroupCall room idx im vals vm ex r ↔ r = .filterLength := by
  apply early_only
  obtain ⟨t, e⟩ := indexType_in ht
  unfold prepare; rw [if_neg (by omega), e]
  simp only [hc, cutsBad]
  rw [if_pos (by rw [hf]; exact decide_eq_true ⟨hb, h⟩)]

/-- Without memory for the first arrays there is a `MemoryError`. -/
theorem memory_refused {room : Room} {idx vals : Arr} {im vm : Mem} {ex : Extra} (hl : idx.lay.len ≤ vals.lay.len)
    (ht : idx.type ∈ [5, 7, 9]) (hc : ex.cuts = none) (hf : FilterFits idx.lay.len ex.filter) (h : room.arrays = false) (r : Outcome) :
    GroupCall room idx im vals vm ex r ↔ r = .memory := by
  apply early_only
  obtain ⟨t, e⟩ := indexType_in ht
  unfold prepare; rw [if_neg (by omega), e]
  simp only [hc, cutsBad]
  rw [filter_fits hf, h]
  rfl

end Riptide.LexGroup.Call
