import Verif.Keys.Accum
import Verif.Keys.Props
/-! What `CombineAccum1Filter` and `CombineAccum2Filter` answer for arrays (C150). -/
namespace Riptide.Keys
open Riptide.Nums Riptide.Work Riptide.Hash Riptide.Hash.Spec
open Riptide.Pack.Call (items keyType items_of keys_type keys_items keyType_none)
open Riptide.Pack.Call.Spec (Keys)
open Riptide.Keys.Spec

/-- `None` or an array as the last argument. -/
def argOf : Option (Arr × Mem) → FilterArg
  | none => .pyNone
  | some (f, fm) => .array f fm

theorem arg_kept {α : Type} {n : Nat} {filter : Option (Arr × Mem)} {kept : List Bool} (hf : Kept n filter kept) :
    badFilter (α := α) n (argOf filter) = none ∧ badFilter1 (α := α) n (argOf filter) = none ∧ keptOf n (argOf filter) = some kept ∧
    filterBytes n (argOf filter) = some (filter.map fun _ => kept.map fun b => if b then 1 else 0) := by
  cases filter with
  | none => simp only [Kept] at hf; subst hf; exact ⟨rfl, rfl, rfl, rfl⟩
  | some p =>
    obtain ⟨f, fm⟩ := p
    simp only [Kept] at hf
    obtain ⟨hl, hi⟩ := flags_items hf.1
    have e : n = f.lay.len := by omega
    have hb : badFilter (α := α) n (.array f fm) = none := by
      simp only [badFilter]; rw [if_neg (by simpa using e), if_neg (by simpa using hf.1.type)]
    refine ⟨hb, hb, ?_, ?_⟩
    · simp only [argOf, keptOf, keptBytes]
      rw [e, hi, Option.map_some, List.map_map]
      congr 1
      conv => rhs; rw [← List.map_id kept]
      apply List.map_congr_left
      intro b _
      cases b <;> decide
    · simp only [argOf, filterBytes, keptBytes]
      rw [e, hi]
      rfl

theorem kept_length {n : Nat} {filter : Option (Arr × Mem)} {kept : List Bool} (hf : Kept n filter kept) : kept.length = n := by
  cases filter with
  | none => simp only [Kept] at hf; subst hf; simp
  | some p => obtain ⟨f, fm⟩ := p; exact hf.2

theorem keyType_some {a : Arr} {t : IT} {m : Mem} {keys : List Int} (k : Keys a t m keys) : keyType a.type = some t := (keys_type k).2.2.1

/-! ## `CombineAccum2Filter` -/

/-- Two arrays of group numbers within their maxima, of any two signed types, in C order and in the order of bytes of the machine: every kept row gets
the number `second * (max1 + 1) + first`, the others 0, in the narrowest type chosen for the number of pairs, for every schedule. Missing from the full
statement: numbers outside of the maxima, other layouts and pairs from 2^63 on. -/
theorem accum2_partial {a b : Arr} {t1 t2 : IT} {m bm : Mem} {in1 in2 : List Int} {kept : List Bool} (k1 : Keys a t1 m in1) (k2 : Keys b t2 bm in2)
    (hl : in1.length = in2.length) (filter : Option (Arr × Mem)) (hf : Kept in1.length filter kept) (max1 max2 : Int) (hm : 0 ≤ max1 ∧ 0 ≤ max2)
    (hb : (max1 + 1) * (max2 + 1) < 2 ^ 63) (h1 : ∀ x ∈ in1, 0 ≤ x ∧ x ≤ max1) (h2 : ∀ x ∈ in2, 0 ≤ x ∧ x ≤ max2)
    {workers : Nat} {nt : Bool} {par : Option (List Nat)} (h : ChunkSched workers in1.length nt par) :
    ∃ (t : IT) (out : List Int), accum2 true a m b bm max1 max2 (argOf filter) par = .ok (t, out.map some) ∧ out.length = in1.length ∧
      t = (if (max1 + 1) * (max2 + 1) < 120 then .i8 else if (max1 + 1) * (max2 + 1) < 32000 then .i16
        else if (max1 + 1) * (max2 + 1) < 2000000000 then .i32 else .i64) ∧ (∀ x ∈ out, t.InRange x) ∧
      ∀ (i : Nat) x1 x2 q, in1[i]? = some x1 → in2[i]? = some x2 → kept[i]? = some q →
        out[i]? = some (if q then x2 * (max1 + 1) + x1 else 0) := by
  obtain ⟨hl1, hi1⟩ := keys_items k1
  obtain ⟨hl2, hi2⟩ := keys_items k2
  obtain ⟨f1, _, f3, f4⟩ := arg_kept (α := IT × List (Option Int)) hf
  have hkl := kept_length hf
  have e : a.lay.len = b.lay.len := by omega
  obtain ⟨out, g1, g2, g3⟩ := Combine.combine2_exact_partial max1 max2 hm hb in1 in2 hl h1 h2 (filter.map fun _ => kept.map fun b => if b then 1 else 0)
    (by
      intro l hl'
      cases filter with
      | none => cases hl'
      | some p => simp only [Option.map_some] at hl'; injection hl' with hl'; subst hl'; simpa using hkl) h
  have hrow : ∀ (i : Nat) x1 x2 q, in1[i]? = some x1 → in2[i]? = some x2 → kept[i]? = some q →
      out[i]? = some (if q then x2 * (max1 + 1) + x1 else 0) := by
    intro i x1 x2 q e1 e2 e3
    rw [g3 i x1 x2 e1 e2]
    cases filter with
    | none =>
      simp only [Kept] at hf
      subst hf
      have : q = true := by
        rw [List.getElem?_replicate] at e3
        split at e3
        · injection e3 with e3; exact e3.symm
        · cases e3
      subst this
      simp
    | some p =>
      simp only [Option.map_some, Option.bind_some, List.getElem?_map, e3]
      cases q <;> simp
  have hprod : 0 ≤ (max1 + 1) * (max2 + 1) := Int.mul_nonneg (by omega) (by omega)
  have p1 : max1 + 1 ≤ (max1 + 1) * (max2 + 1) := by
    have : (max1 + 1) * 1 ≤ (max1 + 1) * (max2 + 1) := Int.mul_le_mul_of_nonneg_left (by omega) (by omega)
    omega
  have p2 : max2 + 1 ≤ (max1 + 1) * (max2 + 1) := by
    have : 1 * (max2 + 1) ≤ (max1 + 1) * (max2 + 1) := Int.mul_le_mul_of_nonneg_right (by omega) (by omega)
    omega
  refine ⟨Combine.outType ((max1 + 1) * (max2 + 1)), out, ?_, g2, rfl, ?_, hrow⟩
  · unfold accum2
    rw [if_neg (by
        rw [Decidable.not_not]
        exact ⟨Combine.i64_of (by omega) p1 hb, Combine.i64_of (by omega) p2 hb, Combine.i64_of hprod (Int.le_refl _) hb⟩),
      if_neg (by simpa using e), ← hl1, f1]
    simp only
    rw [if_neg (by omega), keyType_some k1, keyType_some k2]
    simp only
    rw [if_neg (by simp), hl1, hi1, e, hi2, ← e, ← hl1, f4]
    simp only
    rw [g1]
    rfl
  · intro x hx
    obtain ⟨i, hi, rfl⟩ := List.getElem_of_mem hx
    have i1 : i < in1.length := by omega
    have i2 : i < in2.length := by omega
    have i3 : i < kept.length := by omega
    have := hrow i _ _ _ (List.getElem?_eq_getElem i1) (List.getElem?_eq_getElem i2) (List.getElem?_eq_getElem i3)
    rw [List.getElem?_eq_getElem hi] at this
    injection this with this
    rw [this]
    refine (Combine.outType_ok hprod hb ?_).2
    have r1 := h1 _ (List.getElem_mem i1)
    have r2 := h2 _ (List.getElem_mem i2)
    obtain ⟨q1, q2, q3⟩ := Combine.pair_lt (m1 := max1 + 1) (m2 := max2 + 1) r1.1 (by omega) r2.1 (by omega)
    split <;> omega

/-- The number tells the pair: two kept rows get the same one exactly if both group numbers agree. -/
theorem accum2_tells_pairs_partial {a b : Arr} {t1 t2 : IT} {m bm : Mem} {in1 in2 : List Int} {kept : List Bool} (k1 : Keys a t1 m in1)
    (k2 : Keys b t2 bm in2) (hl : in1.length = in2.length) (filter : Option (Arr × Mem)) (hf : Kept in1.length filter kept) (max1 max2 : Int)
    (hm : 0 ≤ max1 ∧ 0 ≤ max2) (hb : (max1 + 1) * (max2 + 1) < 2 ^ 63) (h1 : ∀ x ∈ in1, 0 ≤ x ∧ x ≤ max1) (h2 : ∀ x ∈ in2, 0 ≤ x ∧ x ≤ max2)
    {workers : Nat} {nt : Bool} {par : Option (List Nat)} (h : ChunkSched workers in1.length nt par) :
    ∃ (t : IT) (out : List Int), accum2 true a m b bm max1 max2 (argOf filter) par = .ok (t, out.map some) ∧
      ∀ (i j : Nat), kept[i]? = some true → kept[j]? = some true → (out[i]? = out[j]? ↔ in1[i]? = in1[j]? ∧ in2[i]? = in2[j]?) := by
  obtain ⟨t, out, g1, g2, _, _, g3⟩ := accum2_partial k1 k2 hl filter hf max1 max2 hm hb h1 h2 h
  refine ⟨t, out, g1, ?_⟩
  intro i j hi hj
  have hkl := kept_length hf
  have li : i < kept.length := (List.getElem?_eq_some_iff.1 hi).1
  have lj : j < kept.length := (List.getElem?_eq_some_iff.1 hj).1
  have a1 := List.getElem?_eq_getElem (l := in1) (i := i) (by omega)
  have a2 := List.getElem?_eq_getElem (l := in2) (i := i) (by omega)
  have b1 := List.getElem?_eq_getElem (l := in1) (i := j) (by omega)
  have b2 := List.getElem?_eq_getElem (l := in2) (i := j) (by omega)
  have r1 := h1 _ (List.getElem_mem (show i < in1.length by omega))
  have r2 := h2 _ (List.getElem_mem (show i < in2.length by omega))
  have s1 := h1 _ (List.getElem_mem (show j < in1.length by omega))
  have := (Combine.combine2_pairs (max2 := max2) (y2 := in2[j]'(by omega)) r1 r2 s1).1
  rw [g3 i _ _ _ a1 a2 hi, g3 j _ _ _ b1 b2 hj, a1, a2, b1, b2]
  simpa using this

/-- Before the arrays are read: arrays of two lengths, a filter of another length, then one of another type, a filter which is neither an array nor
`None`, one negative maximum, and other types than signed integers are refused, in this order. -/
theorem accum2_refused (room : Bool) (a b : Arr) (m bm : Mem) (max1 max2 : Int) (filter : FilterArg) (par : Option (List Nat))
    (hr : IT.i64.InRange (max1 + 1) ∧ IT.i64.InRange (max2 + 1) ∧ IT.i64.InRange ((max1 + 1) * (max2 + 1))) :
    (a.lay.len ≠ b.lay.len → accum2 room a m b bm max1 max2 filter par = .lengths) ∧
    (a.lay.len = b.lay.len →
      (∀ f fm, filter = .array f fm → f.lay.len ≠ a.lay.len → accum2 room a m b bm max1 max2 filter par = .lengths) ∧
      (∀ f fm, filter = .array f fm → f.lay.len = a.lay.len → f.type ≠ 0 → accum2 room a m b bm max1 max2 filter par = .filterType) ∧
      (filter = .other → accum2 room a m b bm max1 max2 filter par = .filterOther) ∧
      (filter = .pyNone ∨ (∃ f fm, filter = .array f fm ∧ f.lay.len = a.lay.len ∧ f.type = 0) →
        ((max1 + 1) * (max2 + 1) < 0 → accum2 room a m b bm max1 max2 filter par = .tooMany) ∧
        (0 ≤ (max1 + 1) * (max2 + 1) → a.type ∉ [1, 3, 5, 7, 9] ∨ b.type ∉ [1, 3, 5, 7, 9] → accum2 room a m b bm max1 max2 filter par = .typeRefused) ∧
        (0 ≤ (max1 + 1) * (max2 + 1) → a.type ∈ [1, 3, 5, 7, 9] → b.type ∈ [1, 3, 5, 7, 9] → room = false →
          accum2 room a m b bm max1 max2 filter par = .memory))) := by
  have hkt : ∀ x : Nat, x ∈ [1, 3, 5, 7, 9] → ∃ t, keyType x = some t := by
    intro x hx
    simp only [List.mem_cons, List.not_mem_nil, or_false] at hx
    rcases hx with rfl | rfl | rfl | rfl | rfl <;> exact ⟨_, rfl⟩
  refine ⟨fun h => ?_, fun h => ⟨?_, ?_, ?_, fun hf => ?_⟩⟩
  · unfold accum2; rw [if_neg (by simpa using hr), if_pos h]
  · rintro f fm rfl h2
    unfold accum2; rw [if_neg (by simpa using hr), if_neg (by simpa using h)]
    simp only [badFilter]; rw [if_pos (Ne.symm h2)]
  · rintro f fm rfl h2 h3
    unfold accum2; rw [if_neg (by simpa using hr), if_neg (by simpa using h)]
    simp only [badFilter]; rw [if_neg (by simpa using h2.symm), if_pos h3]
  · rintro rfl
    unfold accum2; rw [if_neg (by simpa using hr), if_neg (by simpa using h)]
    rfl
  · have hb : badFilter (α := IT × List (Option Int)) a.lay.len filter = none := by
      rcases hf with rfl | ⟨f, fm, rfl, h2, h3⟩
      · rfl
      · simp only [badFilter]; rw [if_neg (by simpa using h2.symm), if_neg (by simpa using h3)]
    refine ⟨fun h2 => ?_, fun h2 h3 => ?_, fun h2 h3 h4 h5 => ?_⟩
    · unfold accum2; rw [if_neg (by simpa using hr), if_neg (by simpa using h), hb]
      simp only; rw [if_pos h2]
    · unfold accum2; rw [if_neg (by simpa using hr), if_neg (by simpa using h), hb]
      simp only; rw [if_neg (by omega)]
      rcases h3 with h3 | h3
      · rw [keyType_none h3]
      · rw [keyType_none h3]; cases keyType a.type <;> rfl
    · obtain ⟨t1, e1⟩ := hkt _ h3
      obtain ⟨t2, e2⟩ := hkt _ h4
      unfold accum2; rw [if_neg (by simpa using hr), if_neg (by simpa using h), hb]
      simp only; rw [if_neg (by omega), e1, e2]
      simp only; rw [if_pos h5]

/-! ## `CombineAccum1Filter` -/

/-- For up to 2^31 keys of any signed type: the rows which pass the filter and whose number lies between 1 and the maximum are numbered anew from 1 on
by first appearance, the others get 0; the first rows and their number come with them. The shorter array of the first rows is needed only if there are fewer groups than rows; without
memory for it the list is broken. Missing from the full statement: other layouts, lists as filters, and no memory for the table. -/
theorem accum1_partial {a : Arr} {t : IT} {m : Mem} {keys : List Int} {kept : List Bool} (k : Keys a t m keys) (filter : Option (Arr × Mem))
    (hf : Kept keys.length filter kept) (max : Int) (h0 : -1 ≤ max) (h1 : max < 2000000000) (hn : keys.length ≤ 2 ^ 31)
    (room : Room) (hr : room.out = true ∧ room.first = true ∧ (room.table = true ∨ max = -1)) :
    ∃ bins firsts : List Nat, accum1 room a m max (argOf filter) = (if room.shorter = false ∧ firsts.length < keys.length then .broken
        else .ok (bins.map (fun (b : Nat) => (b : Int)), firsts.map (fun (b : Nat) => (b : Int)), firsts.length)) ∧
      Numbering ((keys.zip kept).map fun r => (r.1, r.2 && decide (0 < r.1 ∧ r.1 ≤ max))) bins firsts := by
  obtain ⟨hs, hb, ht, _, _⟩ := keys_type k
  obtain ⟨hl, hi⟩ := keys_items k
  obtain ⟨_, f2, f3, _⟩ := arg_kept (α := List Int × List Int × Nat) hf
  have hkl := kept_length hf
  obtain ⟨bins, firsts, g1, g2⟩ := Combine.combine1_first_appearance t (by have := keys_bits k; omega) (max + 1).toNat (keys.zip kept)
    (fun r hr => ints_range k.vals r.1 (List.of_mem_zip hr).1) (by rw [List.length_zip]; omega)
  refine ⟨bins, firsts, ?_, ?_⟩
  · unfold accum1
    rw [← hl, f2]
    simp only
    rw [if_neg (by
        rw [Decidable.not_not]
        unfold IT.InRange
        rw [show IT.i64.lo = -9223372036854775808 from by decide, show IT.i64.hi = 9223372036854775807 from by decide]
        omega), if_neg (by omega), ht]
    simp only
    rw [if_neg (by simp [hr.1, hr.2.1]), if_neg (by
      rcases hr.2.2 with h | h
      · simp [h]
      · rintro ⟨_, h2⟩; omega), hl, hi, ← hl, f3]
    simp only
    rw [g1]
    simp only [answer1, List.length_map, And.comm]
  · have e : ((keys.zip kept).map fun r => (r.1, r.2 && decide (0 < r.1 ∧ r.1 < (((max + 1).toNat : Nat) : Int)))) =
        (keys.zip kept).map fun r => (r.1, r.2 && decide (0 < r.1 ∧ r.1 ≤ max)) := by
      apply List.map_congr_left
      intro r _
      congr 2
      apply decide_eq_decide.2
      omega
    rw [← e]
    exact g2

/-- A filter of another length, then one of another type, then a negative number of groups or more than 2000000000, other types than signed integers, and
memory which is not granted for the two arrays are refused, in this order. -/
theorem accum1_refused (room : Room) (a : Arr) (m : Mem) (max : Int) (filter : FilterArg) :
    (∀ f fm, filter = .array f fm → f.lay.len ≠ a.lay.len → accum1 room a m max filter = .lengths) ∧
    (∀ f fm, filter = .array f fm → f.lay.len = a.lay.len → f.type ≠ 0 → accum1 room a m max filter = .filterType) ∧
    ((∀ f fm, filter = .array f fm → f.lay.len = a.lay.len ∧ f.type = 0) → IT.i64.InRange (max + 1) →
      ((max < -1 ∨ 2000000000 ≤ max) → accum1 room a m max filter = .tooMany) ∧
      (-1 ≤ max → max < 2000000000 → a.type ∉ [1, 3, 5, 7, 9] → accum1 room a m max filter = .typeRefused) ∧
      (-1 ≤ max → max < 2000000000 → a.type ∈ [1, 3, 5, 7, 9] → room.out = false ∨ room.first = false → accum1 room a m max filter = .memory)) := by
  refine ⟨?_, ?_, fun hf hr => ?_⟩
  · rintro f fm rfl h
    unfold accum1; simp only [badFilter1]; rw [if_pos (Ne.symm h)]
  · rintro f fm rfl h h2
    unfold accum1; simp only [badFilter1]; rw [if_neg (by simpa using h.symm), if_pos h2]
  · have hb : badFilter1 (α := List Int × List Int × Nat) a.lay.len filter = none := by
      cases filter with
      | pyNone => rfl
      | other => rfl
      | array f fm =>
        obtain ⟨h2, h3⟩ := hf f fm rfl
        simp only [badFilter1]; rw [if_neg (by simpa using h2.symm), if_neg (by simpa using h3)]
    refine ⟨fun h => ?_, fun h h2 h3 => ?_, fun h h2 h3 h4 => ?_⟩
    · unfold accum1; rw [hb]; simp only; rw [if_neg (by simpa using hr), if_pos (by omega)]
    · unfold accum1; rw [hb]; simp only; rw [if_neg (by simpa using hr), if_neg (by omega), keyType_none h3]
    · have : ∃ t, keyType a.type = some t := by
        simp only [List.mem_cons, List.not_mem_nil, or_false] at h3
        rcases h3 with h3 | h3 | h3 | h3 | h3 <;> rw [h3] <;> exact ⟨_, rfl⟩
      obtain ⟨t, e⟩ := this
      unfold accum1; rw [hb]; simp only; rw [if_neg (by simpa using hr), if_neg (by omega), e]
      simp only; rw [if_pos h4]

end Riptide.Keys
