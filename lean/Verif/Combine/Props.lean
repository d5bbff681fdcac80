import Verif.Combine.Model
import Verif.Hash.GroupLemmas
/-! # Combining group indices: property theorems (C61, C62, C63, C64) -/
namespace Riptide.Combine
open Riptide.Work Riptide.Hash Riptide.Hash.Spec

/-! ### CombineFilter (C61) -/

theorem wrap_small (t : IT) (h : 1 < t.bits) {x : Int} (hx : x = 0 ∨ x = 1) : t.wrap x = x := by
  apply t.wrap_of_inRange (by omega)
  unfold IT.InRange
  rw [t.hi_eq (by omega)]
  unfold IT.lo
  have p2 : (2 : Int) ^ t.bits = 2 * 2 ^ (t.bits - 1) := by
    have : t.bits = (t.bits - 1) + 1 := by omega
    conv => lhs; rw [this, Int.pow_succ, Int.mul_comm]
  have p3 : (2 : Int) ^ (t.bits - 1) = 2 * 2 ^ (t.bits - 2) := by
    have : t.bits - 1 = (t.bits - 2) + 1 := by omega
    conv => lhs; rw [this, Int.pow_succ, Int.mul_comm]
  have p4 := IT.pow_pos (t.bits - 2)
  split <;> omega

/-- **C61.** For a filter whose bytes are 0 and 1, under every schedule: kept rows keep their group number, the others
get 0. -/
theorem combine_filter_exact (t : IT) (ht : 1 < t.bits) (idx filt : List Int) (hl : idx.length = filt.length)
    (hx : ∀ x ∈ idx, t.InRange x) (hf : ∀ f ∈ filt, f = 0 ∨ f = 1) {workers : Nat} {nt : Bool}
    {par : Option (List Nat)} (h : ChunkSched workers idx.length nt par) :
    ∃ out : List Int, combineFilter t idx filt par = some (out.map some) ∧ out.length = idx.length ∧
      ∀ (i : Nat) x f, idx[i]? = some x → filt[i]? = some f → out[i]? = some (if f = 1 then x else 0) := by
  refine ⟨(List.range idx.length).map fun i => if filt.getD i 0 = 1 then idx.getD i 0 else 0, ?_, by simp, ?_⟩
  · unfold combineFilter
    rw [if_neg (by omega)]
    refine elemWork_exact _ _ ?_ h
    intro i hi
    have hi2 : i < filt.length := by omega
    rw [List.getElem?_eq_getElem hi, List.getElem?_eq_getElem hi2]
    simp only [Option.bind_some, Option.map_some, List.getD_eq_getElem?_getD, List.getElem?_eq_getElem hi,
      List.getElem?_eq_getElem hi2, Option.getD_some]
    congr 1
    have h1 := hf _ (List.getElem_mem hi2)
    have h2 := hx _ (List.getElem_mem hi)
    unfold maskRow
    rw [wrap_small t ht h1]
    rcases h1 with e | e
    · rw [e, Int.mul_zero, wrap_small t ht (.inl rfl), if_neg (by decide)]
    · rw [e, Int.mul_one, t.wrap_of_inRange (by omega) h2, if_pos rfl]
  · intro i x f h1 h2
    have hi : i < idx.length := (List.getElem?_eq_some_iff.1 h1).1
    rw [List.getElem?_map, List.getElem?_range hi]
    simp [List.getD_eq_getElem?_getD, h1, h2]

example : combineFilter .i8 [1, -128, 3] [1, 1, 0] none = some [some 1, some (-128), some 0] := by decide

/-- **C61.** A filter of another length gives no array, whatever the schedule. -/
theorem combine_filter_sizes (t : IT) (idx filt : List Int) (hl : idx.length ≠ filt.length) (par : Option (List Nat)) :
    combineFilter t idx filt par = none := by
  simp [combineFilter, hl]

example : combineFilter .i8 [1, 2, 3] [1, 1] (some []) = none := combine_filter_sizes _ _ _ (by decide) _

/-- A boolean whose byte is neither 0 nor 1 (a view of other data) multiplies the group number. -/
theorem combine_filter_odd_bytes : combineFilter .i8 [1, 2, 100] [2, 3, 3] none = some [some 2, some 6, some 44] := by
  decide

/-! ### CombineAccum2Filter (C62) -/

theorem outType_ok {h : Int} (h0 : 0 ≤ h) (h1 : h < 2 ^ 63) {x : Int} (hx : 0 ≤ x ∧ x ≤ h) :
    0 < (outType h).bits ∧ (outType h).InRange x := by
  unfold outType
  split
  · exact ⟨by decide, by unfold IT.InRange; constructor <;> simp [IT.lo, IT.hi, IT.i8] <;> omega⟩
  · split
    · exact ⟨by decide, by unfold IT.InRange; constructor <;> simp [IT.lo, IT.hi, IT.i16] <;> omega⟩
    · split
      · exact ⟨by decide, by unfold IT.InRange; constructor <;> simp [IT.lo, IT.hi, IT.i32] <;> omega⟩
      · exact ⟨by decide, by unfold IT.InRange; constructor <;> simp [IT.lo, IT.hi, IT.i64] <;> omega⟩

theorem pair_lt {m1 m2 x1 x2 : Int} (h1 : 0 ≤ x1) (h1' : x1 < m1) (h2 : 0 ≤ x2) (h2' : x2 < m2) :
    0 ≤ x2 * m1 ∧ x2 * m1 ≤ x2 * m1 + x1 ∧ x2 * m1 + x1 < m1 * m2 := by
  have a : 0 ≤ x2 * m1 := Int.mul_nonneg h2 (by omega)
  have b : (x2 + 1) * m1 ≤ m2 * m1 := Int.mul_le_mul_of_nonneg_right (by omega) (by omega)
  rw [Int.add_mul, Int.one_mul, Int.mul_comm m2] at b
  omega

theorem i64_of {x h : Int} (h0 : 0 ≤ x) (h1 : x ≤ h) (h2 : h < 2 ^ 63) : IT.i64.InRange x := by
  unfold IT.InRange; constructor <;> simp [IT.lo, IT.hi, IT.i64] <;> omega

/-- **C62.** For group numbers within the stated maxima and a number of pairs below 2^63, under every schedule: a kept row
gets the number `second * (max1 + 1) + first` of its pair, a row filtered out 0, and the output type holds all pairs. -/
theorem combine2_exact_partial (max1 max2 : Int) (hm : 0 ≤ max1 ∧ 0 ≤ max2) (hb : (max1 + 1) * (max2 + 1) < 2 ^ 63)
    (in1 in2 : List Int) (hl : in1.length = in2.length) (h1 : ∀ x ∈ in1, 0 ≤ x ∧ x ≤ max1)
    (h2 : ∀ x ∈ in2, 0 ≤ x ∧ x ≤ max2) (filt : Option (List Int)) (hf : ∀ l, filt = some l → l.length = in1.length)
    {workers : Nat} {nt : Bool} {par : Option (List Nat)} (h : ChunkSched workers in1.length nt par) :
    ∃ out : List Int, combineAccum2 max1 max2 in1 in2 filt par =
        .ok (outType ((max1 + 1) * (max2 + 1))) (out.map some) ∧ out.length = in1.length ∧
      ∀ (i : Nat) x1 x2, in1[i]? = some x1 → in2[i]? = some x2 →
        out[i]? = some (if filt.bind (fun l => l[i]?) = some 0 then 0 else x2 * (max1 + 1) + x1) := by
  generalize hm1 : max1 + 1 = m1 at *
  generalize hm2 : max2 + 1 = m2 at *
  have hpos : 0 ≤ m1 * m2 := Int.mul_nonneg (by omega) (by omega)
  have g1 : m1 ≤ m1 * m2 := by
    have : m1 * 1 ≤ m1 * m2 := Int.mul_le_mul_of_nonneg_left (by omega) (by omega)
    omega
  have g2 : m2 ≤ m1 * m2 := by
    have : 1 * m2 ≤ m1 * m2 := Int.mul_le_mul_of_nonneg_right (by omega) (by omega)
    omega
  refine ⟨(List.range in1.length).map fun i =>
    if filt.bind (fun l => l[i]?) = some 0 then 0 else in2.getD i 0 * m1 + in1.getD i 0, ?_, by simp, ?_⟩
  · unfold combineAccum2
    dsimp only
    rw [hm1, hm2, if_neg (by
        intro c
        exact c ⟨i64_of (by omega) g1 hb, i64_of (by omega) g2 hb, i64_of hpos (Int.le_refl _) hb⟩),
      if_neg (by omega), if_neg (by
        cases filt with
        | none => simp
        | some l => simp [hf l rfl]), if_neg (by omega)]
    rw [elemWork_exact _ (fun i => if filt.bind (fun l => l[i]?) = some 0 then 0
      else in2.getD i 0 * m1 + in1.getD i 0) ?_ h]
    intro i hi
    have hi2 : i < in2.length := by omega
    have a1 := h1 _ (List.getElem_mem hi)
    have a2 := h2 _ (List.getElem_mem hi2)
    simp only [List.getElem?_eq_getElem hi, List.getElem?_eq_getElem hi2, Option.bind_some,
      List.getD_eq_getElem?_getD, Option.getD_some]
    generalize in1[i] = x1 at *
    generalize in2[i] = x2 at *
    obtain ⟨q1, q2, q3⟩ := pair_lt (m1 := m1) (m2 := m2) (x1 := x1) (x2 := x2) a1.1 (by omega) a2.1 (by omega)
    have hbin : bin2 (outType (m1 * m2)) m1 x1 x2 = some (x2 * m1 + x1) := by
      unfold bin2
      rw [if_pos ⟨i64_of q1 (h := m1 * m2) (by omega) hb, i64_of (by omega) (h := m1 * m2) (by omega) hb⟩]
      obtain ⟨w1, w2⟩ := outType_ok hpos hb (x := x2 * m1 + x1) (by omega)
      rw [IT.wrap_of_inRange _ w1 w2]
    have hmx : (outType (m1 * m2)).wrap (m1 * m2) = m1 * m2 := by
      obtain ⟨w1, w2⟩ := outType_ok hpos hb (x := m1 * m2) (by omega)
      exact IT.wrap_of_inRange _ w1 w2
    cases filt with
    | none =>
      show accum2Row (outType (m1 * m2)) m1 (m1 * m2) x1 x2 none = _
      unfold accum2Row
      rw [hbin]; rfl
    | some l =>
      have hi3 : i < l.length := by rw [hf l rfl]; exact hi
      show (l[i]?.map some).bind _ = _
      rw [List.getElem?_eq_getElem hi3]
      show accum2Row (outType (m1 * m2)) m1 (m1 * m2) x1 x2 (some l[i]) = _
      unfold accum2Row
      dsimp only
      simp only [Option.bind_some, List.getElem?_eq_getElem hi3]
      by_cases he : l[i] = 0
      · rw [if_neg (by simp [he]), if_pos (by rw [he])]
      · rw [if_pos he, hbin, hmx, if_neg (by simpa using he)]
        simp only [Option.map_some]
        rw [if_pos (by omega)]
  · intro i x1 x2 e1 e2
    have hi : i < in1.length := (List.getElem?_eq_some_iff.1 e1).1
    rw [List.getElem?_map, List.getElem?_range hi]
    simp [List.getD_eq_getElem?_getD, e1, e2]

/-- **C62.** With a filter every number of the output is that of a pair, also for group numbers outside of the maxima, as long
as the arithmetic of 64 bits does not overflow. -/
theorem combine2_filter_inside (max1 max2 : Int) (hm : 0 ≤ max1 ∧ 0 ≤ max2) (hb : (max1 + 1) * (max2 + 1) < 2 ^ 63)
    (in1 in2 l : List Int) (hl : in1.length = in2.length) (hf : l.length = in1.length)
    (hx : ∀ x1 ∈ in1, ∀ x2 ∈ in2, (-2 ^ 63 ≤ x2 * (max1 + 1) ∧ x2 * (max1 + 1) < 2 ^ 63) ∧
      -2 ^ 63 ≤ x2 * (max1 + 1) + x1 ∧ x2 * (max1 + 1) + x1 < 2 ^ 63)
    {workers : Nat} {nt : Bool} {par : Option (List Nat)} (h : ChunkSched workers in1.length nt par) :
    ∃ (t : IT) (out : List Int), combineAccum2 max1 max2 in1 in2 (some l) par = .ok t (out.map some) ∧
      out.length = in1.length ∧ ∀ v ∈ out, 0 ≤ v ∧ v < (max1 + 1) * (max2 + 1) := by
  generalize hm1 : max1 + 1 = m1 at *
  generalize hm2 : max2 + 1 = m2 at *
  have hpos : 0 < m1 * m2 := Int.mul_pos (by omega) (by omega)
  have g1 : m1 ≤ m1 * m2 := by
    have : m1 * 1 ≤ m1 * m2 := Int.mul_le_mul_of_nonneg_left (by omega) (by omega)
    omega
  have g2 : m2 ≤ m1 * m2 := by
    have : 1 * m2 ≤ m1 * m2 := Int.mul_le_mul_of_nonneg_right (by omega) (by omega)
    omega
  have hmx : (outType (m1 * m2)).wrap (m1 * m2) = m1 * m2 := by
    obtain ⟨w1, w2⟩ := outType_ok (Int.le_of_lt hpos) hb (x := m1 * m2) (by omega)
    exact IT.wrap_of_inRange _ w1 w2
  have row : ∀ i, i < in1.length → ∃ v, (in1[i]?.bind fun x1 => in2[i]?.bind fun x2 => (filtAt (some l) i).bind fun f =>
      accum2Row (outType (m1 * m2)) m1 (m1 * m2) x1 x2 f) = some v ∧ 0 ≤ v ∧ v < m1 * m2 := by
    intro i hi
    have hi2 : i < in2.length := by omega
    have hi3 : i < l.length := by omega
    have hr := hx _ (List.getElem_mem hi) _ (List.getElem_mem hi2)
    simp only [filtAt, List.getElem?_eq_getElem hi, List.getElem?_eq_getElem hi2, List.getElem?_eq_getElem hi3,
      Option.bind_some, Option.map_some, accum2Row]
    by_cases he : l[i] = 0
    · exact ⟨0, by simp [he], by omega, hpos⟩
    · have hi64 : ∀ x : Int, -2 ^ 63 ≤ x → x < 2 ^ 63 → IT.i64.InRange x := by
        intro x a b
        unfold IT.InRange; constructor <;> simp [IT.lo, IT.hi, IT.i64] <;> omega
      rw [if_pos he, bin2, if_pos ⟨hi64 _ hr.1.1 hr.1.2, hi64 _ hr.2.1 hr.2.2⟩, hmx]
      refine ⟨_, rfl, ?_⟩
      dsimp only
      split <;> omega
  refine ⟨outType (m1 * m2), (List.range in1.length).map fun i => (in1[i]?.bind fun x1 => in2[i]?.bind fun x2 =>
    (filtAt (some l) i).bind fun f => accum2Row (outType (m1 * m2)) m1 (m1 * m2) x1 x2 f).getD 0, ?_, by simp, ?_⟩
  · unfold combineAccum2
    dsimp only
    rw [hm1, hm2, if_neg (by
        intro c
        exact c ⟨i64_of (by omega) g1 hb, i64_of (by omega) g2 hb, i64_of (Int.le_of_lt hpos) (Int.le_refl _) hb⟩),
      if_neg (by omega), if_neg (by simp [hf]), if_neg (by omega)]
    rw [elemWork_exact _ (fun i => (in1[i]?.bind fun x1 => in2[i]?.bind fun x2 => (filtAt (some l) i).bind fun f =>
      accum2Row (outType (m1 * m2)) m1 (m1 * m2) x1 x2 f).getD 0) ?_ h]
    intro i hi
    obtain ⟨v, hv, _⟩ := row i hi
    rw [hv]; rfl
  · intro v hv
    obtain ⟨i, hi, rfl⟩ := List.mem_map.1 hv
    obtain ⟨v, hv', hr⟩ := row i (List.mem_range.1 hi)
    rw [hv']; exact hr

example : combineAccum2 2 3 [0, 0, -1] [4, 3, 0] (some [1, 1, 1]) none = .ok .i8 [some 0, some 9, some 0] := by decide

/-- **C62.** Different pairs get different numbers, all below the number of pairs. -/
theorem combine2_pairs {max1 max2 x1 x2 y1 y2 : Int} (hx1 : 0 ≤ x1 ∧ x1 ≤ max1) (hx2 : 0 ≤ x2 ∧ x2 ≤ max2)
    (hy1 : 0 ≤ y1 ∧ y1 ≤ max1) :
    (x2 * (max1 + 1) + x1 = y2 * (max1 + 1) + y1 ↔ x1 = y1 ∧ x2 = y2) ∧
    0 ≤ x2 * (max1 + 1) + x1 ∧ x2 * (max1 + 1) + x1 < (max1 + 1) * (max2 + 1) := by
  obtain ⟨q1, q2, q3⟩ := pair_lt (m1 := max1 + 1) (m2 := max2 + 1) (x1 := x1) (x2 := x2) hx1.1 (by omega) hx2.1 (by omega)
  refine ⟨⟨?_, ?_⟩, by omega, q3⟩
  · intro e
    have d1 := Int.add_mul_ediv_right x1 x2 (c := max1 + 1) (by omega)
    have d2 := Int.add_mul_ediv_right y1 y2 (c := max1 + 1) (by omega)
    rw [Int.ediv_eq_zero_of_lt hx1.1 (by omega)] at d1
    rw [Int.ediv_eq_zero_of_lt hy1.1 (by omega)] at d2
    have e' : x1 + x2 * (max1 + 1) = y1 + y2 * (max1 + 1) := by omega
    rw [e', d2] at d1
    have : x2 = y2 := by omega
    subst this
    exact ⟨by omega, rfl⟩
  · rintro ⟨rfl, rfl⟩; rfl

example : combineAccum2 2 3 [0, 1, 2, 2] [0, 1, 3, 0] (some [1, 1, 1, 0]) none =
    .ok .i8 [some 0, some 4, some 11, some 0] := by decide

/-- Without a filter nothing is checked: an invalid first number takes the number of another pair, and a number past
the output type wraps around. -/
theorem combine2_collides :
    combineAccum2 2 3 [2, -1] [0, 1] none none = .ok .i8 [some 2, some 2] ∧
    combineAccum2 2 3 [-1, 2] [0, 100] none none = .ok .i8 [some (-1), some 46] := by decide

/-- With a filter the pair number is checked, not the two numbers: a first number past its maximum collides, and a
number past the type may wrap into the valid bins. -/
theorem combine2_filter_collides :
    combineAccum2 2 3 [3, 0] [0, 1] (some [1, 1]) none = .ok .i8 [some 3, some 3] ∧
    combineAccum2 2 3 [2, 0] [85, 1] (some [1, 1]) none = .ok .i8 [some 1, some 3] := by decide

/-- Two negative maxima pass the check for a negative size. -/
theorem combine2_negative_maxima : combineAccum2 (-3) (-3) [1] [1] none none = .ok .i8 [some (-1)] := by decide

/-- The number of pairs may overflow. -/
theorem combine2_overflow : combineAccum2 (2 ^ 32) (2 ^ 32) [] [] none none = .ub := by decide

/-! ### CombineAccum1Filter (C63) -/

/-- What the loop has done after the rows `pre`. -/
structure Inv1 (t : IT) (hashLen : Nat) (pre : List (Int × Bool)) (s : S1) (bins firsts : List Nat) : Prop where
  num : Numbering pre bins firsts
  out : s.out = bins.map fun (b : Nat) => (b : Int)
  fst : s.firsts = firsts.map fun (b : Nat) => (b : Int)
  hlen : s.hash.length = hashLen
  /-- the entry of a group number: 0, or the bin of the rows with that number -/
  new : ∀ (k : Nat), k < hashLen → s.hash[k]? = some 0 → ∀ j : Nat, pre[j]? ≠ some ((k : Int), true)
  old : ∀ (k : Nat) h, s.hash[k]? = some h → h ≠ 0 → ∃ (j v : Nat), pre[j]? = some ((k : Int), true) ∧ bins[j]? = some v ∧ h = v
  /-- kept rows are within the table and the type -/
  kept : ∀ (j : Nat) x, pre[j]? = some (x, true) → 0 < x ∧ x < hashLen ∧ x ≤ t.hi

theorem inv1_firsts_le {t : IT} {hashLen : Nat} {pre : List (Int × Bool)} {s : S1} {bins firsts : List Nat}
    (I : Inv1 t hashLen pre s bins firsts) : (firsts.length : Int) ≤ t.hi ∨ firsts = [] := by
  cases hfe : firsts with
  | nil => exact .inr rfl
  | cons f0 fs0 =>
    left
    rw [← hfe]
    have hget : ∀ f ∈ firsts, ∃ x, pre[f]? = some (x, true) := by
      intro f hf
      obtain ⟨g, hg, e⟩ := List.getElem_of_mem hf
      have hb := (I.num.first g f (by rw [List.getElem?_eq_getElem hg, e])).1
      have hlt : f < pre.length := by
        rw [← I.num.length]; exact (List.getElem?_eq_some_iff.1 hb).1
      rcases hp : pre[f] with ⟨x, k⟩
      have hpe : pre[f]? = some (x, k) := by rw [List.getElem?_eq_getElem hlt, hp]
      cases k with
      | true => exact ⟨x, hpe⟩
      | false => rw [I.num.filtered f x hpe] at hb; cases hb
    have hnd : (firsts.map fun f => (pre[f]?.map Prod.fst).getD 0).Nodup := by
      unfold List.Nodup
      rw [List.pairwise_map, List.pairwise_iff_getElem]
      intro i j hi hj hij e
      obtain ⟨x, hx⟩ := hget _ (List.getElem_mem hi)
      obtain ⟨y, hy⟩ := hget _ (List.getElem_mem hj)
      rw [hx, hy] at e
      simp only [Option.map_some, Option.getD_some] at e
      have h1 := (I.num.same _ _ x y hx hy).2 e
      rw [(I.num.first i _ (List.getElem?_eq_getElem hi)).1, (I.num.first j _ (List.getElem?_eq_getElem hj)).1] at h1
      injection h1 with h1
      omega
    have hle := List.Nodup.length_le_of_subset hnd (l₂ := (List.range t.hi.toNat).map fun (n : Nat) => (n : Int) + 1) (by
      intro x hx
      obtain ⟨f, hf, rfl⟩ := List.mem_map.1 hx
      obtain ⟨x, hx⟩ := hget f hf
      rw [hx]
      obtain ⟨k1, k2, k3⟩ := I.kept f x hx
      refine List.mem_map.2 ⟨(x - 1).toNat, List.mem_range.2 (by omega), ?_⟩
      show _ = x
      omega)
    have : 0 < t.hi := by
      obtain ⟨x, hx⟩ := hget f0 (by rw [hfe]; exact List.mem_cons_self ..)
      obtain ⟨k1, k2, k3⟩ := I.kept f0 x hx
      omega
    rw [List.length_map, List.length_map, List.length_range] at hle
    omega

/-- Which rows count for a new group. -/
def keptRow (hashLen : Nat) (r : Int × Bool) : Int × Bool := (r.1, r.2 && decide (0 < r.1 ∧ r.1 < (hashLen : Int)))

theorem wrap_nat (t : IT) (ht : 0 < t.bits) {x : Int} (h0 : 0 ≤ x) (h1 : x ≤ t.hi) : t.wrap x = x := by
  apply t.wrap_of_inRange ht
  refine ⟨?_, h1⟩
  unfold IT.lo
  have := IT.pow_pos (t.bits - 1)
  split <;> omega

theorem loop1_numbering (t : IT) (ht : 0 < t.bits) (n hashLen : Nat) (hn : n ≤ 2 ^ 31) :
    ∀ (rows pre : List (Int × Bool)) (s : S1) (bins firsts : List Nat),
      (∀ r ∈ rows, t.InRange r.1) → pre.length + rows.length = n → Inv1 t hashLen pre s bins firsts →
      ∃ s' bins' firsts', loop1 t n hashLen rows pre.length s = some s' ∧
        Inv1 t hashLen (pre ++ rows.map (keptRow hashLen)) s' bins' firsts'
  | [], pre, s, bins, firsts, _, _, I => ⟨s, bins, firsts, rfl, by simpa using I⟩
  | (x, kp) :: rows, pre, s, bins, firsts, hr, hl, I => by
    have hx := hr _ (List.mem_cons_self ..)
    have hr' := fun r h => hr r (List.mem_cons_of_mem _ h)
    have hblen := I.num.length
    have hf1 : firsts.length ≤ pre.length := by
      rw [← hblen]
      have hs : firsts.Nodup := I.num.order.imp (fun h => Nat.ne_of_lt h)
      have := List.Nodup.length_le_of_subset hs (l₂ := List.range bins.length) (by
        intro f hf
        obtain ⟨g, hg, e⟩ := List.getElem_of_mem hf
        have hb := (I.num.first g f (by rw [List.getElem?_eq_getElem hg, e])).1
        exact List.mem_range.2 (List.getElem?_eq_some_iff.1 hb).1)
      simpa using this
    have next : ∀ (s1 : S1) (b1 f1 : List Nat) (r : Int × Bool), keptRow hashLen (x, kp) = r →
        step1 t n hashLen s pre.length x kp = some s1 → Inv1 t hashLen (pre ++ [r]) s1 b1 f1 →
        ∃ s' bins' firsts', loop1 t n hashLen ((x, kp) :: rows) pre.length s = some s' ∧
          Inv1 t hashLen (pre ++ ((x, kp) :: rows).map (keptRow hashLen)) s' bins' firsts' := by
      intro s1 b1 f1 r hk hs hI
      obtain ⟨s', b', f', h1, h2⟩ := loop1_numbering t ht n hashLen hn rows (pre ++ [r]) s1 b1 f1 hr'
        (by simp at hl ⊢; omega) hI
      refine ⟨s', b', f', ?_, ?_⟩
      · show (step1 t n hashLen s pre.length x kp).bind _ = _
        rw [hs]
        rw [List.length_append] at h1
        exact h1
      · rw [List.map_cons, hk]
        simpa using h2
    -- rows that go to bin 0
    have zero : step1 t n hashLen s pre.length x kp = some { s with out := s.out ++ [0] } →
        keptRow hashLen (x, kp) = (x, false) →
        ∃ s' bins' firsts', loop1 t n hashLen ((x, kp) :: rows) pre.length s = some s' ∧
          Inv1 t hashLen (pre ++ ((x, kp) :: rows).map (keptRow hashLen)) s' bins' firsts' := by
      intro h1 h2
      refine next _ (bins ++ [0]) firsts (x, false) h2 h1 ?_
      refine ⟨numbering_filtered I.num x, by simp [I.out], I.fst, I.hlen, ?_, ?_, ?_⟩
      · intro k hk h0 j hj
        rcases get_snoc hj with ⟨-, h⟩ | ⟨-, h⟩
        · exact I.new k hk h0 j h
        · cases h
      · intro k h hk h0
        obtain ⟨j, v, a, b, c⟩ := I.old k h hk h0
        refine ⟨j, v, ?_, ?_, c⟩
        · rw [get_snoc_lt (List.getElem?_eq_some_iff.1 a).1]; exact a
        · rw [get_snoc_lt (List.getElem?_eq_some_iff.1 b).1]; exact b
      · intro j y hj
        rcases get_snoc hj with ⟨-, h⟩ | ⟨-, h⟩
        · exact I.kept j y h
        · cases h
    by_cases hk : kp = true
    case neg =>
      have hk : kp = false := by simpa using hk
      subst hk
      exact zero rfl rfl
    subst hk
    by_cases hrg : x > 0 ∧ x < (hashLen : Int)
    case neg =>
      refine zero ?_ ?_
      · unfold step1; rw [if_pos rfl, if_neg hrg]
      · unfold keptRow; simp; omega
    have hkr : keptRow hashLen (x, true) = (x, true) := by
      unfold keptRow; simp; omega
    have hxl : x.toNat < s.hash.length := by rw [I.hlen]; omega
    have hxk : ((x.toNat : Nat) : Int) = x := by omega
    have hkept : ∀ (j : Nat) y, (pre ++ [(x, true)])[j]? = some (y, true) → 0 < y ∧ y < hashLen ∧ y ≤ t.hi := by
      intro j y hj
      rcases get_snoc hj with ⟨-, h⟩ | ⟨-, h⟩
      · exact I.kept j y h
      · injection h with h
        have : x = y := h.symm ▸ rfl
        subst this
        exact ⟨hrg.1, hrg.2, hx.2⟩
    by_cases h0 : s.hash[x.toNat] = 0
    · -- a new group
      have h0' : s.hash[x.toNat]? = some 0 := by rw [List.getElem?_eq_getElem hxl, h0]
      have hnew := I.new _ (by rw [← I.hlen]; exact hxl) h0'
      rw [hxk] at hnew
      have hsl : s.firsts.length = firsts.length := by rw [I.fst, List.length_map]
      have N' := numbering_new I.num x hnew
      have hs1 : step1 t n hashLen s pre.length x true = some ⟨s.hash.set x.toNat (s.firsts.length + 1),
          s.firsts ++ [IT.i32.wrap pre.length], s.out ++ [t.wrap (s.firsts.length + 1)]⟩ := by
        unfold step1
        rw [if_pos rfl, if_pos hrg, h0', Option.bind_some, if_pos rfl, if_pos (by rw [hsl]; simp at hl; omega)]
      -- the type holds one more group
      have hfit : (firsts.length : Int) + 1 ≤ t.hi := by
        have I' : Inv1 t hashLen (pre ++ [(x, true)]) ⟨(s.hash.set x.toNat (s.firsts.length + 1)), (firsts ++ [bins.length]).map fun (b : Nat) => (b : Int),
            (bins ++ [firsts.length + 1]).map fun (b : Nat) => (b : Int)⟩ (bins ++ [firsts.length + 1]) (firsts ++ [bins.length]) := by
          refine ⟨N', rfl, rfl, by simp [I.hlen], ?_, ?_, hkept⟩
          · intro k hk hz j hj
            by_cases hkx : k = x.toNat
            · subst hkx
              rw [List.getElem?_set_self hxl] at hz
              injection hz with hz; omega
            · rw [List.getElem?_set_ne (fun e => hkx e.symm)] at hz
              rcases get_snoc hj with ⟨-, h⟩ | ⟨-, h⟩
              · exact I.new k hk hz j h
              · injection h with h; omega
          · intro k h hk hz
            by_cases hkx : k = x.toNat
            · subst hkx
              rw [List.getElem?_set_self hxl] at hk
              injection hk with hk
              refine ⟨pre.length, firsts.length + 1, ?_, ?_, ?_⟩
              · rw [hxk]; exact get_snoc_eq _ _
              · rw [← hblen]; exact get_snoc_eq _ _
              · rw [← hk, hsl]; rfl
            · rw [List.getElem?_set_ne (fun e => hkx e.symm)] at hk
              obtain ⟨j, v, a, b, c⟩ := I.old k h hk hz
              refine ⟨j, v, ?_, ?_, c⟩
              · rw [get_snoc_lt (List.getElem?_eq_some_iff.1 a).1]; exact a
              · rw [get_snoc_lt (List.getElem?_eq_some_iff.1 b).1]; exact b
        rcases inv1_firsts_le I' with h | h
        · rw [List.length_append] at h
          simpa using h
        · simp at h
      have hw1 : t.wrap (s.firsts.length + 1) = ((firsts.length + 1 : Nat) : Int) := by
        rw [hsl, wrap_nat t ht (by omega) hfit]; rfl
      have hw2 : IT.i32.wrap pre.length = (bins.length : Int) := by
        rw [hblen]
        apply IT.i32.wrap_of_inRange (by decide)
        simp at hl
        unfold IT.InRange
        constructor <;> simp [IT.lo, IT.hi, IT.i32] <;> omega
      refine next _ (bins ++ [firsts.length + 1]) (firsts ++ [bins.length]) (x, true) hkr hs1 ?_
      refine ⟨N', ?_, ?_, by simp [I.hlen], ?_, ?_, hkept⟩
      · show s.out ++ [_] = _
        rw [hw1, I.out, List.map_append]; rfl
      · show s.firsts ++ [_] = _
        rw [hw2, I.fst, List.map_append]; rfl
      · intro k hk hz j hj
        by_cases hkx : k = x.toNat
        · subst hkx
          rw [List.getElem?_set_self hxl] at hz
          injection hz with hz; omega
        · rw [List.getElem?_set_ne (fun e => hkx e.symm)] at hz
          rcases get_snoc hj with ⟨-, h⟩ | ⟨-, h⟩
          · exact I.new k hk hz j h
          · injection h with h; omega
      · intro k h hk hz
        by_cases hkx : k = x.toNat
        · subst hkx
          rw [List.getElem?_set_self hxl] at hk
          injection hk with hk
          refine ⟨pre.length, firsts.length + 1, ?_, ?_, ?_⟩
          · rw [hxk]; exact get_snoc_eq _ _
          · rw [← hblen]; exact get_snoc_eq _ _
          · rw [← hk, hsl]; rfl
        · rw [List.getElem?_set_ne (fun e => hkx e.symm)] at hk
          obtain ⟨j, v, a, b, c⟩ := I.old k h hk hz
          refine ⟨j, v, ?_, ?_, c⟩
          · rw [get_snoc_lt (List.getElem?_eq_some_iff.1 a).1]; exact a
          · rw [get_snoc_lt (List.getElem?_eq_some_iff.1 b).1]; exact b
    · -- a known group
      obtain ⟨j0, v, hj0, hv, hve⟩ := I.old x.toNat _ (List.getElem?_eq_getElem hxl) h0
      rw [hxk] at hj0
      have N' := numbering_old I.num x j0 v hj0 hv
      have hvle : (v : Int) ≤ t.hi := by
        obtain ⟨g, hg, hgl⟩ := I.num.range j0 x hj0
        rw [hv] at hg
        injection hg with hg
        rcases inv1_firsts_le I with h | h
        · omega
        · rw [h] at hgl; simp at hgl
      refine next { s with out := s.out ++ [t.wrap s.hash[x.toNat]] } (bins ++ [v]) firsts (x, true) hkr ?_ ?_
      · unfold step1
        rw [if_pos rfl, if_pos hrg, List.getElem?_eq_getElem hxl, Option.bind_some, if_neg h0]
      refine ⟨N', ?_, I.fst, I.hlen, ?_, ?_, hkept⟩
      · show s.out ++ [_] = _
        rw [hve, wrap_nat t ht (by omega) hvle, I.out, List.map_append]; rfl
      · intro k hk hz j hj
        rcases get_snoc hj with ⟨-, h⟩ | ⟨-, h⟩
        · exact I.new k hk hz j h
        · injection h with h
          have : k = x.toNat := by omega
          subst this
          rw [List.getElem?_eq_getElem hxl] at hz
          injection hz with hz
          exact h0 hz
      · intro k h hk hz
        obtain ⟨j, v, a, b, c⟩ := I.old k h hk hz
        refine ⟨j, v, ?_, ?_, c⟩
        · rw [get_snoc_lt (List.getElem?_eq_some_iff.1 a).1]; exact a
        · rw [get_snoc_lt (List.getElem?_eq_some_iff.1 b).1]; exact b

/-- **C63.** For up to 2^31 rows of any index type: the rows which pass the filter and whose group number is between 1 and
the maximum are renumbered from 1 by first appearance, the others get 0; the first rows are returned. In particular
the new numbers fit the index type. -/
theorem combine1_first_appearance (t : IT) (ht : 0 < t.bits) (hashLen : Nat) (rows : List (Int × Bool))
    (hr : ∀ r ∈ rows, t.InRange r.1) (hn : rows.length ≤ 2 ^ 31) :
    ∃ bins firsts : List Nat, combineAccum1 t hashLen rows =
        some (bins.map (fun (b : Nat) => (b : Int)), firsts.map (fun (b : Nat) => (b : Int))) ∧
      Numbering (rows.map fun r => (r.1, r.2 && decide (0 < r.1 ∧ r.1 < (hashLen : Int)))) bins firsts := by
  obtain ⟨s, b, f, h1, I⟩ := loop1_numbering t ht rows.length hashLen hn rows [] ⟨List.replicate hashLen 0, [], []⟩ [] []
    hr (by simp) ⟨numbering_nil, rfl, rfl, by simp, by simp, by
      intro k h hk h0
      rw [List.getElem?_replicate] at hk
      split at hk
      · injection hk with hk
        exact absurd hk.symm h0
      · exact absurd hk (by simp), by simp⟩
  refine ⟨b, f, ?_, by have := I.num; rw [List.nil_append] at this; exact this⟩
  unfold combineAccum1
  rw [List.length_nil] at h1
  rw [h1, ← I.out, ← I.fst]; rfl

/-- The table in the comment of the code, `src/Convert.cpp:2046-2052`. -/
example : combineAccum1 .i8 4 [(1, true), (1, false), (2, false), (3, false), (3, true), (3, true)] =
    some ([1, 0, 0, 0, 2, 2], [0, 4]) := by decide

/-- Negative and too large group numbers go to the zero bin. -/
example : combineAccum1 .i8 4 [(-128, true), (4, true), (3, true), (0, true), (1, true), (3, true)] =
    some ([0, 0, 1, 0, 2, 1], [2, 4]) := by decide

/-- One row at position 2^31 shows that the first rows do not fit `int32_t` beyond. -/
theorem combine1_first_truncated : (step1 .i64 (2 ^ 31 + 1) 2 ⟨[0, 0], [], []⟩ (2 ^ 31) 1 true).map S1.firsts =
    some [-(2 ^ 31)] := by decide

/-! ### MakeiFirst (C64) -/

/-- What the buffer holds after the rows `pre`. -/
def InvF (last : Bool) (hashLen : Nat) (pre : List (Int × Bool)) (buf : List Int) : Prop :=
  buf.length = hashLen ∧ ∀ (k : Nat) v, buf[k]? = some v →
    (v = invalid ∧ ∀ j : Nat, pre[j]? = some ((k : Int), true) → k = 0) ∨
    (0 < k ∧ ∃ j : Nat, v = (j : Int) ∧
      if last then LastAt pre ((k : Int), true) j else FirstIs pre ((k : Int), true) j)

theorem invF_other {last : Bool} {hashLen : Nat} {pre : List (Int × Bool)} {buf : List Int}
    (I : InvF last hashLen pre buf) (r : Int × Bool)
    (h : ∀ (k : Nat), k < hashLen → 0 < k → r ≠ ((k : Int), true)) : InvF last hashLen (pre ++ [r]) buf := by
  refine ⟨I.1, fun k v hv => ?_⟩
  have hk : k < hashLen := by rw [← I.1]; exact (List.getElem?_eq_some_iff.1 hv).1
  rcases I.2 k v hv with ⟨h1, h2⟩ | ⟨h0, j, h1, h2⟩
  · refine .inl ⟨h1, fun j hj => ?_⟩
    rcases get_snoc hj with ⟨-, h'⟩ | ⟨-, h'⟩
    · exact h2 j h'
    · rcases Nat.eq_zero_or_pos k with h0 | h0
      · exact h0
      · exact absurd h' (h k hk h0)
  · refine .inr ⟨h0, j, h1, ?_⟩
    cases last with
    | true =>
      obtain ⟨a, b⟩ := h2
      refine ⟨by rw [get_snoc_lt (List.getElem?_eq_some_iff.1 a).1]; exact a, fun i hi e => ?_⟩
      rcases get_snoc e with ⟨-, h'⟩ | ⟨-, h'⟩
      · exact b i hi h'
      · exact h k hk h0 h'
    | false =>
      obtain ⟨a, b⟩ := h2
      have hj := (List.getElem?_eq_some_iff.1 a).1
      refine ⟨by rw [get_snoc_lt hj]; exact a, fun i hi e => ?_⟩
      rw [get_snoc_lt (by omega)] at e
      exact b i hi e

theorem loopF_inv (last : Bool) (hashLen : Nat) : ∀ (rows pre : List (Int × Bool)) (buf : List Int),
    InvF last hashLen pre buf → ∃ out, loopF last hashLen rows pre.length buf = some out ∧
      InvF last hashLen (pre ++ rows) out
  | [], pre, buf, I => ⟨buf, rfl, by simpa using I⟩
  | (x, kp) :: rows, pre, buf, I => by
    have next : ∀ b1, stepF last hashLen buf pre.length x kp = some b1 → InvF last hashLen (pre ++ [(x, kp)]) b1 →
        ∃ out, loopF last hashLen ((x, kp) :: rows) pre.length buf = some out ∧
          InvF last hashLen (pre ++ (x, kp) :: rows) out := by
      intro b1 h1 h2
      obtain ⟨out, h3, h4⟩ := loopF_inv last hashLen rows _ _ h2
      refine ⟨out, ?_, by simpa using h4⟩
      show (stepF last hashLen buf pre.length x kp).bind _ = _
      rw [h1]
      rw [List.length_append] at h3
      exact h3
    by_cases hk : kp = true
    case neg =>
      have hk : kp = false := by simpa using hk
      subst hk
      exact next buf rfl (invF_other I _ (fun k _ _ e => by cases e))
    subst hk
    by_cases hrg : x > 0 ∧ x < (hashLen : Int)
    case neg =>
      refine next buf (by unfold stepF; rw [if_pos rfl, if_neg hrg]) (invF_other I _ ?_)
      intro k h1 h2 e
      injection e with e
      omega
    have hxl : x.toNat < buf.length := by rw [I.1]; omega
    have hxk : ((x.toNat : Nat) : Int) = x := by omega
    have hst : stepF last hashLen buf pre.length x true = some (if last then buf.set x.toNat pre.length
        else if buf[x.toNat] = invalid then buf.set x.toNat pre.length else buf) := by
      unfold stepF
      rw [if_pos rfl, if_pos hrg, List.getElem?_eq_getElem hxl]; rfl
    -- entries of the other bins
    have other : ∀ (b1 : List Int), b1.length = buf.length → (∀ k : Nat, k ≠ x.toNat → b1[k]? = buf[k]?) →
        (∀ v, b1[x.toNat]? = some v → ∃ j : Nat, v = (j : Int) ∧
          if last then LastAt (pre ++ [(x, true)]) (x, true) j else FirstIs (pre ++ [(x, true)]) (x, true) j) →
        InvF last hashLen (pre ++ [(x, true)]) b1 := by
      intro b1 hl hne hx
      refine ⟨hl.trans I.1, fun k v hv => ?_⟩
      by_cases hkx : k = x.toNat
      · subst hkx
        rw [hxk]
        exact .inr ⟨by omega, hx v hv⟩
      · rw [hne k hkx] at hv
        have hkl : k < hashLen := by rw [← I.1]; exact (List.getElem?_eq_some_iff.1 hv).1
        rcases I.2 k v hv with ⟨h1, h2⟩ | ⟨h0, j, h1, h2⟩
        · refine .inl ⟨h1, fun j hj => ?_⟩
          rcases get_snoc hj with ⟨-, h'⟩ | ⟨-, h'⟩
          · exact h2 j h'
          · injection h' with h'; omega
        · refine .inr ⟨h0, j, h1, ?_⟩
          cases last with
          | true =>
            obtain ⟨a, b⟩ := h2
            refine ⟨by rw [get_snoc_lt (List.getElem?_eq_some_iff.1 a).1]; exact a, fun i hi e => ?_⟩
            rcases get_snoc e with ⟨-, h'⟩ | ⟨-, h'⟩
            · exact b i hi h'
            · injection h' with h'; omega
          | false =>
            obtain ⟨a, b⟩ := h2
            have hj := (List.getElem?_eq_some_iff.1 a).1
            refine ⟨by rw [get_snoc_lt hj]; exact a, fun i hi e => ?_⟩
            rw [get_snoc_lt (by omega)] at e
            exact b i hi e
    refine next _ hst ?_
    cases last with
    | true =>
      refine other _ (by simp) (fun k hk => by rw [if_pos rfl, List.getElem?_set_ne (fun e => hk e.symm)]) ?_
      intro v hv
      rw [if_pos rfl, List.getElem?_set_self hxl] at hv
      injection hv with hv
      refine ⟨pre.length, hv.symm, ?_⟩
      rw [if_pos rfl]
      refine ⟨get_snoc_eq _ _, fun j hj => ?_⟩
      rw [List.getElem?_eq_none (by simp; omega)]
      exact fun e => (by cases e)
    | false =>
      rw [if_neg (by decide)]
      by_cases hv0 : buf[x.toNat] = invalid
      · rw [if_pos hv0]
        refine other _ (by simp) (fun k hk => by rw [List.getElem?_set_ne (fun e => hk e.symm)]) ?_
        intro v hv
        rw [List.getElem?_set_self hxl] at hv
        injection hv with hv
        refine ⟨pre.length, hv.symm, ?_⟩
        rw [if_neg (by decide)]
        refine ⟨get_snoc_eq _ _, fun j hj e => ?_⟩
        rw [get_snoc_lt hj] at e
        rcases I.2 x.toNat _ (List.getElem?_eq_getElem hxl) with ⟨-, h2⟩ | ⟨-, j', h1, -⟩
        · rw [hxk] at h2
          have := h2 j e
          omega
        · rw [hv0] at h1
          unfold invalid at h1
          omega
      · rw [if_neg hv0]
        refine other _ rfl (fun k hk => rfl) ?_
        intro v hv
        rcases I.2 x.toNat v hv with ⟨h1, -⟩ | ⟨h0, j, h1, h2⟩
        · rw [List.getElem?_eq_getElem hxl] at hv
          injection hv with hv
          exact absurd (hv.trans h1) hv0
        · refine ⟨j, h1, ?_⟩
          rw [if_neg (by decide)] at h2 ⊢
          rw [hxk] at h2
          obtain ⟨a, b⟩ := h2
          have hj := (List.getElem?_eq_some_iff.1 a).1
          refine ⟨by rw [get_snoc_lt hj]; exact a, fun i hi e => ?_⟩
          rw [get_snoc_lt (by omega)] at e
          exact b i hi e

/-- **C64.** For every bin: the first (last) row of that group number which passes the filter, or the invalid value if there is
none; the zero bin is always invalid. -/
theorem make_ifirst_exact (last : Bool) (hashLen : Nat) (rows : List (Int × Bool)) :
    ∃ out, makeiFirst last hashLen rows = some out ∧ out.length = hashLen ∧
      ∀ (k : Nat) v, out[k]? = some v →
        (v = invalid ∧ (k = 0 ∨ ∀ j : Nat, rows[j]? ≠ some ((k : Int), true))) ∨
        (0 < k ∧ ∃ j : Nat, v = (j : Int) ∧
          if last then LastAt rows ((k : Int), true) j else FirstIs rows ((k : Int), true) j) := by
  obtain ⟨out, h1, h2⟩ := loopF_inv last hashLen rows [] (List.replicate hashLen invalid) ⟨by simp, by
    intro k v hv
    rw [List.getElem?_replicate] at hv
    split at hv
    · injection hv with hv
      exact .inl ⟨hv.symm, by simp⟩
    · cases hv⟩
  refine ⟨out, h1, h2.1, fun k v hv => ?_⟩
  rcases h2.2 k v hv with ⟨a, b⟩ | h
  · refine .inl ⟨a, ?_⟩
    rcases Nat.eq_zero_or_pos k with h0 | h0
    · exact .inl h0
    · refine .inr fun j e => ?_
      have := b j (by simpa using e)
      omega
  · simpa using Or.inr h

example : makeiFirst false 4 [(3, false), (1, true), (3, true), (1, true), (0, true), (9, true), (3, true)] =
    some [invalid, 1, invalid, 2] := by decide

example : makeiFirst true 4 [(3, false), (1, true), (3, true), (1, true), (0, true), (9, true), (3, true)] =
    some [invalid, 3, invalid, 6] := by decide

end Riptide.Combine
