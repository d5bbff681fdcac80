import Verif.GroupBy.Kernels
/-! # C23: group sums of integers -/
namespace Riptide.GroupBy
open Riptide.Work Spec

variable {D : Type}

theorem wrap_add_left (u : IT) (a b : Int) : u.wrap (u.wrap a + b) = u.wrap (a + b) := by
  unfold IT.wrap
  have e : (a - u.lo) % 2 ^ u.bits + u.lo + b - u.lo = (a - u.lo) % 2 ^ u.bits + b := by omega
  rw [e, Int.emod_add_emod]
  congr 2
  omega

theorem wrap_add_right (u : IT) (a b : Int) : u.wrap (a + u.wrap b) = u.wrap (a + b) := by
  rw [Int.add_comm, wrap_add_left, Int.add_comm]

theorem wrap_zero (u : IT) (h : 0 < u.bits) : u.wrap 0 = 0 := by
  apply IT.wrap_of_inRange u h
  unfold IT.InRange
  rw [IT.hi_eq u h]
  unfold IT.lo
  split
  · have h1 : (0 : Int) < 2 ^ (u.bits - 1) := IT.pow_pos _
    have h2 : (2 : Int) ^ u.bits = 2 ^ (u.bits - 1) * 2 := by
      rw [← Int.pow_succ]; congr 1; omega
    omega
  · have := IT.pow_pos u.bits
    omega

theorem sum_perm {l1 l2 : List Int} (h : l1.Perm l2) : l1.sum = l2.sum := by
  induction h with
  | nil => rfl
  | cons x _ ih => rw [List.sum_cons, List.sum_cons, ih]
  | swap x y l => simp only [List.sum_cons]; omega
  | trans _ _ ih1 ih2 => rw [ih1, ih2]

theorem groupSum_perm (t u : IT) {l1 l2 : List Int} (h : l1.Perm l2) :
    groupSum t u l1 = groupSum t u l2 := by
  unfold groupSum
  rw [sum_perm h]
  have : t.inv ∈ l1 ↔ t.inv ∈ l2 := h.mem_iff
  simp only [this]

theorem groupNanSum_perm (t u : IT) {l1 l2 : List Int} (h : l1.Perm l2) :
    groupNanSum t u l1 = groupNanSum t u l2 := by
  unfold groupNanSum
  rw [sum_perm (h.filter _)]

/-- What the cell of a bin says about the values seen by one core. -/
def SumRep (t u : IT) (L : List Int) (c : Cell Int D) : Prop :=
  (t.inv ∈ L → c.cnt = -1 ∧ c.out = some u.inv) ∧
  (t.inv ∉ L → c.cnt = 0 ∧ c.out = some (u.wrap L.sum))

theorem sumRow_rep (t u : IT) (L : List Int) (x : Int) (c : Cell Int D) (h : SumRep t u L c) :
    SumRep t u (L ++ [x]) (sumRow (intArith t u) x c) := by
  obtain ⟨h1, h2⟩ := h
  unfold SumRep sumRow
  by_cases hL : t.inv ∈ L
  · obtain ⟨a1, a2⟩ := h1 hL
    rw [if_neg (by omega)]
    exact ⟨fun _ => ⟨a1, a2⟩, fun hn => absurd (List.mem_append_left _ hL) hn⟩
  · obtain ⟨a1, a2⟩ := h2 hL
    rw [if_pos (by omega)]
    by_cases hx : x = t.inv
    · subst hx
      rw [if_neg (by simp [intArith])]
      exact ⟨fun _ => ⟨rfl, rfl⟩, fun hn => absurd (by simp) hn⟩
    · rw [if_pos (by simp [intArith, hx])]
      refine ⟨fun hm => ?_, fun _ => ⟨a1, ?_⟩⟩
      · rcases List.mem_append.mp hm with hm | hm
        · exact absurd hm hL
        · exact absurd (by simpa using hm : t.inv = x) (Ne.symm hx)
      · simp only [plus, a2, intArith, Option.map_some]
        rw [wrap_add_left, wrap_add_right, List.sum_append]
        simp

/-- What the gather loop knows. -/
def SumGat (t u : IT) (Ls : List (List Int)) (g : Gat Int) : Prop :=
  (t.inv ∈ Ls.flatten → g.inv = -1 ∧ g.out = some u.inv) ∧
  (t.inv ∉ Ls.flatten → g.inv ≠ -1 ∧ g.out = some (u.wrap Ls.flatten.sum))

theorem sum_core (t u : IT) (hu : 0 < u.bits) (lo hi b : Nat) (h1 : lo ≤ b) (h2 : b < hi) (len : Nat)
    (L : List Int) : SumRep (D := D) t u L (stdG lo hi (fun c => { c with out := some 0 })
      (sumRow (intArith t u)) id 0 len b L ⟨none, 0, none⟩) := by
  unfold stdG
  rw [if_pos ⟨h1, h2⟩]
  refine foldl_rep (Rep := SumRep t u) (sumRow_rep t u) L [] _ ?_
  exact ⟨fun h => by simp at h, fun _ => ⟨rfl, by simp [wrap_zero u hu]⟩⟩

theorem sum_pass (t u : IT) (lo hi b : Nat) (h1 : lo ≤ b) (h2 : b < hi) (p : Int) (len : Nat)
    (L L' : List Int) (c : Cell Int D) (hp : 0 < p) (hc : SumRep t u L c) :
    SumRep t u (L ++ L') (stdG lo hi (fun c => { c with out := some 0 })
      (sumRow (intArith t u)) id p len b L' c) := by
  unfold stdG
  rw [if_pos ⟨h1, h2⟩]
  simp only [show ¬ p < 0 by omega, show ¬ p ≤ 0 by omega, if_false]
  exact foldl_rep (Rep := SumRep t u) (sumRow_rep t u) L' L _ hc

theorem cw_accumSum (t u : IT) {n lo hi : Nat} (h : lo ≤ hi ∧ hi ≤ n) (pass : Int)
    (rs : List (Int × Int)) : CW (D := D) n (accumSum (intArith t u) lo hi pass rs)
      (fun b c => stdG lo hi (fun c => { c with out := some 0 }) (sumRow (intArith t u)) id pass
        rs.length b (valsOf rs b) c) :=
  cw_std0 h (fun c => { c with out := some (0 : Int) }) (sumRow (intArith t u)) pass rs

/-- C23: the group sum of an integer column is the sum of the group's rows modulo the width of the
output type, and invalid when the group has an invalid row — on the sequential path, and on the
scattered path for every assignment of blocks to cores. -/
theorem group_sum_exact (t u : IT) (hu : 0 < u.bits) {n lo hi workers : Nat} {nt : Bool}
    {rows : List (Int × Int)} {par : Option (List (List Nat))}
    (hs : CoreSched workers rows.length nt par) (h : lo ≤ hi ∧ hi ≤ n) :
    ∃ out, groupByAll (aggSum (intArith t u) : Agg Int Int D) n lo hi rows par = some out ∧
      out.length = n ∧
      ∀ b, lo ≤ b → b < hi → out[b]? = some (some (groupSum t u (valsOf rows b))) := by
  have key := groupByAll_bins (g := (aggSum (intArith t u) : Agg Int Int D)) (n := n) (lo := lo)
    (hi := hi) hs (Q := fun b o => o = some (groupSum t u (valsOf rows b))) ?_ ?_
  · obtain ⟨out, h1, h2, h3⟩ := key
    refine ⟨out, h1, h2, fun b hb1 hb2 => ?_⟩
    obtain ⟨o, ho, rfl⟩ := h3 b hb1 hb2
    exact ho
  · obtain ⟨out, h1, h2, h3⟩ := sequential_cells (k := accumSum (D := D) (intArith t u) lo hi) rows
      (fun pass rs => cw_accumSum t u h pass rs)
    refine ⟨out, h1, h2, fun b hb1 hb2 => ⟨_, h3 b (by omega), ?_⟩⟩
    have hr : SumRep t u (valsOf rows b) (stdG (D := D) lo hi (fun c => { c with out := some 0 })
        (sumRow (intArith t u)) id (-1) rows.length b (valsOf rows b) ⟨none, 0, none⟩) :=
      sum_core t u hu lo hi b hb1 hb2 rows.length (valsOf rows b)
    unfold groupSum
    split
    · next hm => exact (hr.1 hm).2
    · next hm => exact (hr.2 hm).2
  · intro cores hp
    obtain ⟨out, h1, h2, h3⟩ := scattered_bins (g := (aggSum (intArith t u) : Agg Int Int D)) h rows
      (fun pass rs => cw_accumSum t u h pass rs)
      (CRep := fun _ => SumRep t u) (R := fun _ => SumGat t u)
      (fun b hb1 hb2 => sum_core t u hu lo hi b hb1 hb2)
      (fun b hb1 hb2 => sum_pass t u lo hi b hb1 hb2)
      (fun b _ _ => ⟨fun h => by simp at h, fun _ => ⟨by simp, by
        simp [aggSum, intArith, wrap_zero u hu]⟩⟩)
      (fun b _ _ L c hc => by
        show SumGat t u [L] (gatherSum (intArith t u) 0 ⟨some 0, c.cnt, 0⟩ c)
        unfold gatherSum cntOf SumGat
        have e : [L].flatten = L := by simp
        rw [e]
        by_cases hL : t.inv ∈ L
        · obtain ⟨a1, a2⟩ := hc.1 hL
          rw [a1, if_pos rfl, if_pos rfl]
          exact ⟨fun _ => ⟨rfl, rfl⟩, fun hn => absurd hL hn⟩
        · obtain ⟨a1, a2⟩ := hc.2 hL
          simp only [a1, a2, if_true]
          refine ⟨fun hn => absurd hn hL, fun _ => ⟨by simp, ?_⟩⟩
          simp only [plusO, intArith]
          simp [wrap_add_right])
      (fun b _ _ j Ls L a c hj ha hc => by
        show SumGat t u (Ls ++ [L]) (gatherSum (intArith t u) j a c)
        unfold gatherSum cntOf SumGat
        have e : (Ls ++ [L]).flatten = Ls.flatten ++ L := by simp
        rw [e, if_neg (show ¬ j = 0 by omega), if_neg (show ¬ j = 0 by omega)]
        by_cases hLs : t.inv ∈ Ls.flatten
        · obtain ⟨a1, a2⟩ := ha.1 hLs
          rw [if_pos a1]
          exact ⟨fun _ => ⟨a1, a2⟩, fun hn => absurd (List.mem_append_left _ hLs) hn⟩
        · obtain ⟨a1, a2⟩ := ha.2 hLs
          rw [if_neg a1]
          by_cases hL : t.inv ∈ L
          · obtain ⟨b1, b2⟩ := hc.1 hL
            rw [if_pos b1]
            exact ⟨fun _ => ⟨rfl, rfl⟩, fun hn => absurd (List.mem_append_right _ hL) hn⟩
          · obtain ⟨b1, b2⟩ := hc.2 hL
            rw [if_neg (by omega)]
            refine ⟨fun hm => ?_, fun _ => ⟨a1, ?_⟩⟩
            · rcases List.mem_append.mp hm with hm | hm
              · exact absurd hm hLs
              · exact absurd hm hL
            · simp only [plusO, intArith, a2, b2, Option.bind_some, Option.map_some]
              rw [wrap_add_left, wrap_add_right, List.sum_append])
      cores
    refine ⟨out, h1, h2, fun b hb1 hb2 => ?_⟩
    obtain ⟨a, ha, hr⟩ := h3 b hb1 hb2
    refine ⟨_, ha, ?_⟩
    have hperm := workVals_perm rows b hp
    show a.out = _
    rw [← groupSum_perm t u hperm]
    unfold groupSum
    split
    · next hm => exact (hr.1 hm).2
    · next hm => exact (hr.2 hm).2

/-! ## Sums ignoring invalid values -/

/-- The cell of a bin after the rows with values `L`. -/
def NanSumRep (t u : IT) (L : List Int) (c : Cell Int D) : Prop :=
  c.cnt = 0 ∧ c.out = some (groupNanSum t u L)

theorem nanSumRow_rep (t u : IT) (L : List Int) (x : Int) (c : Cell Int D)
    (h : NanSumRep t u L c) : NanSumRep t u (L ++ [x]) (nanSumRow (intArith t u) x c) := by
  obtain ⟨h1, h2⟩ := h
  unfold NanSumRep nanSumRow
  by_cases hx : x = t.inv
  · subst hx
    rw [if_neg (by simp [intArith])]
    refine ⟨h1, ?_⟩
    rw [h2]
    unfold groupNanSum
    rw [List.filter_append]
    simp
  · rw [if_pos (by simp [intArith, hx])]
    refine ⟨h1, ?_⟩
    simp only [plus, h2, intArith, Option.map_some]
    unfold groupNanSum
    rw [wrap_add_left, wrap_add_right, List.filter_append, List.sum_append]
    simp [hx]

theorem nanSum_core (t u : IT) (hu : 0 < u.bits) (lo hi b : Nat) (h1 : lo ≤ b) (h2 : b < hi)
    (len : Nat) (L : List Int) : NanSumRep (D := D) t u L (stdG lo hi
      (fun c => { c with out := some 0 }) (nanSumRow (intArith t u)) id 0 len b L ⟨none, 0, none⟩) := by
  unfold stdG
  rw [if_pos ⟨h1, h2⟩]
  refine foldl_rep (Rep := NanSumRep t u) (nanSumRow_rep t u) L [] _ ?_
  exact ⟨rfl, by simp [groupNanSum, wrap_zero u hu]⟩

theorem nanSum_pass (t u : IT) (lo hi b : Nat) (h1 : lo ≤ b) (h2 : b < hi) (p : Int) (len : Nat)
    (L L' : List Int) (c : Cell Int D) (hp : 0 < p) (hc : NanSumRep t u L c) :
    NanSumRep t u (L ++ L') (stdG lo hi (fun c => { c with out := some 0 })
      (nanSumRow (intArith t u)) id p len b L' c) := by
  unfold stdG
  rw [if_pos ⟨h1, h2⟩]
  simp only [show ¬ p < 0 by omega, show ¬ p ≤ 0 by omega, if_false]
  exact foldl_rep (Rep := NanSumRep t u) (nanSumRow_rep t u) L' L _ hc

theorem cw_accumNanSum (t u : IT) {n lo hi : Nat} (h : lo ≤ hi ∧ hi ≤ n) (pass : Int)
    (rs : List (Int × Int)) : CW (D := D) n (accumNanSum (intArith t u) lo hi pass rs)
      (fun b c => stdG lo hi (fun c => { c with out := some 0 }) (nanSumRow (intArith t u)) id pass
        rs.length b (valsOf rs b) c) :=
  cw_std0 h (fun c => { c with out := some (0 : Int) }) (nanSumRow (intArith t u)) pass rs

theorem groupNanSum_append (t u : IT) (l1 l2 : List Int) :
    groupNanSum t u (l1 ++ l2) = u.wrap (groupNanSum t u l1 + groupNanSum t u l2) := by
  unfold groupNanSum
  rw [wrap_add_left, wrap_add_right, List.filter_append, List.sum_append]

/-- C23: the nan-ignoring group sum of an integer column is the sum of the group's valid rows modulo
the width of the output type, sequentially and for every assignment of blocks to cores. -/
theorem group_nansum_exact (t u : IT) (hu : 0 < u.bits) {n lo hi workers : Nat} {nt : Bool}
    {rows : List (Int × Int)} {par : Option (List (List Nat))}
    (hs : CoreSched workers rows.length nt par) (h : lo ≤ hi ∧ hi ≤ n) :
    ∃ out, groupByAll (aggNanSum (intArith t u) : Agg Int Int D) n lo hi rows par = some out ∧
      out.length = n ∧
      ∀ b, lo ≤ b → b < hi → out[b]? = some (some (groupNanSum t u (valsOf rows b))) := by
  have key := groupByAll_bins (g := (aggNanSum (intArith t u) : Agg Int Int D)) (n := n) (lo := lo)
    (hi := hi) hs (Q := fun b o => o = some (groupNanSum t u (valsOf rows b))) ?_ ?_
  · obtain ⟨out, h1, h2, h3⟩ := key
    refine ⟨out, h1, h2, fun b hb1 hb2 => ?_⟩
    obtain ⟨o, ho, rfl⟩ := h3 b hb1 hb2
    exact ho
  · obtain ⟨out, h1, h2, h3⟩ := sequential_cells (k := accumNanSum (D := D) (intArith t u) lo hi)
      rows (fun pass rs => cw_accumNanSum t u h pass rs)
    refine ⟨out, h1, h2, fun b hb1 hb2 => ⟨_, h3 b (by omega), ?_⟩⟩
    have hr : NanSumRep t u (valsOf rows b) (stdG (D := D) lo hi (fun c => { c with out := some 0 })
        (nanSumRow (intArith t u)) id (-1) rows.length b (valsOf rows b) ⟨none, 0, none⟩) :=
      nanSum_core t u hu lo hi b hb1 hb2 rows.length (valsOf rows b)
    exact hr.2
  · intro cores hp
    obtain ⟨out, h1, h2, h3⟩ := scattered_bins (g := (aggNanSum (intArith t u) : Agg Int Int D)) h
      rows (fun pass rs => cw_accumNanSum t u h pass rs)
      (CRep := fun _ => NanSumRep t u)
      (R := fun _ Ls g => g.out = some (groupNanSum t u Ls.flatten))
      (fun b hb1 hb2 => nanSum_core t u hu lo hi b hb1 hb2)
      (fun b hb1 hb2 => nanSum_pass t u lo hi b hb1 hb2)
      (fun b _ _ => by simp [aggNanSum, intArith, groupNanSum, wrap_zero u hu])
      (fun b _ _ L c hc => by
        show plusO _ (some 0) c.out = _
        rw [hc.2]
        simp only [plusO, intArith, Option.bind_some, Option.map_some, List.flatten_cons,
          List.flatten_nil, List.append_nil, Int.zero_add]
        unfold groupNanSum
        have := wrap_add_left u (List.filter (fun x => decide (x ≠ t.inv)) L).sum 0
        rw [Int.add_zero, Int.add_zero] at this
        rw [this])
      (fun b _ _ j Ls L a c hj ha hc => by
        show plusO _ a.out c.out = _
        rw [hc.2, ha]
        have e : (Ls ++ [L]).flatten = Ls.flatten ++ L := by simp
        rw [e, groupNanSum_append]
        rfl)
      cores
    refine ⟨out, h1, h2, fun b hb1 hb2 => ?_⟩
    obtain ⟨a, ha, hr⟩ := h3 b hb1 hb2
    refine ⟨_, ha, ?_⟩
    show a.out = _
    rw [hr, groupNanSum_perm t u (workVals_perm rows b hp)]

/-- C23: the scattered and the sequential path give the same sums. -/
theorem group_sum_schedule_independent (t u : IT) (hu : 0 < u.bits) {n lo hi w1 w2 : Nat}
    {nt1 nt2 : Bool} {rows : List (Int × Int)} {p1 p2 : Option (List (List Nat))}
    (h1 : CoreSched w1 rows.length nt1 p1) (h2 : CoreSched w2 rows.length nt2 p2)
    (h : lo ≤ hi ∧ hi ≤ n) :
    ∃ o1 o2 : List (Option Int), groupByAll (aggSum (intArith t u) : Agg Int Int D) n lo hi rows p1 = some o1 ∧
      groupByAll (aggSum (intArith t u) : Agg Int Int D) n lo hi rows p2 = some o2 ∧
      ∀ b, lo ≤ b → b < hi → o1[b]? = o2[b]? := by
  obtain ⟨o1, a1, _, a3⟩ := group_sum_exact (D := D) t u hu h1 h
  obtain ⟨o2, b1, _, b3⟩ := group_sum_exact (D := D) t u hu h2 h
  exact ⟨o1, o2, a1, b1, fun b x y => by rw [a3 b x y, b3 b x y]⟩

/-- Outside `[binLow, binHigh)` the two paths differ: the sequential path leaves the bin unwritten,
the scattered one stores 0. -/
theorem group_sum_outside_range :
    groupByAll (aggSum (intArith .i32 .i64) : Agg Int Int Unit) 3 1 3 [(1, 5), (2, 7), (0, 9)] none =
      some [none, some 5, some 7] ∧
    scattered (aggSum (intArith .i32 .i64) : Agg Int Int Unit) 3 1 3 [(1, 5), (2, 7), (0, 9)] [[0]] =
      some [some 0, some 5, some 7] := by decide +kernel

/-- A bin range reaching past the output is not checked. -/
theorem group_sum_range_oob :
    groupByAll (aggSum (intArith .i32 .i64) : Agg Int Int Unit) 3 0 4 [(1, 5)] none = none := by
  decide +kernel

example : groupByAll (aggSum (intArith .i8 .i64) : Agg Int Int Unit) 4 1 4
    [(1, 100), (2, -128), (1, 100), (2, 3), (0, 7)] none =
      some [none, some 200, some (-9223372036854775808), some 0] := by decide +kernel
example : groupByAll (aggNanSum (intArith .i8 .i64) : Agg Int Int Unit) 4 1 4
    [(1, 100), (2, -128), (1, 100), (2, 3), (0, 7)] none =
      some [none, some 200, some 3, some 0] := by decide +kernel
/-- Three cores, the first without work; the second sees the invalid row of bin 2. -/
example : gather true 0 (gatherSum (intArith .i8 .i64)) Gat.out 3 1 3
    [(⟨false, fresh 3⟩ : Core Int Unit), ⟨true, [⟨none, 0, none⟩, ⟨some 5, 0, none⟩, ⟨some IT.i64.inv, -1, none⟩]⟩,
      ⟨true, [⟨none, 0, none⟩, ⟨some 6, 0, none⟩, ⟨some 9, 0, none⟩]⟩] =
      some [some 0, some 11, some (-9223372036854775808)] := by decide +kernel
/-- The hypotheses are met by a pool run over 32768 rows. -/
example (rows : List (Int × Int)) (h : rows.length = 32768) :
    ∃ out, groupByAll (aggSum (intArith .i32 .i64) : Agg Int Int Unit) 3 1 3 rows
      (some [[0, 1], []]) = some out ∧ out.length = 3 ∧
      ∀ b, 1 ≤ b → b < 3 → out[b]? = some (some (groupSum .i32 .i64 (valsOf rows b))) := by
  refine group_sum_exact (workers := 1) (nt := false) .i32 .i64 (by decide) ?_ (by decide)
  rw [h]
  exact CoreSched.pool (workers := 1) [0, 1] (fun _ => 0) (by decide) (by
      have : blockLastGeneric 32768 chunk = 2 := by decide
      rw [this]; exact poolRun_example) (by intro b; omega)

end Riptide.GroupBy
