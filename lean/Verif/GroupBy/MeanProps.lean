import Verif.GroupBy.ValLemmas
/-! # C26: group means (and sums of `double` columns) -/
namespace Riptide.GroupBy
open Riptide.Work Spec

variable {D : Type}

theorem not_mem_snoc {L : List (Option Int)} {x : Int} (h : none ∉ L) : none ∉ L ++ [some x] := by
  simpa using h

theorem sumRow_srep {f : FT} {M : Nat} (hr : Exact (rndTo f) M) (L : List (Option Int))
    (x : Option Int) (c : Cell Val D) (h : SRep noCount M L c) :
    SRep noCount M (L ++ [x]) (sumRow (valArith f) x c) := by
  unfold sumRow
  by_cases hL : none ∈ L
  · obtain ⟨a1, a2⟩ := h.1 hL
    rw [if_neg (by omega)]
    exact ⟨fun _ => ⟨a1, a2⟩, fun hn => absurd (List.mem_append_left _ hL) hn⟩
  · obtain ⟨a1, v, a2, a3⟩ := h.2 hL
    rw [if_pos (by omega)]
    cases x with
    | none => exact ⟨fun _ => ⟨rfl, rfl⟩, fun hn => absurd (by simp) hn⟩
    | some x =>
      rw [if_pos (show (valArith f).valid (some x) = true from rfl)]
      refine ⟨fun hm => absurd hm (not_mem_snoc hL), fun _ => ⟨a1, _, ?_,
        acc_merge hr a3 (acc_one hr x)⟩⟩
      show plus _ c.out _ = _
      rw [a2]; rfl

theorem meanRow_srep {f : FT} {M : Nat} (hr : Exact (rndTo f) M) (L : List (Option Int))
    (x : Option Int) (c : Cell Val D) (h : SRep allCount M L c) :
    SRep allCount M (L ++ [x]) (meanRow (valArith f) x c) := by
  unfold meanRow
  by_cases hL : none ∈ L
  · obtain ⟨a1, a2⟩ := h.1 hL
    rw [if_neg (by omega)]
    exact ⟨fun _ => ⟨a1, a2⟩, fun hn => absurd (List.mem_append_left _ hL) hn⟩
  · obtain ⟨a1, v, a2, a3⟩ := h.2 hL
    rw [if_pos (by omega)]
    cases x with
    | none => exact ⟨fun _ => ⟨rfl, rfl⟩, fun hn => absurd (by simp) hn⟩
    | some x =>
      rw [if_neg (by simp [valArith])]
      refine ⟨fun hm => absurd hm (not_mem_snoc hL), fun _ => ⟨?_, _, ?_,
        acc_merge hr a3 (acc_one hr x)⟩⟩
      · show c.cnt + 1 = _
        rw [a1]; simp [allCount]
      · show plus _ c.out _ = _
        rw [a2]; rfl

theorem nanSumRow_nrep {f : FT} {M : Nat} (hr : Exact (rndTo f) M) (L : List (Option Int))
    (x : Option Int) (c : Cell Val D) (h : NRep noCount M L c) :
    NRep noCount M (L ++ [x]) (nanSumRow (valArith f) x c) := by
  obtain ⟨a1, v, a2, a3⟩ := h
  unfold nanSumRow
  cases x with
  | none =>
    rw [if_neg (by simp [valArith])]
    exact ⟨a1, v, a2, acc_none a3⟩
  | some x =>
    rw [if_pos (show (valArith f).valid (some x) = true from rfl)]
    refine ⟨a1, _, ?_, acc_merge hr a3 (acc_one hr x)⟩
    show plus _ c.out _ = _
    rw [a2]; rfl

theorem nanMeanRow_nrep {f : FT} {M : Nat} (hr : Exact (rndTo f) M) (L : List (Option Int))
    (x : Option Int) (c : Cell Val D) (h : NRep validCount M L c) :
    NRep validCount M (L ++ [x]) (nanMeanRow (valArith f) x c) := by
  obtain ⟨a1, v, a2, a3⟩ := h
  unfold nanMeanRow
  cases x with
  | none =>
    rw [if_neg (by simp [valArith])]
    exact ⟨by rw [a1]; simp [validCount, validVals], v, a2, acc_none a3⟩
  | some x =>
    rw [if_pos (show (valArith f).valid (some x) = true from rfl)]
    refine ⟨?_, _, ?_, acc_merge hr a3 (acc_one hr x)⟩
    · show c.cnt + 1 = _
      rw [a1]; simp [validCount, validVals]
    · show plus _ c.out _ = _
      rw [a2]; rfl

theorem srep_clear {cf : List (Option Int) → Nat} (hcf : Additive cf) (M : Nat) (t : Option D) :
    SRep cf M [] ⟨some (.num 0), 0, t⟩ :=
  ⟨fun h => by simp at h, fun _ => ⟨by simp [hcf.1], _, rfl, acc_zero M⟩⟩

theorem nrep_clear {cf : List (Option Int) → Nat} (hcf : Additive cf) (M : Nat) (t : Option D) :
    NRep cf M [] ⟨some (.num 0), 0, t⟩ := ⟨by simp [hcf.1], _, rfl, acc_zero M⟩

/-! ## Results -/

theorem isSum_perm {M : Nat} {L L' : List (Option Int)} {v : Val} (hp : L.Perm L')
    (h : IsSum M L v) : IsSum M L' v :=
  ⟨fun hm => h.1 (hp.mem_iff.mpr hm), fun hn => acc_perm hp (h.2 fun hm => hn (hp.mem_iff.mp hm))⟩

theorem isNanSum_perm {M : Nat} {L L' : List (Option Int)} {v : Val} (hp : L.Perm L')
    (h : IsNanSum M L v) : IsNanSum M L' v := acc_perm hp h

theorem total_perm {M : Nat} {L L' : List (Option Int)} {s : Int} (hp : L.Perm L')
    (h : Total M (validVals L) s) : Total M (validVals L') s := by
  obtain ⟨s', e, h'⟩ := acc_perm hp ⟨s, rfl, h⟩
  cases e
  exact h'

theorem isMean_perm {M : Nat} {L L' : List (Option Int)} {v : Val} (hp : L.Perm L')
    (h : IsMean M L v) : IsMean M L' v := by
  refine ⟨fun hm => h.1 ?_, fun h1 h2 => ?_⟩
  · rcases hm with rfl | hm
    · exact .inl hp.eq_nil
    · exact .inr (hp.mem_iff.mpr hm)
  · obtain ⟨s, e, hs⟩ := h.2 (fun e => h1 (by subst e; exact hp.symm.eq_nil))
      (fun hm => h2 (hp.mem_iff.mp hm))
    exact ⟨s, by rw [e, hp.length_eq], total_perm hp hs⟩

theorem isNanMean_perm {M : Nat} {L L' : List (Option Int)} {v : Val} (hp : L.Perm L')
    (h : IsNanMean M L v) : IsNanMean M L' v := by
  have h1 : (validVals L).Perm (validVals L') := hp.filterMap id
  refine ⟨fun hm => h.1 (by rw [hm] at h1; exact h1.eq_nil), fun h2 => ?_⟩
  obtain ⟨s, e, hs⟩ := h.2 (fun e => h2 (by rw [e] at h1; exact h1.symm.eq_nil))
  exact ⟨s, by rw [e, h1.length_eq], total_perm hp hs⟩

theorem sgat_sum {M : Nat} (Ls : List (List (Option Int))) (a : Gat Val)
    (h : SGat noCount M Ls a) : ∃ v, a.out = some v ∧ IsSum M Ls.flatten v := by
  by_cases hL : none ∈ Ls.flatten
  · exact ⟨_, (h.1 hL).2, fun _ => rfl, fun hn => absurd hL hn⟩
  · obtain ⟨_, _, v, e, hv⟩ := h.2 hL
    exact ⟨v, e, fun hm => absurd hm hL, fun _ => hv⟩

theorem sgat_mean {f : FT} {M : Nat} (Ls : List (List (Option Int))) (a : Gat Val)
    (h : SGat allCount M Ls a) :
    ∃ v, gatherMeanFin (valArith f) a = some v ∧ IsMean M Ls.flatten v := by
  unfold gatherMeanFin
  by_cases hL : none ∈ Ls.flatten
  · rw [(h.1 hL).2]
    refine ⟨.nan, ?_, fun _ => rfl, fun _ hn => absurd hL hn⟩
    show some (if _ then _ else _) = _
    rw [if_neg (by simp [valArith, Val.valid])]; rfl
  · obtain ⟨_, ht, v, e, s, rfl, hs⟩ := h.2 hL
    rw [e]
    by_cases he : Ls.flatten = []
    · refine ⟨.nan, ?_, fun _ => rfl, fun hn => absurd he hn⟩
      show some (if _ then _ else _) = _
      rw [if_neg (by rw [ht, he]; simp [allCount])]; rfl
    · refine ⟨.quot s Ls.flatten.length, ?_, fun hm => ?_, fun _ _ => ⟨s, rfl, hs⟩⟩
      · show some (if _ then _ else _) = _
        have : 0 < Ls.flatten.length := List.length_pos_iff.mpr he
        rw [if_pos ⟨by rw [ht]; unfold allCount; omega, rfl⟩, ht]; rfl
      · rcases hm with hm | hm
        · exact absurd hm he
        · exact absurd hm hL

theorem ngat_mean {f : FT} {M : Nat} (Ls : List (List (Option Int))) (a : Gat Val)
    (h : NGat validCount M Ls a) :
    ∃ v, gatherNanMeanFin (valArith f) a = some v ∧ IsNanMean M Ls.flatten v := by
  unfold gatherNanMeanFin
  obtain ⟨ht, v, e, s, rfl, hs⟩ := h
  by_cases he : validVals Ls.flatten = []
  · refine ⟨.nan, ?_, fun _ => rfl, fun hn => absurd he hn⟩
    rw [if_neg (by rw [ht]; simp [validCount, he])]; rfl
  · refine ⟨.quot s (validVals Ls.flatten).length, ?_, fun hm => absurd hm he,
      fun _ => ⟨s, rfl, hs⟩⟩
    have : 0 < (validVals Ls.flatten).length := List.length_pos_iff.mpr he
    rw [if_pos (by rw [ht]; unfold validCount; omega), e, ht]; rfl

/-- The end of a sequential mean. -/
theorem srep_meanFin {f : FT} {M : Nat} (L : List (Option Int)) (c : Cell Val D)
    (h : SRep allCount M L c) : ∃ v, (meanFin (valArith f) c).out = some v ∧ IsMean M L v := by
  unfold meanFin
  by_cases hL : none ∈ L
  · rw [if_neg (by have := (h.1 hL).1; omega)]
    exact ⟨.nan, rfl, fun _ => rfl, fun _ hn => absurd hL hn⟩
  · obtain ⟨ht, v, e, s, rfl, hs⟩ := h.2 hL
    by_cases he : L = []
    · rw [if_neg (by rw [ht, he]; simp [allCount])]
      exact ⟨.nan, rfl, fun _ => rfl, fun hn => absurd he hn⟩
    · have : 0 < L.length := List.length_pos_iff.mpr he
      rw [if_pos (by rw [ht]; unfold allCount; omega)]
      refine ⟨.quot s L.length, ?_, fun hm => ?_, fun _ _ => ⟨s, rfl, hs⟩⟩
      · show c.out.map _ = _
        rw [e, ht]; rfl
      · rcases hm with hm | hm
        · exact absurd hm he
        · exact absurd hm hL

theorem nrep_meanFin {f : FT} {M : Nat} (L : List (Option Int)) (c : Cell Val D)
    (h : NRep validCount M L c) : ∃ v, (meanFin (valArith f) c).out = some v ∧ IsNanMean M L v := by
  unfold meanFin
  obtain ⟨ht, v, e, s, rfl, hs⟩ := h
  by_cases he : validVals L = []
  · rw [if_neg (by rw [ht]; simp [validCount, he])]
    exact ⟨.nan, rfl, fun _ => rfl, fun hn => absurd he hn⟩
  · have : 0 < (validVals L).length := List.length_pos_iff.mpr he
    rw [if_pos (by rw [ht]; unfold validCount; omega)]
    refine ⟨.quot s (validVals L).length, ?_, fun hm => absurd hm he, fun _ => ⟨s, rfl, hs⟩⟩
    show c.out.map _ = _
    rw [e, ht]; rfl

/-! ## Columns whose totals are kept in the output -/

/-- Clearing the output. -/
def clr0 (c : Cell Val D) : Cell Val D := { c with out := some (.num 0) }

theorem std_core {Rep : List (Option Int) → Cell Val D → Prop}
    {row : Option Int → Cell Val D → Cell Val D} {fin : Cell Val D → Cell Val D}
    (hrow : ∀ L x c, Rep L c → Rep (L ++ [x]) (row x c))
    (h0 : Rep [] ⟨some (.num 0), 0, none⟩) (lo hi b : Nat) (h1 : lo ≤ b) (h2 : b < hi) (len : Nat)
    (L : List (Option Int)) : Rep L (stdG lo hi clr0 row fin 0 len b L ⟨none, 0, none⟩) := by
  unfold stdG
  rw [if_pos ⟨h1, h2⟩]
  exact foldl_rep (Rep := Rep) hrow L [] _ h0

theorem std_pass {Rep : List (Option Int) → Cell Val D → Prop}
    {row : Option Int → Cell Val D → Cell Val D} {fin : Cell Val D → Cell Val D}
    (hrow : ∀ L x c, Rep L c → Rep (L ++ [x]) (row x c))
    (lo hi b : Nat) (h1 : lo ≤ b) (h2 : b < hi) (p : Int) (len : Nat)
    (L L' : List (Option Int)) (c : Cell Val D) (hp : 0 < p) (hc : Rep L c) :
    Rep (L ++ L') (stdG lo hi clr0 row fin p len b L' c) := by
  unfold stdG
  rw [if_pos ⟨h1, h2⟩]
  simp only [show ¬ p < 0 by omega, show ¬ p ≤ 0 by omega, if_false]
  exact foldl_rep (Rep := Rep) hrow L' L _ hc

theorem std_seq {Rep : List (Option Int) → Cell Val D → Prop}
    {row : Option Int → Cell Val D → Cell Val D} {fin : Cell Val D → Cell Val D}
    (hrow : ∀ L x c, Rep L c → Rep (L ++ [x]) (row x c))
    (h0 : Rep [] ⟨some (.num 0), 0, none⟩) (lo hi b : Nat) (h1 : lo ≤ b) (h2 : b < hi) (len : Nat)
    (L : List (Option Int)) :
    ∃ c, Rep L c ∧ stdG lo hi clr0 row fin (-1) len b L ⟨none, 0, none⟩ = fin c := by
  unfold stdG
  rw [if_pos ⟨h1, h2⟩]
  exact ⟨_, foldl_rep (Rep := Rep) hrow L [] _ h0, rfl⟩

/-- Group sums of a `double` column: `IsSum` with the exactness bound `2^53`, on both paths. -/
theorem group_sum_double {n lo hi workers : Nat} {nt : Bool}
    {rows : List (Int × Option Int)} {par : Option (List (List Nat))}
    (hs : CoreSched workers rows.length nt par) (h : lo ≤ hi ∧ hi ≤ n) :
    ∃ out, groupByAll (aggSum (valArith .f64) : Agg (Option Int) Val D) n lo hi rows par = some out ∧
      out.length = n ∧
      ∀ b, lo ≤ b → b < hi → ∃ v, out[b]? = some (some v) ∧ IsSum (2 ^ 53) (valsOf rows b) v := by
  have key := strict_all (D := D) (cf := noCount) exact_f64 additive_no
    (g := aggSum (valArith .f64)) hs h
    (G := stdG lo hi clr0 (sumRow (valArith .f64)) id)
    (fun pass rs => cw_std0 h clr0 (sumRow (valArith .f64)) pass rs) rfl (.inr ⟨rfl, rfl⟩)
    (CRep := SRep noCount (2 ^ 53)) (fun _ _ h => h)
    (fun b b1 b2 => std_core (sumRow_srep exact_f64) (srep_clear additive_no _ _) lo hi b b1 b2)
    (fun b b1 b2 => std_pass (sumRow_srep exact_f64) lo hi b b1 b2)
    (Q := fun L o => ∃ v, o = some v ∧ IsSum (2 ^ 53) L v)
    (fun L L' o hp ⟨v, e, hv⟩ => ⟨v, e, isSum_perm hp hv⟩)
    (fun Ls a ha => sgat_sum Ls a ha)
    (fun b b1 b2 => by
      obtain ⟨c, hc, e⟩ := std_seq (fin := id) (sumRow_srep exact_f64)
        (srep_clear additive_no (2 ^ 53) (none : Option D)) lo hi b b1 b2 rows.length (valsOf rows b)
      rw [e]
      by_cases hL : none ∈ valsOf rows b
      · exact ⟨_, (hc.1 hL).2, fun _ => rfl, fun hn => absurd hL hn⟩
      · obtain ⟨_, v, e, hv⟩ := hc.2 hL
        exact ⟨v, e, fun hm => absurd hm hL, fun _ => hv⟩)
  obtain ⟨out, h1, h2, h3⟩ := key
  refine ⟨out, h1, h2, fun b b1 b2 => ?_⟩
  obtain ⟨o, ho, v, rfl, hv⟩ := h3 b b1 b2
  exact ⟨v, ho, hv⟩

/-- Group sums of a `double` column ignoring invalid rows. -/
theorem group_nansum_double {n lo hi workers : Nat} {nt : Bool}
    {rows : List (Int × Option Int)} {par : Option (List (List Nat))}
    (hs : CoreSched workers rows.length nt par) (h : lo ≤ hi ∧ hi ≤ n) :
    ∃ out, groupByAll (aggNanSum (valArith .f64) : Agg (Option Int) Val D) n lo hi rows par =
        some out ∧ out.length = n ∧
      ∀ b, lo ≤ b → b < hi → ∃ v, out[b]? = some (some v) ∧ IsNanSum (2 ^ 53) (valsOf rows b) v := by
  have key := nan_all (D := D) (cf := noCount) exact_f64 additive_no
    (g := aggNanSum (valArith .f64)) hs h
    (G := stdG lo hi clr0 (nanSumRow (valArith .f64)) id)
    (fun pass rs => cw_std0 h clr0 (nanSumRow (valArith .f64)) pass rs) rfl (.inr ⟨rfl, rfl⟩)
    (P := fun _ _ => True) (CRep := NRep noCount (2 ^ 53)) (fun _ _ h => h)
    (fun b b1 b2 len L _ =>
      std_core (nanSumRow_nrep exact_f64) (nrep_clear additive_no _ _) lo hi b b1 b2 len L)
    (fun b b1 b2 => std_pass (nanSumRow_nrep exact_f64) lo hi b b1 b2)
    (Q := fun L o => ∃ v, o = some v ∧ IsNanSum (2 ^ 53) L v)
    (fun L L' o hp ⟨v, e, hv⟩ => ⟨v, e, isNanSum_perm hp hv⟩)
    (fun Ls a ha => ha.2) (ok := fun _ => True)
    (fun b b1 b2 _ => by
      obtain ⟨c, hc, e⟩ := std_seq (fin := id) (nanSumRow_nrep exact_f64)
        (nrep_clear additive_no (2 ^ 53) (none : Option D)) lo hi b b1 b2 rows.length (valsOf rows b)
      rw [e]
      exact hc.2)
    (fun _ _ _ _ _ _ => trivial)
  obtain ⟨out, h1, h2, h3⟩ := key
  refine ⟨out, h1, h2, fun b b1 b2 => ?_⟩
  obtain ⟨o, ho, v, rfl, hv⟩ := h3 b b1 b2 trivial
  exact ⟨v, ho, hv⟩

/-- C26: the group mean of an integer or `double` column is the group's total divided by its number
of rows, NaN for an empty group and for a group with an invalid row, on the sequential path and on
the scattered path for every assignment of blocks to cores.  Missing for the full property: the total
is exact only while the absolute values of the group add up to less than `2^53`. -/
theorem group_mean_partial {n lo hi workers : Nat} {nt : Bool}
    {rows : List (Int × Option Int)} {par : Option (List (List Nat))}
    (hs : CoreSched workers rows.length nt par) (h : lo ≤ hi ∧ hi ≤ n) :
    ∃ out, groupByAll (aggMean (valArith .f64) : Agg (Option Int) Val D) n lo hi rows par = some out ∧
      out.length = n ∧
      ∀ b, lo ≤ b → b < hi → ∃ v, out[b]? = some (some v) ∧ IsMean (2 ^ 53) (valsOf rows b) v := by
  have key := strict_all (D := D) (cf := allCount) exact_f64 additive_all
    (g := aggMean (valArith .f64)) hs h
    (G := stdG lo hi clr0 (meanRow (valArith .f64)) (meanFin (valArith .f64)))
    (fun pass rs => cw_std h clr0 (meanFin (valArith .f64)) (meanRow (valArith .f64)) pass rs) rfl
    (.inl rfl)
    (CRep := SRep allCount (2 ^ 53)) (fun _ _ h => h)
    (fun b b1 b2 => std_core (meanRow_srep exact_f64) (srep_clear additive_all _ _) lo hi b b1 b2)
    (fun b b1 b2 => std_pass (meanRow_srep exact_f64) lo hi b b1 b2)
    (Q := fun L o => ∃ v, o = some v ∧ IsMean (2 ^ 53) L v)
    (fun L L' o hp ⟨v, e, hv⟩ => ⟨v, e, isMean_perm hp hv⟩)
    (fun Ls a ha => sgat_mean Ls a ha)
    (fun b b1 b2 => by
      obtain ⟨c, hc, e⟩ := std_seq (fin := meanFin (valArith .f64)) (meanRow_srep exact_f64)
        (srep_clear additive_all (2 ^ 53) (none : Option D)) lo hi b b1 b2 rows.length (valsOf rows b)
      rw [e]
      exact srep_meanFin _ _ hc)
  obtain ⟨out, h1, h2, h3⟩ := key
  refine ⟨out, h1, h2, fun b b1 b2 => ?_⟩
  obtain ⟨o, ho, v, rfl, hv⟩ := h3 b b1 b2
  exact ⟨v, ho, hv⟩

/-- C26 for means ignoring invalid rows, with the same bound. -/
theorem group_nanmean_partial {n lo hi workers : Nat} {nt : Bool}
    {rows : List (Int × Option Int)} {par : Option (List (List Nat))}
    (hs : CoreSched workers rows.length nt par) (h : lo ≤ hi ∧ hi ≤ n) :
    ∃ out, groupByAll (aggNanMean (valArith .f64) : Agg (Option Int) Val D) n lo hi rows par =
        some out ∧ out.length = n ∧
      ∀ b, lo ≤ b → b < hi → ∃ v, out[b]? = some (some v) ∧ IsNanMean (2 ^ 53) (valsOf rows b) v := by
  have key := nan_all (D := D) (cf := validCount) exact_f64 additive_valid
    (g := aggNanMean (valArith .f64)) hs h
    (G := stdG lo hi clr0 (nanMeanRow (valArith .f64)) (meanFin (valArith .f64)))
    (fun pass rs => cw_std h clr0 (meanFin (valArith .f64)) (nanMeanRow (valArith .f64)) pass rs) rfl
    (.inl rfl)
    (P := fun _ _ => True) (CRep := NRep validCount (2 ^ 53)) (fun _ _ h => h)
    (fun b b1 b2 len L _ =>
      std_core (nanMeanRow_nrep exact_f64) (nrep_clear additive_valid _ _) lo hi b b1 b2 len L)
    (fun b b1 b2 => std_pass (nanMeanRow_nrep exact_f64) lo hi b b1 b2)
    (Q := fun L o => ∃ v, o = some v ∧ IsNanMean (2 ^ 53) L v)
    (fun L L' o hp ⟨v, e, hv⟩ => ⟨v, e, isNanMean_perm hp hv⟩)
    (fun Ls a ha => ngat_mean Ls a ha) (ok := fun _ => True)
    (fun b b1 b2 _ => by
      obtain ⟨c, hc, e⟩ := std_seq (fin := meanFin (valArith .f64)) (nanMeanRow_nrep exact_f64)
        (nrep_clear additive_valid (2 ^ 53) (none : Option D)) lo hi b b1 b2 rows.length
        (valsOf rows b)
      rw [e]
      exact nrep_meanFin _ _ hc)
    (fun _ _ _ _ _ _ => trivial)
  obtain ⟨out, h1, h2, h3⟩ := key
  refine ⟨out, h1, h2, fun b b1 b2 => ?_⟩
  obtain ⟨o, ho, v, rfl, hv⟩ := h3 b b1 b2 trivial
  exact ⟨v, ho, hv⟩

/-- Two bins, one with an invalid row. -/
def exRows : List (Int × Option Int) :=
  [(1, some 10), (2, some 7), (1, some (-4)), (2, none), (0, some 1), (7, some 1)]

example : groupByAll (aggMean (valArith .f64) : Agg (Option Int) Val Unit) 4 1 4 exRows none =
    some [none, some (.quot 6 2), some .nan, some .nan] := by decide +kernel
example : groupByAll (aggNanMean (valArith .f64) : Agg (Option Int) Val Unit) 4 1 4 exRows none =
    some [none, some (.quot 6 2), some (.quot 7 1), some .nan] := by decide +kernel
example : CoreSched 3 exRows.length false none := .direct (.inl (by decide))
example : IsMean (2 ^ 53) [some 10, some (-4)] (.quot 6 2) :=
  ⟨fun h => by simp at h, fun _ _ => ⟨6, rfl, fun _ => rfl⟩⟩
example : IsNanMean (2 ^ 53) [some 7, none] (.quot 7 1) :=
  ⟨fun h => by simp [validVals] at h, fun _ => ⟨7, rfl, fun _ => rfl⟩⟩
example : IsSum (2 ^ 53) [some 7, none] .nan := ⟨fun _ => rfl, fun h => by simp at h⟩
example : IsNanSum (2 ^ 53) [some 7, none] (.num 7) := ⟨7, rfl, fun _ => rfl⟩

end Riptide.GroupBy
