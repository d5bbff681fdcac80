import Verif.GroupBy.MeanProps
/-! # C24: sums and means of float32 columns -/
namespace Riptide.GroupBy
open Riptide.Work Spec

/-- A float32 cell between two calls: temporary total and output agree. -/
def SRepF (cf : List (Option Int) → Nat) (L : List (Option Int)) (c : Cell Val Val) : Prop :=
  STmp cf L c ∧ SRep cf (2 ^ 24) L c

def NRepF (cf : List (Option Int) → Nat) (L : List (Option Int)) (c : Cell Val Val) : Prop :=
  NTmp cf L c ∧ NRep cf (2 ^ 24) L c

theorem sumRowF_stmp (L : List (Option Int)) (x : Option Int) (c : Cell Val Val)
    (h : STmp noCount L c) : STmp noCount (L ++ [x]) (sumRowF (valArith .f32) valWide x c) := by
  unfold sumRowF
  by_cases hL : none ∈ L
  · rw [if_neg (by have := h.1 hL; omega)]
    exact ⟨fun _ => h.1 hL, fun hn => absurd (List.mem_append_left _ hL) hn⟩
  · obtain ⟨a1, v, a2, a3⟩ := h.2 hL
    rw [if_pos (by omega)]
    cases x with
    | none => exact ⟨fun _ => rfl, fun hn => absurd (by simp) hn⟩
    | some x =>
      rw [if_pos (show (valArith .f32).valid (some x) = true from rfl)]
      refine ⟨fun hm => absurd hm (not_mem_snoc hL), fun _ => ⟨a1, _, ?_,
        acc_merge exact_f64 a3 (acc_one exact_f64 x)⟩⟩
      show plus _ c.tmp _ = _
      rw [a2]; rfl

theorem meanRowF_stmp (L : List (Option Int)) (x : Option Int) (c : Cell Val Val)
    (h : STmp allCount L c) : STmp allCount (L ++ [x]) (meanRowF (valArith .f32) valWide x c) := by
  unfold meanRowF
  by_cases hL : none ∈ L
  · rw [if_neg (by have := h.1 hL; omega)]
    exact ⟨fun _ => h.1 hL, fun hn => absurd (List.mem_append_left _ hL) hn⟩
  · obtain ⟨a1, v, a2, a3⟩ := h.2 hL
    rw [if_pos (by omega)]
    cases x with
    | none => exact ⟨fun _ => rfl, fun hn => absurd (by simp) hn⟩
    | some x =>
      rw [if_neg (by simp [valArith])]
      refine ⟨fun hm => absurd hm (not_mem_snoc hL), fun _ => ⟨?_, _, ?_,
        acc_merge exact_f64 a3 (acc_one exact_f64 x)⟩⟩
      · show c.cnt + 1 = _
        rw [a1]; simp [allCount]
      · show plus _ c.tmp _ = _
        rw [a2]; rfl

theorem nanSumRowF_ntmp (L : List (Option Int)) (x : Option Int) (c : Cell Val Val)
    (h : NTmp noCount L c) : NTmp noCount (L ++ [x]) (nanSumRowF (valArith .f32) valWide x c) := by
  obtain ⟨a1, v, a2, a3⟩ := h
  unfold nanSumRowF
  cases x with
  | none =>
    rw [if_neg (by simp [valArith])]
    exact ⟨a1, v, a2, acc_none a3⟩
  | some x =>
    rw [if_pos (show (valArith .f32).valid (some x) = true from rfl)]
    refine ⟨a1, _, ?_, acc_merge exact_f64 a3 (acc_one exact_f64 x)⟩
    show plus _ c.tmp _ = _
    rw [a2]; rfl

theorem nanMeanRowF_ntmp (L : List (Option Int)) (x : Option Int) (c : Cell Val Val)
    (h : NTmp validCount L c) :
    NTmp validCount (L ++ [x]) (nanMeanRowF (valArith .f32) valWide x c) := by
  obtain ⟨a1, v, a2, a3⟩ := h
  unfold nanMeanRowF
  cases x with
  | none =>
    rw [if_neg (by simp [valArith])]
    exact ⟨by rw [a1]; simp [validCount, validVals], v, a2, acc_none a3⟩
  | some x =>
    rw [if_pos (show (valArith .f32).valid (some x) = true from rfl)]
    refine ⟨?_, _, ?_, acc_merge exact_f64 a3 (acc_one exact_f64 x)⟩
    · show c.cnt + 1 = _
      rw [a1]; simp [validCount, validVals]
    · show plus _ c.tmp _ = _
      rw [a2]; rfl

theorem sumCopyF_rep {cf : List (Option Int) → Nat} (L : List (Option Int)) (c : Cell Val Val)
    (h : STmp cf L c) : SRepF cf L (sumCopyF (valArith .f32) valWide c) := by
  unfold sumCopyF
  by_cases hL : none ∈ L
  · have := h.1 hL
    rw [if_neg (by omega)]
    exact ⟨⟨fun _ => this, fun hn => absurd hL hn⟩, ⟨fun _ => ⟨this, rfl⟩, fun hn => absurd hL hn⟩⟩
  · obtain ⟨a1, v, a2, a3⟩ := h.2 hL
    rw [if_pos (by omega)]
    refine ⟨⟨fun hm => absurd hm hL, fun _ => ⟨a1, v, a2, a3⟩⟩, fun hm => absurd hm hL,
      fun _ => ⟨a1, _, ?_, acc_round exact_f32 (by decide) a3⟩⟩
    show c.tmp.map _ = _
    rw [a2]; rfl

theorem nanCopyF_rep {cf : List (Option Int) → Nat} (L : List (Option Int)) (c : Cell Val Val)
    (h : NTmp cf L c) : NRepF cf L (nanCopyF valWide c) := by
  obtain ⟨a1, v, a2, a3⟩ := h
  refine ⟨⟨a1, v, a2, a3⟩, a1, _, ?_, acc_round exact_f32 (by decide) a3⟩
  show c.tmp.map _ = _
  rw [a2]; rfl

/-- One call of a float32 accumulator on a cell, without clearing and finishing. -/
theorem flt_step {Tmp Rep : List (Option Int) → Cell Val Val → Prop}
    {row : Option Int → Cell Val Val → Cell Val Val} {copy : Cell Val Val → Cell Val Val}
    (hrow : ∀ L x c, Tmp L c → Tmp (L ++ [x]) (row x c)) (hcopy : ∀ L c, Tmp L c → Rep L (copy c))
    {w len : Nat} (L L' : List (Option Int)) (c : Cell Val Val) (hT : Tmp L c)
    (ho : w < len ∨ L' ≠ [] ∨ Rep L c) :
    Rep (L ++ L') (if w < len ∨ L' ≠ [] then copy (L'.foldl (fun c x => row x c) c)
      else L'.foldl (fun c x => row x c) c) := by
  by_cases h : w < len ∨ L' ≠ []
  · rw [if_pos h]
    exact hcopy _ _ (foldl_rep (Rep := Tmp) hrow L' L c hT)
  · rw [if_neg h]
    have he : L' = [] := by
      apply Classical.byContradiction
      exact fun h1 => h (.inr h1)
    subst he
    rw [List.append_nil]
    rcases ho with h1 | h1 | h1
    · exact absurd (.inl h1) h
    · exact absurd rfl h1
    · exact h1

/-- The first call on a core. -/
theorem flt_core {Tmp Rep : List (Option Int) → Cell Val Val → Prop}
    {row : Option Int → Cell Val Val → Cell Val Val} {copy fin : Cell Val Val → Cell Val Val}
    (hrow : ∀ L x c, Tmp L c → Tmp (L ++ [x]) (row x c)) (hcopy : ∀ L c, Tmp L c → Rep L (copy c))
    (hT0 : ∀ o, Tmp [] ⟨o, 0, some (.num 0)⟩)
    (hR0 : Rep [] ⟨some (.num 0), 0, some (.num 0)⟩)
    {lo' hi' lo hi b : Nat} (h1 : lo ≤ b) (h2 : b < hi) (len : Nat) (L : List (Option Int))
    (ho : hi - lo < len ∨ L ≠ [] ∨ (lo' ≤ b ∧ b < hi')) :
    Rep L (fltG lo' hi' lo hi (.num 0) (.num 0) row copy fin 0 len b L ⟨none, 0, none⟩) := by
  unfold fltG
  rw [if_pos (show lo ≤ b ∧ b < hi from ⟨h1, h2⟩)]
  simp only [show ¬ (0 : Int) < 0 by omega, show (0 : Int) ≤ 0 by omega, if_false, if_true, and_true]
  by_cases hb : lo' ≤ b ∧ b < hi'
  · rw [if_pos hb]
    exact flt_step hrow hcopy [] L _ (hT0 _) (.inr (.inr hR0))
  · rw [if_neg hb]
    refine flt_step hrow hcopy [] L _ (hT0 _) ?_
    rcases ho with h | h | h
    · exact .inl h
    · exact .inr (.inl h)
    · exact absurd h hb

/-- A later call. -/
theorem flt_pass {Tmp Rep : List (Option Int) → Cell Val Val → Prop}
    {row : Option Int → Cell Val Val → Cell Val Val} {copy fin : Cell Val Val → Cell Val Val}
    (hrow : ∀ L x c, Tmp L c → Tmp (L ++ [x]) (row x c)) (hcopy : ∀ L c, Tmp L c → Rep L (copy c))
    (hRT : ∀ L c, Rep L c → Tmp L c)
    {lo' hi' lo hi b : Nat} (h1 : lo ≤ b) (h2 : b < hi) (p : Int) (len : Nat)
    (L L' : List (Option Int)) (c : Cell Val Val) (hp : 0 < p) (hc : Rep L c) :
    Rep (L ++ L') (fltG lo' hi' lo hi (.num 0) (.num 0) row copy fin p len b L' c) := by
  unfold fltG
  rw [if_pos (show lo ≤ b ∧ b < hi from ⟨h1, h2⟩)]
  simp only [show ¬ p < 0 by omega, show ¬ p ≤ 0 by omega, if_false, and_false]
  exact flt_step hrow hcopy L L' c (hRT _ _ hc) (.inr (.inr hc))

/-- The only call of the sequential path. -/
theorem flt_seq {Tmp Rep : List (Option Int) → Cell Val Val → Prop}
    {row : Option Int → Cell Val Val → Cell Val Val} {copy fin : Cell Val Val → Cell Val Val}
    (hrow : ∀ L x c, Tmp L c → Tmp (L ++ [x]) (row x c)) (hcopy : ∀ L c, Tmp L c → Rep L (copy c))
    (hT0 : ∀ o, Tmp [] ⟨o, 0, some (.num 0)⟩)
    (hR0 : Rep [] ⟨some (.num 0), 0, some (.num 0)⟩)
    {lo' hi' lo hi b : Nat} (h1 : lo ≤ b) (h2 : b < hi) (len : Nat) (L : List (Option Int))
    (ho : hi - lo < len ∨ L ≠ [] ∨ (lo' ≤ b ∧ b < hi')) :
    ∃ c, Rep L c ∧
      fltG lo' hi' lo hi (.num 0) (.num 0) row copy fin (-1) len b L ⟨none, 0, none⟩ = fin c := by
  have h := flt_core (fin := fin) hrow hcopy hT0 hR0 h1 h2 len L ho
  unfold fltG at h ⊢
  rw [if_pos (show lo ≤ b ∧ b < hi from ⟨h1, h2⟩)] at h ⊢
  simp only [show ¬ (0 : Int) < 0 by omega, show (0 : Int) ≤ 0 by omega, if_false, if_true,
    and_true] at h
  simp only [show (-1 : Int) < 0 by omega, show (-1 : Int) ≤ 0 by omega, if_true, and_true]
  exact ⟨_, h, rfl⟩

/-- The same for the temporary totals, which are always cleared. -/
theorem flt_seq_tmp {Tmp : List (Option Int) → Cell Val Val → Prop}
    {row : Option Int → Cell Val Val → Cell Val Val} {copy fin : Cell Val Val → Cell Val Val}
    (hrow : ∀ L x c, Tmp L c → Tmp (L ++ [x]) (row x c)) (hcopy : ∀ L c, Tmp L c → Tmp L (copy c))
    (hT0 : ∀ o, Tmp [] ⟨o, 0, some (.num 0)⟩)
    {lo' hi' lo hi b : Nat} (h1 : lo ≤ b) (h2 : b < hi) (len : Nat) (L : List (Option Int)) :
    ∃ c, Tmp L c ∧
      fltG lo' hi' lo hi (.num 0) (.num 0) row copy fin (-1) len b L ⟨none, 0, none⟩ = fin c := by
  unfold fltG
  rw [if_pos (show lo ≤ b ∧ b < hi from ⟨h1, h2⟩)]
  simp only [show (-1 : Int) < 0 by omega, show (-1 : Int) ≤ 0 by omega, if_true, and_true]
  by_cases hb : lo' ≤ b ∧ b < hi'
  · rw [if_pos hb]
    exact ⟨_, flt_step hrow hcopy [] L _ (hT0 _) (.inr (.inr (hT0 _))), rfl⟩
  · rw [if_neg hb]
    exact ⟨_, flt_step hrow hcopy [] L _ (hT0 _) (.inr (.inr (hT0 _))), rfl⟩

theorem stmp_clear {cf : List (Option Int) → Nat} (hcf : Additive cf) (o : Option Val) :
    STmp cf [] ⟨o, 0, some (.num 0)⟩ :=
  ⟨fun h => by simp at h, fun _ => ⟨by simp [hcf.1], _, rfl, acc_zero _⟩⟩

theorem ntmp_clear {cf : List (Option Int) → Nat} (hcf : Additive cf) (o : Option Val) :
    NTmp cf [] ⟨o, 0, some (.num 0)⟩ := ⟨by simp [hcf.1], _, rfl, acc_zero _⟩

/-- The end of a sequential float32 mean. -/
theorem stmp_meanFinF (L : List (Option Int)) (c : Cell Val Val) (h : STmp allCount L c) :
    ∃ v, (meanFinF (valArith .f32) valWide c).out = some v ∧ IsMean (2 ^ 53) L v := by
  unfold meanFinF
  by_cases hL : none ∈ L
  · rw [if_neg (by have := h.1 hL; omega)]
    exact ⟨.nan, rfl, fun _ => rfl, fun _ hn => absurd hL hn⟩
  · obtain ⟨ht, v, e, s, rfl, hs⟩ := h.2 hL
    by_cases he : L = []
    · rw [if_neg (by rw [ht, he]; simp [allCount])]
      exact ⟨.nan, rfl, fun _ => rfl, fun hn => absurd he hn⟩
    · have : 0 < L.length := List.length_pos_iff.mpr he
      rw [if_pos (by rw [ht]; unfold allCount; omega)]
      refine ⟨.quot s L.length, ?_, fun hm => ?_, fun _ _ => ⟨s, rfl, hs⟩⟩
      · show c.tmp.map _ = _
        rw [e, ht]; rfl
      · rcases hm with hm | hm
        · exact absurd hm he
        · exact absurd hm hL

theorem ntmp_meanFinF (L : List (Option Int)) (c : Cell Val Val) (h : NTmp validCount L c) :
    ∃ v, (meanFinF (valArith .f32) valWide c).out = some v ∧ IsNanMean (2 ^ 53) L v := by
  unfold meanFinF
  obtain ⟨ht, v, e, s, rfl, hs⟩ := h
  by_cases he : validVals L = []
  · rw [if_neg (by rw [ht]; simp [validCount, he])]
    exact ⟨.nan, rfl, fun _ => rfl, fun hn => absurd he hn⟩
  · have : 0 < (validVals L).length := List.length_pos_iff.mpr he
    rw [if_pos (by rw [ht]; unfold validCount; omega)]
    refine ⟨.quot s (validVals L).length, ?_, fun hm => absurd hm he, fun _ => ⟨s, rfl, hs⟩⟩
    show c.tmp.map _ = _
    rw [e, ht]; rfl

theorem total_mono {M M' : Nat} (h : M' ≤ M) {vs : List Int} {s : Int} (hs : Total M vs s) :
    Total M' vs s := fun hb => hs (by omega)

theorem isMean_mono {M M' : Nat} (h : M' ≤ M) {L : List (Option Int)} {v : Val}
    (hv : IsMean M L v) : IsMean M' L v :=
  ⟨hv.1, fun h1 h2 => by
    obtain ⟨s, e, hs⟩ := hv.2 h1 h2
    exact ⟨s, e, total_mono h hs⟩⟩

theorem isNanMean_mono {M M' : Nat} (h : M' ≤ M) {L : List (Option Int)} {v : Val}
    (hv : IsNanMean M L v) : IsNanMean M' L v :=
  ⟨hv.1, fun h1 => by
    obtain ⟨s, e, hs⟩ := hv.2 h1
    exact ⟨s, e, total_mono h hs⟩⟩

theorem sumCopyF_idem (c : Cell Val Val) :
    sumCopyF (valArith .f32) valWide (sumCopyF (valArith .f32) valWide c) =
      sumCopyF (valArith .f32) valWide c := by
  unfold sumCopyF
  by_cases h : 0 ≤ c.cnt
  · rw [if_pos h]; exact if_pos h
  · rw [if_neg h]; exact if_neg h

theorem nanCopyF_idem (c : Cell Val Val) :
    nanCopyF valWide (nanCopyF valWide c) = nanCopyF valWide c := rfl

/-- C24 for sums of float32 columns: every bin of the range is computed from its rows alone
(never from what the output or the temporary totals held before), on both paths. -/
theorem group_sum_float32 {n lo hi workers : Nat} {nt : Bool}
    {rows : List (Int × Option Int)} {par : Option (List (List Nat))}
    (hs : CoreSched workers rows.length nt par) (h : lo ≤ hi ∧ hi ≤ n) :
    ∃ out, groupByAll (aggSumFloat (valArith .f32) valWide) n lo hi rows par = some out ∧
      out.length = n ∧
      ∀ b, lo ≤ b → b < hi → ∃ v, out[b]? = some (some v) ∧ IsSum (2 ^ 24) (valsOf rows b) v := by
  have key := strict_all (cf := noCount) exact_f32 additive_no
    (g := aggSumFloat (valArith .f32) valWide) hs h
    (G := fltG lo hi lo hi (.num 0) (.num 0) (sumRowF (valArith .f32) valWide)
      (sumCopyF (valArith .f32) valWide) id)
    (fun pass rs => cw_flt0 h h _ _ _ _ sumCopyF_idem pass rs) rfl (.inr ⟨rfl, rfl⟩)
    (CRep := SRepF noCount) (fun _ _ h => h.2)
    (fun b b1 b2 len L => flt_core sumRowF_stmp sumCopyF_rep (stmp_clear additive_no)
      ⟨stmp_clear additive_no _, srep_clear additive_no _ _⟩ b1 b2 len L (.inr (.inr ⟨b1, b2⟩)))
    (fun b b1 b2 => flt_pass sumRowF_stmp sumCopyF_rep (fun _ _ h => h.1) b1 b2)
    (Q := fun L o => ∃ v, o = some v ∧ IsSum (2 ^ 24) L v)
    (fun L L' o hp ⟨v, e, hv⟩ => ⟨v, e, isSum_perm hp hv⟩)
    (fun Ls a ha => sgat_sum Ls a ha)
    (fun b b1 b2 => by
      obtain ⟨c, hc, e⟩ := flt_seq (fin := id) (lo' := lo) (hi' := hi) sumRowF_stmp sumCopyF_rep
        (stmp_clear additive_no) ⟨stmp_clear additive_no _, srep_clear additive_no _ _⟩ b1 b2
        rows.length (valsOf rows b) (.inr (.inr ⟨b1, b2⟩))
      rw [e]
      by_cases hL : none ∈ valsOf rows b
      · exact ⟨_, (hc.2.1 hL).2, fun _ => rfl, fun hn => absurd hL hn⟩
      · obtain ⟨_, v, e, hv⟩ := hc.2.2 hL
        exact ⟨v, e, fun hm => absurd hm hL, fun _ => hv⟩)
  obtain ⟨out, h1, h2, h3⟩ := key
  refine ⟨out, h1, h2, fun b b1 b2 => ?_⟩
  obtain ⟨o, ho, v, rfl, hv⟩ := h3 b b1 b2
  exact ⟨v, ho, hv⟩

/-- C24 and C26 for means of float32 columns. -/
theorem group_mean_float32 {n lo hi workers : Nat} {nt : Bool}
    {rows : List (Int × Option Int)} {par : Option (List (List Nat))}
    (hs : CoreSched workers rows.length nt par) (h : lo ≤ hi ∧ hi ≤ n) :
    ∃ out, groupByAll (aggMeanFloat (valArith .f32) valWide) n lo hi rows par = some out ∧
      out.length = n ∧
      ∀ b, lo ≤ b → b < hi → ∃ v, out[b]? = some (some v) ∧ IsMean (2 ^ 24) (valsOf rows b) v := by
  have key := strict_all (cf := allCount) exact_f32 additive_all
    (g := aggMeanFloat (valArith .f32) valWide) hs h
    (G := fltG lo hi lo hi (.num 0) (.num 0) (meanRowF (valArith .f32) valWide)
      (sumCopyF (valArith .f32) valWide) (meanFinF (valArith .f32) valWide))
    (fun pass rs => cw_flt h h _ _ _ _ _ sumCopyF_idem pass rs) rfl (.inl rfl)
    (CRep := SRepF allCount) (fun _ _ h => h.2)
    (fun b b1 b2 len L => flt_core meanRowF_stmp sumCopyF_rep (stmp_clear additive_all)
      ⟨stmp_clear additive_all _, srep_clear additive_all _ _⟩ b1 b2 len L (.inr (.inr ⟨b1, b2⟩)))
    (fun b b1 b2 => flt_pass meanRowF_stmp sumCopyF_rep (fun _ _ h => h.1) b1 b2)
    (Q := fun L o => ∃ v, o = some v ∧ IsMean (2 ^ 24) L v)
    (fun L L' o hp ⟨v, e, hv⟩ => ⟨v, e, isMean_perm hp hv⟩)
    (fun Ls a ha => sgat_mean Ls a ha)
    (fun b b1 b2 => by
      obtain ⟨c, hc, e⟩ := flt_seq (fin := meanFinF (valArith .f32) valWide) (lo' := lo) (hi' := hi)
        meanRowF_stmp sumCopyF_rep
        (stmp_clear additive_all) ⟨stmp_clear additive_all _, srep_clear additive_all _ _⟩ b1 b2
        rows.length (valsOf rows b) (.inr (.inr ⟨b1, b2⟩))
      rw [e]
      obtain ⟨v, e, hv⟩ := stmp_meanFinF _ _ hc.1
      exact ⟨v, e, isMean_mono (by decide) hv⟩)
  obtain ⟨out, h1, h2, h3⟩ := key
  refine ⟨out, h1, h2, fun b b1 b2 => ?_⟩
  obtain ⟨o, ho, v, rfl, hv⟩ := h3 b b1 b2
  exact ⟨v, ho, hv⟩

/-- No block of the scattered path is shorter than the bin range (`chunk` rows, the last block what
is left of them). -/
def LongBlocks (rows width : Nat) : Prop :=
  width < chunk ∧ (rows % chunk ≠ 0 → width < rows % chunk)

theorem longBlocks_len {α : Type} {xs : List α} {w k : Nat} (h : LongBlocks xs.length w)
    (hk : k < blockLastGeneric xs.length chunk) : w < (blockElems xs k).length := by
  obtain ⟨h1, h2⟩ := h
  unfold blockElems
  rw [List.length_take, List.length_drop]
  have hm : xs.length &&& mask = xs.length % chunk := by
    have : mask = 2 ^ 14 - 1 := by decide
    rw [this, Nat.and_two_pow_sub_one_eq_mod]
    rfl
  have hc : chunk = 16384 := rfl
  unfold blockLen
  rw [hm]
  unfold blockLastGeneric at hk ⊢
  rw [hc] at h1 h2 hk ⊢
  split
  · split <;> omega
  · omega

/-- C24 for NaN sums of float32 columns, as far as it holds: `AccumNanSumFloat` clears the output at
`[0, hi - lo)` instead of `[lo, hi)`, so a bin is computed from its rows alone when it lies below
`hi - lo`, or when no block (on the sequential path: the column) is shorter than the bin range; on
the sequential path also when the bin has a row.  Missing for the full property: all other bins, for
which it is false (`group_nansum_float32_uninitialised`). -/
theorem group_nansum_float32_partial {n lo hi workers : Nat} {nt : Bool}
    {rows : List (Int × Option Int)} {par : Option (List (List Nat))}
    (hs : CoreSched workers rows.length nt par) (h : lo ≤ hi ∧ hi ≤ n) :
    ∃ out, groupByAll (aggNanSumFloat (valArith .f32) valWide) n lo hi rows par = some out ∧
      out.length = n ∧
      ∀ b, lo ≤ b → b < hi →
        (b < hi - lo ∨ (hi - lo < rows.length ∨ valsOf rows b ≠ []) ∧
          (rows.length < big ∨ LongBlocks rows.length (hi - lo))) →
        ∃ v, out[b]? = some (some v) ∧ IsNanSum (2 ^ 24) (valsOf rows b) v := by
  have key := nan_all (cf := noCount) exact_f32 additive_no
    (g := aggNanSumFloat (valArith .f32) valWide) hs h
    (G := fltG 0 (hi - lo) lo hi (.num 0) (.num 0) (nanSumRowF (valArith .f32) valWide)
      (nanCopyF valWide) id)
    (fun pass rs => cw_flt0 ⟨by omega, by omega⟩ h _ _ _ _ nanCopyF_idem pass rs) rfl
    (.inr ⟨rfl, rfl⟩)
    (P := fun b len => b < hi - lo ∨ hi - lo < len)
    (CRep := NRepF noCount) (fun _ _ h => h.2)
    (fun b b1 b2 len L hP => flt_core nanSumRowF_ntmp nanCopyF_rep (ntmp_clear additive_no)
      ⟨ntmp_clear additive_no _, nrep_clear additive_no _ _⟩ b1 b2 len L (by
        rcases hP with hP | hP
        · exact .inr (.inr ⟨by omega, hP⟩)
        · exact .inl hP))
    (fun b b1 b2 => flt_pass nanSumRowF_ntmp nanCopyF_rep (fun _ _ h => h.1) b1 b2)
    (Q := fun L o => ∃ v, o = some v ∧ IsNanSum (2 ^ 24) L v)
    (fun L L' o hp ⟨v, e, hv⟩ => ⟨v, e, isNanSum_perm hp hv⟩)
    (fun Ls a ha => ha.2)
    (ok := fun b => b < hi - lo ∨ (hi - lo < rows.length ∨ valsOf rows b ≠ []) ∧
      (rows.length < big ∨ LongBlocks rows.length (hi - lo)))
    (fun b b1 b2 hok => by
      obtain ⟨c, hc, e⟩ := flt_seq (fin := id) (lo' := 0) (hi' := hi - lo) nanSumRowF_ntmp
        nanCopyF_rep (ntmp_clear additive_no) ⟨ntmp_clear additive_no _, nrep_clear additive_no _ _⟩
        b1 b2 rows.length (valsOf rows b) (by
          rcases hok with h | ⟨h | h, _⟩
          · exact .inr (.inr ⟨by omega, h⟩)
          · exact .inl h
          · exact .inr (.inl h))
      rw [e]
      exact hc.2.2)
    (fun b hok hb _ k hk => by
      rcases hok with h | ⟨_, h | h⟩
      · exact .inl h
      · exact absurd h hb
      · exact .inr (longBlocks_len h hk))
  obtain ⟨out, h1, h2, h3⟩ := key
  refine ⟨out, h1, h2, fun b b1 b2 hok => ?_⟩
  obtain ⟨o, ho, v, rfl, hv⟩ := h3 b b1 b2 hok
  exact ⟨v, ho, hv⟩

/-- C24 and C26 for NaN means of float32 columns, as far as they hold: `AccumNanMeanFloat` has the
same mistake, but on the sequential path the last loop overwrites every bin of the range.  Missing for
the full property: on the scattered path, bins from `hi - lo` on when a block is no longer than the
bin range. -/
theorem group_nanmean_float32_partial {n lo hi workers : Nat} {nt : Bool}
    {rows : List (Int × Option Int)} {par : Option (List (List Nat))}
    (hs : CoreSched workers rows.length nt par) (h : lo ≤ hi ∧ hi ≤ n) :
    ∃ out, groupByAll (aggNanMeanFloat (valArith .f32) valWide) n lo hi rows par = some out ∧
      out.length = n ∧
      ∀ b, lo ≤ b → b < hi →
        (b < hi - lo ∨ rows.length < big ∨ LongBlocks rows.length (hi - lo)) →
        ∃ v, out[b]? = some (some v) ∧ IsNanMean (2 ^ 24) (valsOf rows b) v := by
  have key := nan_all (cf := validCount) exact_f32 additive_valid
    (g := aggNanMeanFloat (valArith .f32) valWide) hs h
    (G := fltG 0 (hi - lo) lo hi (.num 0) (.num 0) (nanMeanRowF (valArith .f32) valWide)
      (nanCopyF valWide) (meanFinF (valArith .f32) valWide))
    (fun pass rs => cw_flt ⟨by omega, by omega⟩ h _ _ _ _ _ nanCopyF_idem pass rs) rfl
    (.inl rfl)
    (P := fun b len => b < hi - lo ∨ hi - lo < len)
    (CRep := NRepF validCount) (fun _ _ h => h.2)
    (fun b b1 b2 len L hP => flt_core nanMeanRowF_ntmp nanCopyF_rep (ntmp_clear additive_valid)
      ⟨ntmp_clear additive_valid _, nrep_clear additive_valid _ _⟩ b1 b2 len L (by
        rcases hP with hP | hP
        · exact .inr (.inr ⟨by omega, hP⟩)
        · exact .inl hP))
    (fun b b1 b2 => flt_pass nanMeanRowF_ntmp nanCopyF_rep (fun _ _ h => h.1) b1 b2)
    (Q := fun L o => ∃ v, o = some v ∧ IsNanMean (2 ^ 24) L v)
    (fun L L' o hp ⟨v, e, hv⟩ => ⟨v, e, isNanMean_perm hp hv⟩)
    (fun Ls a ha => ngat_mean Ls a ha)
    (ok := fun b => b < hi - lo ∨ rows.length < big ∨ LongBlocks rows.length (hi - lo))
    (fun b b1 b2 hok => by
      have ht : ∃ c, NTmp validCount (valsOf rows b) c ∧
          fltG 0 (hi - lo) lo hi (.num 0) (.num 0) (nanMeanRowF (valArith .f32) valWide)
            (nanCopyF valWide) (meanFinF (valArith .f32) valWide) (-1) rows.length b (valsOf rows b)
            ⟨none, 0, none⟩ = meanFinF (valArith .f32) valWide c := by
        exact flt_seq_tmp nanMeanRowF_ntmp (fun L c h => (nanCopyF_rep L c h).1)
          (ntmp_clear additive_valid) b1 b2 rows.length (valsOf rows b)
      obtain ⟨c, hc, e⟩ := ht
      rw [e]
      obtain ⟨v, e, hv⟩ := ntmp_meanFinF _ _ hc
      exact ⟨v, e, isNanMean_mono (by decide) hv⟩)
    (fun b hok hb _ k hk => by
      rcases hok with h | h | h
      · exact .inl h
      · exact absurd h hb
      · exact .inr (longBlocks_len h hk))
  obtain ⟨out, h1, h2, h3⟩ := key
  refine ⟨out, h1, h2, fun b b1 b2 hok => ?_⟩
  obtain ⟨o, ho, v, rfl, hv⟩ := h3 b b1 b2 hok
  exact ⟨v, ho, hv⟩

/-- C24 is false: with bins 1 … 2 of 3 asked for and two rows, `AccumNanSumFloat` clears bins 0 and 1,
so bin 2, which has no row, keeps what the uninitialised output array held. -/
theorem group_nansum_float32_uninitialised :
    groupByAll (aggNanSumFloat (valArith .f32) valWide) 3 1 3 [(0, some 5), (1, some 7)] none =
      some [some (.num 0), some (.num 7), none] := by decide +kernel

example : groupByAll (aggSumFloat (valArith .f32) valWide) 3 1 3 [(0, some 5), (1, some 7)] none =
    some [none, some (.num 7), some (.num 0)] := by decide +kernel
example : groupByAll (aggMeanFloat (valArith .f32) valWide) 4 1 4 exRows none =
    some [none, some (.quot 6 2), some .nan, some .nan] := by decide +kernel
example : groupByAll (aggNanMeanFloat (valArith .f32) valWide) 4 1 4 exRows none =
    some [some (.num 0), some (.quot 6 2), some (.quot 7 1), some .nan] := by decide +kernel
example : groupByAll (aggNanSumFloat (valArith .f32) valWide) 4 1 4 exRows none =
    some [some (.num 0), some (.num 6), some (.num 7), some (.num 0)] := by decide +kernel
example : LongBlocks 40000 5000 := by unfold LongBlocks; decide

end Riptide.GroupBy
