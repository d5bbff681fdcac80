import Verif.GroupBy.SumProps
import Verif.Reduce.SumLemmas
/-! Sums and means with floating-point totals: the parts shared by all accumulators. -/
namespace Riptide.GroupBy
open Riptide.Work Spec

variable {D : Type}

/-- `r` keeps the integers below `M`. -/
def Exact (r : Int → Int) (M : Nat) : Prop := ∀ n : Int, n.natAbs < M → r n = n

theorem exact_f64 : Exact (rndTo .f64) (2 ^ 53) := fun _ h => Reduce.rnd_exact h

theorem exact_f32 : Exact (rndTo .f32) (2 ^ 24) := fun _ h =>
  Convert.trunc_exact _ (Convert.ofInt_exact .f32 Convert.good_f32 h)

/-- `v` is a number holding the total of the valid elements of `L`. -/
def Acc (M : Nat) (L : List (Option Int)) (v : Val) : Prop :=
  ∃ s, v = .num s ∧ Total M (validVals L) s

theorem natAbs_sum_le (l : List Int) : l.sum.natAbs ≤ (l.map Int.natAbs).sum := by
  induction l with
  | nil => simp
  | cons x xs ih => simp only [List.sum_cons, List.map_cons]; omega

theorem validVals_append (L L' : List (Option Int)) :
    validVals (L ++ L') = validVals L ++ validVals L' := by simp [validVals]

theorem total_append {r : Int → Int} {M : Nat} (hr : Exact r M) {a b : List Int} {s s' : Int}
    (h : Total M a s) (h' : Total M b s') : Total M (a ++ b) (r (s + s')) := by
  intro hb
  rw [List.map_append, List.sum_append] at hb
  rw [h (by omega), h' (by omega), List.sum_append]
  refine hr _ ?_
  have h1 := natAbs_sum_le a
  have h2 := natAbs_sum_le b
  omega

theorem acc_zero (M : Nat) : Acc M [] (.num 0) := ⟨0, rfl, fun _ => rfl⟩

theorem acc_merge {r : Int → Int} {M : Nat} (hr : Exact r M) {L L' : List (Option Int)} {v v' : Val}
    (h : Acc M L v) (h' : Acc M L' v') : Acc M (L ++ L') (Val.add r v v') := by
  obtain ⟨s, rfl, hs⟩ := h
  obtain ⟨s', rfl, hs'⟩ := h'
  exact ⟨_, rfl, by rw [validVals_append]; exact total_append hr hs hs'⟩

theorem acc_one {r : Int → Int} {M : Nat} (hr : Exact r M) (x : Int) :
    Acc M [some x] (Val.ofCol r (some x)) := by
  refine ⟨r x, rfl, fun h => ?_⟩
  have e : validVals [some x] = [x] := rfl
  rw [e] at h ⊢
  simp only [List.map_cons, List.map_nil, List.sum_cons, List.sum_nil] at h ⊢
  rw [hr x (by omega)]
  omega

theorem acc_none {M : Nat} {L : List (Option Int)} {v : Val} (h : Acc M L v) :
    Acc M (L ++ [none]) v := by
  obtain ⟨s, rfl, hs⟩ := h
  exact ⟨s, rfl, by rw [validVals_append]; simpa [validVals] using hs⟩

theorem acc_perm {M : Nat} {L L' : List (Option Int)} {v : Val} (hp : L.Perm L') (h : Acc M L v) :
    Acc M L' v := by
  obtain ⟨s, rfl, hs⟩ := h
  refine ⟨s, rfl, fun hb => ?_⟩
  have h1 : (validVals L).Perm (validVals L') := hp.filterMap id
  have e : ((validVals L').map Int.natAbs).sum = ((validVals L).map Int.natAbs).sum :=
    (h1.map Int.natAbs).symm.sum_nat
  rw [hs (by omega), sum_perm h1]

theorem acc_round {r : Int → Int} {M M' : Nat} (hr : Exact r M') (hM : M' ≤ M)
    {L : List (Option Int)} {v : Val} (h : Acc M L v) : Acc M' L (Val.round r v) := by
  obtain ⟨s, rfl, hs⟩ := h
  refine ⟨_, rfl, fun hb => ?_⟩
  rw [hs (by omega)]
  exact hr _ (by have := natAbs_sum_le (validVals L); omega)

/-! ## Cells -/

/-- A cell whose bin an invalid row spoils; `cf` tells what the counter holds. -/
def SRep (cf : List (Option Int) → Nat) (M : Nat) (L : List (Option Int)) (c : Cell Val D) : Prop :=
  (none ∈ L → c.cnt = -1 ∧ c.out = some .nan) ∧
  (none ∉ L → c.cnt = cf L ∧ ∃ v, c.out = some v ∧ Acc M L v)

/-- A cell that skips invalid rows. -/
def NRep (cf : List (Option Int) → Nat) (M : Nat) (L : List (Option Int)) (c : Cell Val D) : Prop :=
  c.cnt = cf L ∧ ∃ v, c.out = some v ∧ Acc M L v

/-- The same for the temporary totals of float32 columns, without the output. -/
def STmp (cf : List (Option Int) → Nat) (L : List (Option Int)) (c : Cell Val Val) : Prop :=
  (none ∈ L → c.cnt = -1) ∧
  (none ∉ L → c.cnt = cf L ∧ ∃ v, c.tmp = some v ∧ Acc (2 ^ 53) L v)

def NTmp (cf : List (Option Int) → Nat) (L : List (Option Int)) (c : Cell Val Val) : Prop :=
  c.cnt = cf L ∧ ∃ v, c.tmp = some v ∧ Acc (2 ^ 53) L v

/-- What the gather loop knows, for the two kinds. -/
def SGat (cf : List (Option Int) → Nat) (M : Nat) (Ls : List (List (Option Int))) (g : Gat Val) :
    Prop :=
  (none ∈ Ls.flatten → g.inv = -1 ∧ g.out = some .nan) ∧
  (none ∉ Ls.flatten → g.inv ≠ -1 ∧ g.total = cf Ls.flatten ∧
    ∃ v, g.out = some v ∧ Acc M Ls.flatten v)

def NGat (cf : List (Option Int) → Nat) (M : Nat) (Ls : List (List (Option Int))) (g : Gat Val) :
    Prop :=
  g.total = cf Ls.flatten ∧ ∃ v, g.out = some v ∧ Acc M Ls.flatten v

/-- The number kept in the counters of sums: none. -/
def noCount (_ : List (Option Int)) : Nat := 0

/-- The number kept in the counters of means. -/
def allCount (L : List (Option Int)) : Nat := L.length

/-- The number kept in the counters of NaN means. -/
def validCount (L : List (Option Int)) : Nat := (validVals L).length

/-- `cf` counts rows. -/
def Additive (cf : List (Option Int) → Nat) : Prop := cf [] = 0 ∧ ∀ a b, cf (a ++ b) = cf a + cf b

theorem additive_no : Additive noCount := ⟨rfl, fun _ _ => rfl⟩
theorem additive_all : Additive allCount := ⟨rfl, fun _ _ => by simp [allCount]⟩
theorem additive_valid : Additive validCount :=
  ⟨rfl, fun _ _ => by simp [validCount, validVals_append]⟩

theorem gatherSum_eq_mean {f : FT} {j : Nat} {g : Gat Val} {c : Cell Val D}
    (h : g.inv = -1 ∨ cntOf j g c = -1 ∨ cntOf j g c = 0) :
    gatherSum (valArith f) j g c = gatherMean (valArith f) j g c := by
  unfold gatherSum gatherMean
  split
  · rfl
  · next h0 =>
    split
    · rfl
    · next h1 =>
      have : cntOf j g c = 0 := by
        rcases h with h | h | h
        · exact absurd h h0
        · exact absurd h h1
        · exact h
      rw [this, Int.add_zero]

theorem gatherNanSum_eq_mean {f : FT} {j : Nat} {g : Gat Val} {c : Cell Val D} (h : c.cnt = 0) :
    gatherNanSum (valArith f) j g c = gatherNanMean (valArith f) j g c := by
  unfold gatherNanSum gatherNanMean
  rw [h, Int.add_zero]

/-- The first core. -/
theorem sgat_one {cf : List (Option Int) → Nat} {f : FT} {M : Nat} (hr : Exact (rndTo f) M)
    (L : List (Option Int)) (c : Cell Val D) (hc : SRep cf M L c) :
    SGat cf M [L] (gatherMean (valArith f) 0 ⟨some (.num 0), c.cnt, 0⟩ c) := by
  unfold gatherMean cntOf SGat
  have e : [L].flatten = [] ++ L := by simp
  rw [e]
  by_cases hL : none ∈ L
  · obtain ⟨a1, a2⟩ := hc.1 hL
    rw [a1, if_pos rfl, if_pos rfl]
    exact ⟨fun _ => ⟨rfl, rfl⟩, fun hn => absurd hL hn⟩
  · obtain ⟨a1, v, a2, a3⟩ := hc.2 hL
    rw [if_neg (by show ¬ c.cnt = -1; omega), if_pos rfl,
      if_neg (by show ¬ c.cnt = -1; omega)]
    refine ⟨fun hn => absurd hn hL, fun _ => ⟨by show c.cnt ≠ -1; omega, ?_, ?_⟩⟩
    · show (0 : Int) + c.cnt = _
      rw [a1, List.nil_append]; omega
    · refine ⟨_, ?_, acc_merge hr (acc_zero M) a3⟩
      show plusO _ (some (Val.num 0)) c.out = _
      rw [a2]; rfl

/-- A further core. -/
theorem sgat_step {cf : List (Option Int) → Nat} {f : FT} {M : Nat} (hr : Exact (rndTo f) M)
    (hcf : Additive cf) (j : Nat) (Ls : List (List (Option Int))) (L : List (Option Int))
    (a : Gat Val) (c : Cell Val D) (hj : 0 < j) (ha : SGat cf M Ls a) (hc : SRep cf M L c) :
    SGat cf M (Ls ++ [L]) (gatherMean (valArith f) j a c) := by
  unfold gatherMean cntOf SGat
  have e : (Ls ++ [L]).flatten = Ls.flatten ++ L := by simp
  rw [e, if_neg (show ¬ j = 0 by omega), if_neg (show ¬ j = 0 by omega)]
  by_cases hLs : none ∈ Ls.flatten
  · obtain ⟨a1, a2⟩ := ha.1 hLs
    rw [if_pos a1]
    exact ⟨fun _ => ⟨a1, a2⟩, fun hn => absurd (List.mem_append_left _ hLs) hn⟩
  · obtain ⟨a1, at1, w, a2, a3⟩ := ha.2 hLs
    rw [if_neg a1]
    by_cases hL : none ∈ L
    · obtain ⟨b1, b2⟩ := hc.1 hL
      rw [if_pos b1]
      exact ⟨fun _ => ⟨rfl, rfl⟩, fun hn => absurd (List.mem_append_right _ hL) hn⟩
    · obtain ⟨b1, v, b2, b3⟩ := hc.2 hL
      rw [if_neg (by omega)]
      refine ⟨fun hm => ?_, fun _ => ⟨a1, ?_, ?_⟩⟩
      · rcases List.mem_append.mp hm with hm | hm
        · exact absurd hm hLs
        · exact absurd hm hL
      · show a.total + c.cnt = _
        rw [at1, b1, hcf.2]; omega
      · refine ⟨_, ?_, acc_merge hr a3 b3⟩
        show plusO _ a.out c.out = _
        rw [a2, b2]; rfl

theorem ngat_step {cf : List (Option Int) → Nat} {f : FT} {M : Nat} (hr : Exact (rndTo f) M)
    (hcf : Additive cf) (j : Nat) (Ls : List (List (Option Int))) (L : List (Option Int))
    (a : Gat Val) (c : Cell Val D) (ha : NGat cf M Ls a) (hc : NRep cf M L c) :
    NGat cf M (Ls ++ [L]) (gatherNanMean (valArith f) j a c) := by
  obtain ⟨at1, w, a2, a3⟩ := ha
  obtain ⟨b1, v, b2, b3⟩ := hc
  unfold gatherNanMean NGat
  have e : (Ls ++ [L]).flatten = Ls.flatten ++ L := by simp
  rw [e]
  refine ⟨?_, _, ?_, acc_merge hr a3 b3⟩
  · show a.total + c.cnt = _
    rw [at1, b1, hcf.2]; omega
  · show plusO _ a.out c.out = _
    rw [a2, b2]; rfl

/-- Sums and means spoiled by an invalid row, on both paths. -/
theorem strict_all {cf : List (Option Int) → Nat} {f : FT} {M : Nat} (hr : Exact (rndTo f) M)
    (hcf : Additive cf) {g : Agg (Option Int) Val D} {n lo hi workers : Nat} {nt : Bool}
    {rows : List (Int × Option Int)} {par : Option (List (List Nat))}
    (hs : CoreSched workers rows.length nt par) (h : lo ≤ hi ∧ hi ≤ n)
    {G : Int → Nat → Nat → List (Option Int) → Cell Val D → Cell Val D}
    (hk : ∀ pass rs, CW n (g.kernel lo hi pass rs) (fun b c => G pass rs.length b (valsOf rs b) c))
    (hstart : g.start = .num 0)
    (hstep : g.step = gatherMean (valArith f) ∨
      (g.step = gatherSum (valArith f) ∧ cf = noCount))
    {CRep : List (Option Int) → Cell Val D → Prop}
    (hrep : ∀ L c, CRep L c → SRep cf M L c)
    (hc0 : ∀ b, lo ≤ b → b < hi → ∀ len L, CRep L (G 0 len b L ⟨none, 0, none⟩))
    (hcs : ∀ b, lo ≤ b → b < hi → ∀ p len L L' c, 0 < p → CRep L c →
      CRep (L ++ L') (G p len b L' c))
    {Q : List (Option Int) → Option Val → Prop} (hQ : ∀ L L' o, L.Perm L' → Q L o → Q L' o)
    (hfin : ∀ Ls a, SGat cf M Ls a → Q Ls.flatten (g.fin a))
    (hseq : ∀ b, lo ≤ b → b < hi →
      Q (valsOf rows b) (G (-1) rows.length b (valsOf rows b) ⟨none, 0, none⟩).out) :
    ∃ out, groupByAll g n lo hi rows par = some out ∧ out.length = n ∧
      ∀ b, lo ≤ b → b < hi → ∃ o, out[b]? = some o ∧ Q (valsOf rows b) o := by
  refine groupByAll_bins hs ?_ ?_
  · obtain ⟨out, h1, h2, h3⟩ := sequential_cells (k := g.kernel lo hi) rows hk
    exact ⟨out, h1, h2, fun b hb1 hb2 => ⟨_, h3 b (by omega), hseq b hb1 hb2⟩⟩
  · intro cores hp
    have one : ∀ L c, SRep cf M L c → SGat cf M [L] (g.step 0 ⟨some g.start, c.cnt, 0⟩ c) := by
      intro L c hc
      have := sgat_one hr L c hc
      rw [hstart]
      rcases hstep with e | ⟨e, e2⟩
      · rw [e]; exact this
      · rw [e, gatherSum_eq_mean]
        · exact this
        · by_cases hL : none ∈ L
          · exact .inl (hc.1 hL).1
          · refine .inr (.inr ?_)
            have := (hc.2 hL).1
            rw [e2] at this
            exact this
    have step : ∀ j Ls L a c, 0 < j → SGat cf M Ls a → SRep cf M L c →
        SGat cf M (Ls ++ [L]) (g.step j a c) := by
      intro j Ls L a c hj ha hc
      have := sgat_step hr hcf j Ls L a c hj ha hc
      rcases hstep with e | ⟨e, e2⟩
      · rw [e]; exact this
      · rw [e, gatherSum_eq_mean]
        · exact this
        · unfold cntOf
          rw [if_neg (show ¬ j = 0 by omega)]
          by_cases hL : none ∈ L
          · exact .inr (.inl (hc.1 hL).1)
          · refine .inr (.inr ?_)
            have := (hc.2 hL).1
            rw [e2] at this
            exact this
    obtain ⟨out, h1, h2, h3⟩ := scattered_bins (g := g) h rows hk (CRep := fun _ => CRep)
      (R := fun _ => SGat cf M) hc0 hcs
      (fun b _ _ => ⟨fun h => by simp at h, fun _ => ⟨by simp, by simp [hcf.1],
        .num 0, by rw [hstart], acc_zero M⟩⟩)
      (fun b _ _ L c hc => one L c (hrep L c hc))
      (fun b _ _ j Ls L a c hj ha hc => step j Ls L a c hj ha (hrep L c hc)) cores
    refine ⟨out, h1, h2, fun b hb1 hb2 => ?_⟩
    obtain ⟨a, ha, hr⟩ := h3 b hb1 hb2
    exact ⟨_, ha, hQ _ _ _ (workVals_perm rows b hp) (hfin _ _ hr)⟩

/-- Sums and means that skip invalid rows, on both paths; `P` bounds the lengths of the blocks. -/
theorem nan_all {cf : List (Option Int) → Nat} {f : FT} {M : Nat} (hr : Exact (rndTo f) M)
    (hcf : Additive cf) {g : Agg (Option Int) Val D} {n lo hi workers : Nat} {nt : Bool}
    {rows : List (Int × Option Int)} {par : Option (List (List Nat))}
    (hs : CoreSched workers rows.length nt par) (h : lo ≤ hi ∧ hi ≤ n)
    {G : Int → Nat → Nat → List (Option Int) → Cell Val D → Cell Val D}
    (hk : ∀ pass rs, CW n (g.kernel lo hi pass rs) (fun b c => G pass rs.length b (valsOf rs b) c))
    (hstart : g.start = .num 0)
    (hstep : g.step = gatherNanMean (valArith f) ∨
      (g.step = gatherNanSum (valArith f) ∧ cf = noCount))
    {P : Nat → Nat → Prop} {CRep : List (Option Int) → Cell Val D → Prop}
    (hrep : ∀ L c, CRep L c → NRep cf M L c)
    (hc0 : ∀ b, lo ≤ b → b < hi → ∀ len L, P b len → CRep L (G 0 len b L ⟨none, 0, none⟩))
    (hcs : ∀ b, lo ≤ b → b < hi → ∀ p len L L' c, 0 < p → CRep L c →
      CRep (L ++ L') (G p len b L' c))
    {Q : List (Option Int) → Option Val → Prop} (hQ : ∀ L L' o, L.Perm L' → Q L o → Q L' o)
    (hfin : ∀ Ls a, NGat cf M Ls a → Q Ls.flatten (g.fin a))
    {ok : Nat → Prop}
    (hseq : ∀ b, lo ≤ b → b < hi → ok b →
      Q (valsOf rows b) (G (-1) rows.length b (valsOf rows b) ⟨none, 0, none⟩).out)
    (hP : ∀ b, ok b → ¬ rows.length < big → n * 10 < rows.length →
      ∀ k, k < blockLastGeneric rows.length chunk → P b (blockElems rows k).length) :
    ∃ out, groupByAll g n lo hi rows par = some out ∧ out.length = n ∧
      ∀ b, lo ≤ b → b < hi → ok b → ∃ o, out[b]? = some o ∧ Q (valsOf rows b) o := by
  have hsq : ∃ out, sequential (g.kernel lo hi) n rows = some out ∧ out.length = n ∧
      ∀ b, lo ≤ b → b < hi → ok b → ∃ o, out[b]? = some o ∧ Q (valsOf rows b) o := by
    obtain ⟨out, h1, h2, h3⟩ := sequential_cells (k := g.kernel lo hi) rows hk
    exact ⟨out, h1, h2, fun b hb1 hb2 ho => ⟨_, h3 b (by omega), hseq b hb1 hb2 ho⟩⟩
  unfold groupByAll
  rcases hs.cases with ⟨rfl, _⟩ | ⟨cores, rfl, hbig, hp⟩
  · exact hsq
  · show ∃ out, (if n * 10 < rows.length then _ else _) = some out ∧ _
    split
    · next hn =>
      have step : ∀ j Ls L a c, NGat cf M Ls a → NRep cf M L c →
          NGat cf M (Ls ++ [L]) (g.step j a c) := by
        intro j Ls L a c ha hc
        have := ngat_step hr hcf j Ls L a c ha hc
        rcases hstep with e | ⟨e, e2⟩
        · rw [e]; exact this
        · rw [e, gatherNanSum_eq_mean]
          · exact this
          · have := hc.1
            rw [e2] at this
            exact this
      have zero : ∀ i, NGat cf M [] ⟨some g.start, i, 0⟩ := fun i =>
        ⟨by simp [hcf.1], .num 0, by rw [hstart], acc_zero M⟩
      obtain ⟨out, h1, h2, h3⟩ := scattered_bins' (g := g) h rows hk 
        (P := fun n => ∃ k, k < blockLastGeneric rows.length chunk ∧ n = (blockElems rows k).length)
        (CRep := fun b L c => (∀ k, k < blockLastGeneric rows.length chunk →
          P b (blockElems rows k).length) → CRep L c) (R := fun b Ls a =>
          (∀ k, k < blockLastGeneric rows.length chunk → P b (blockElems rows k).length) →
          NGat cf M Ls a) (G := G)
        (fun b b1 b2 len L hn hx => by
          obtain ⟨k, hk, rfl⟩ := hn
          exact hc0 b b1 b2 _ L (hx k hk))
        (fun b b1 b2 p len L L' c hp hc hx => hcs b b1 b2 p len L L' c hp (hc hx))
        (fun b _ _ _ => zero 0)
        (fun b _ _ L c hc hx => step 0 [] L _ c (zero c.cnt) (hrep L c (hc hx)))
        (fun b _ _ j Ls L a c hj ha hc hx => step j Ls L a c (ha hx) (hrep L c (hc hx))) cores
        (fun bs hbs k hk => ⟨k, by
          have : k ∈ cores.flatten := List.mem_flatten.mpr ⟨bs, hbs, hk⟩
          simpa using hp.mem_iff.mp this, rfl⟩)
      refine ⟨out, h1, h2, fun b hb1 hb2 ho => ?_⟩
      obtain ⟨a, ha, hr⟩ := h3 b hb1 hb2
      exact ⟨_, ha, hQ _ _ _ (workVals_perm rows b hp) (hfin _ _ (hr (hP b ho (fun hh => hbig (.inl hh)) hn)))⟩
    · exact hsq

end Riptide.GroupBy
