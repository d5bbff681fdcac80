import Verif.GroupBy.Lemmas
/-! The accumulators, bin by bin. -/
namespace Riptide.GroupBy
open Riptide.Work Spec

variable {T U D : Type}

/-- The effect of one call of a simple accumulator on the cell of bin `b`. -/
def stdG (lo hi : Nat) (clr : Cell U D → Cell U D) (row : T → Cell U D → Cell U D)
    (fin : Cell U D → Cell U D) (pass : Int) (_len b : Nat) (L : List T) (c : Cell U D) : Cell U D :=
  if lo ≤ b ∧ b < hi then
    let c1 := L.foldl (fun c x => row x c) (if pass ≤ 0 then clr c else c)
    if pass < 0 then fin c1 else c1
  else c

theorem cw_std {n lo hi : Nat} (h : lo ≤ hi ∧ hi ≤ n) (clr fin : Cell U D → Cell U D)
    (row : T → Cell U D → Cell U D) (pass : Int) (rs : List (Int × T)) :
    CW n (fun m => ((clearBins pass clr lo hi m).bind (rowLoop row lo hi rs)).bind
      (finishBins pass fin lo hi))
      (fun b c => stdG lo hi clr row fin pass rs.length b (valsOf rs b) c) := by
  refine CW.congr (CW.comp (CW.comp (cw_clear pass clr h) (cw_rowLoop row h.2 rs))
    (cw_finish pass fin h)) ?_
  intro b c _
  unfold stdG
  by_cases hb : lo ≤ b ∧ b < hi
  · simp [hb]
  · simp [hb]

theorem cw_std0 {n lo hi : Nat} (h : lo ≤ hi ∧ hi ≤ n) (clr : Cell U D → Cell U D)
    (row : T → Cell U D → Cell U D) (pass : Int) (rs : List (Int × T)) :
    CW n (fun m => (clearBins pass clr lo hi m).bind (rowLoop row lo hi rs))
      (fun b c => stdG lo hi clr row id pass rs.length b (valsOf rs b) c) := by
  refine CW.congr (CW.comp (cw_clear pass clr h) (cw_rowLoop row h.2 rs)) ?_
  intro b c _
  unfold stdG
  by_cases hb : lo ≤ b ∧ b < hi
  · simp [hb]
  · simp [hb]

/-- The effect of one call of a float32 accumulator that clears `pOut[lo' … hi')`. -/
def fltG (lo' hi' lo hi : Nat) (zero : U) (zd : D) (row : T → Cell U D → Cell U D)
    (copy fin : Cell U D → Cell U D) (pass : Int) (len b : Nat) (L : List T) (c : Cell U D) :
    Cell U D :=
  let c0 := if (lo' ≤ b ∧ b < hi') ∧ pass ≤ 0 then { c with out := some zero } else c
  if lo ≤ b ∧ b < hi then
    let c1 := L.foldl (fun c x => row x c) (if pass ≤ 0 then { c0 with tmp := some zd } else c0)
    let c2 := if hi - lo < len ∨ L ≠ [] then copy c1 else c1
    if pass < 0 then fin c2 else c2
  else c0

theorem cw_flt {n lo' hi' lo hi : Nat} (h' : lo' ≤ hi' ∧ hi' ≤ n) (h : lo ≤ hi ∧ hi ≤ n)
    (zero : U) (zd : D) (row : T → Cell U D → Cell U D) (copy fin : Cell U D → Cell U D)
    (hc : ∀ c, copy (copy c) = copy c) (pass : Int) (rs : List (Int × T)) :
    CW n (fun m => ((((clearBins pass (fun c => { c with out := some zero }) lo' hi' m).bind
      (clearBins pass (fun c => { c with tmp := some zd }) lo hi)).bind
      (rowLoop row lo hi rs)).bind (copyOut copy lo hi rs)).bind (finishBins pass fin lo hi))
      (fun b c => fltG lo' hi' lo hi zero zd row copy fin pass rs.length b (valsOf rs b) c) := by
  refine CW.congr (CW.comp (CW.comp (CW.comp (CW.comp
    (cw_clear pass (fun c : Cell U D => { c with out := some zero }) h')
    (cw_clear pass (fun c : Cell U D => { c with tmp := some zd }) h)) (cw_rowLoop row h.2 rs))
    (cw_copyOut copy hc h rs)) (cw_finish pass fin h)) ?_
  intro b c _
  unfold fltG
  by_cases hb : lo ≤ b ∧ b < hi
  · simp [hb]
  · simp [hb]

theorem cw_flt0 {n lo' hi' lo hi : Nat} (h' : lo' ≤ hi' ∧ hi' ≤ n) (h : lo ≤ hi ∧ hi ≤ n)
    (zero : U) (zd : D) (row : T → Cell U D → Cell U D) (copy : Cell U D → Cell U D)
    (hc : ∀ c, copy (copy c) = copy c) (pass : Int) (rs : List (Int × T)) :
    CW n (fun m => (((clearBins pass (fun c => { c with out := some zero }) lo' hi' m).bind
      (clearBins pass (fun c => { c with tmp := some zd }) lo hi)).bind
      (rowLoop row lo hi rs)).bind (copyOut copy lo hi rs))
      (fun b c => fltG lo' hi' lo hi zero zd row copy id pass rs.length b (valsOf rs b) c) := by
  refine CW.congr (CW.comp (CW.comp (CW.comp
    (cw_clear pass (fun c : Cell U D => { c with out := some zero }) h')
    (cw_clear pass (fun c : Cell U D => { c with tmp := some zd }) h)) (cw_rowLoop row h.2 rs))
    (cw_copyOut copy hc h rs)) ?_
  intro b c _
  unfold fltG
  by_cases hb : lo ≤ b ∧ b < hi
  · simp [hb]
  · simp [hb]

/-- A property kept by every row is kept by the loop. -/
theorem foldl_rep {Rep : List T → Cell U D → Prop} {row : T → Cell U D → Cell U D}
    (h : ∀ L x c, Rep L c → Rep (L ++ [x]) (row x c)) (L' L : List T) (c : Cell U D) (hc : Rep L c) :
    Rep (L ++ L') (L'.foldl (fun c x => row x c) c) := by
  induction L' generalizing L c with
  | nil => simpa using hc
  | cons x xs ih =>
    rw [List.foldl_cons]
    have := ih (L ++ [x]) (row x c) (h L x c hc)
    simpa using this

/-- Both paths of `GroupByAll32`, bin by bin. -/
theorem groupByAll_bins {g : Agg T U D} {n lo hi workers : Nat} {nt : Bool}
    {rows : List (Int × T)} {par : Option (List (List Nat))}
    (hs : CoreSched workers rows.length nt par) {Q : Nat → Option U → Prop}
    (hseq : ∃ out, sequential (g.kernel lo hi) n rows = some out ∧ out.length = n ∧
      ∀ b, lo ≤ b → b < hi → ∃ o, out[b]? = some o ∧ Q b o)
    (hpar : ∀ cores : List (List Nat),
      cores.flatten.Perm (List.range (blockLastGeneric rows.length chunk)) →
      ∃ out, scattered g n lo hi rows cores = some out ∧ out.length = n ∧
      ∀ b, lo ≤ b → b < hi → ∃ o, out[b]? = some o ∧ Q b o) :
    ∃ out, groupByAll g n lo hi rows par = some out ∧ out.length = n ∧
      ∀ b, lo ≤ b → b < hi → ∃ o, out[b]? = some o ∧ Q b o := by
  unfold groupByAll
  rcases hs.cases with ⟨rfl, _⟩ | ⟨cores, rfl, _, hp⟩
  · exact hseq
  · show ∃ out, (if n * 10 < rows.length then _ else _) = some out ∧ _
    split
    · exact hpar cores hp
    · exact hseq

end Riptide.GroupBy
