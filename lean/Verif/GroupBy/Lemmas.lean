import Verif.GroupBy.Model
import Verif.GroupBy.Spec
import Verif.Work.Props
/-! Lemmas: every accumulator acts on each bin separately. -/
namespace Riptide.GroupBy
open Riptide.Work Spec

variable {T U D : Type}

/-- `k` acts on arrays of `n` bins cell by cell. -/
def CW (n : Nat) (k : Mem U D → Option (Mem U D)) (f : Nat → Cell U D → Cell U D) : Prop :=
  ∀ m, m.length = n → k m = some (m.mapIdx f)

theorem CW.comp {n : Nat} {k1 k2 : Mem U D → Option (Mem U D)} {f1 f2 : Nat → Cell U D → Cell U D}
    (h1 : CW n k1 f1) (h2 : CW n k2 f2) :
    CW n (fun m => (k1 m).bind k2) (fun b c => f2 b (f1 b c)) := by
  intro m hm
  show (k1 m).bind k2 = _
  rw [h1 m hm, Option.bind_some, h2 _ (by simp [hm]), List.mapIdx_mapIdx]
  rfl

theorem CW.congr {n : Nat} {k : Mem U D → Option (Mem U D)} {f g : Nat → Cell U D → Cell U D}
    (h : CW n k f) (he : ∀ b c, b < n → f b c = g b c) : CW n k g := by
  intro m hm
  rw [h m hm]
  congr 1
  apply List.ext_getElem?
  intro i
  rw [List.getElem?_mapIdx, List.getElem?_mapIdx]
  by_cases hi : i < m.length
  · rw [List.getElem?_eq_getElem hi, Option.map_some, Option.map_some, he i _ (by omega)]
  · rw [List.getElem?_eq_none (by omega)]; rfl

theorem CW.id' {n : Nat} : CW n (fun m : Mem U D => some m) (fun _ c => c) := by
  intro m _
  congr 1
  apply List.ext_getElem?
  intro i
  rw [List.getElem?_mapIdx]
  cases m[i]? <;> rfl

theorem cw_forBins {n lo hi : Nat} (f : Cell U D → Cell U D) (h : lo ≤ hi ∧ hi ≤ n) :
    CW n (forBins f lo hi) (fun b c => if lo ≤ b ∧ b < hi then f c else c) := by
  intro m hm
  unfold forBins
  rw [if_pos (by omega)]

theorem cw_clear {n lo hi : Nat} (pass : Int) (f : Cell U D → Cell U D) (h : lo ≤ hi ∧ hi ≤ n) :
    CW n (clearBins pass f lo hi)
      (fun b c => if (lo ≤ b ∧ b < hi) ∧ pass ≤ 0 then f c else c) := by
  intro m hm
  unfold clearBins
  by_cases hp : pass ≤ 0
  · rw [if_pos hp, cw_forBins f h m hm]
    simp only [hp, and_true]
  · rw [if_neg hp]
    simp only [hp, and_false, if_false]
    exact CW.id' m hm

theorem cw_finish {n lo hi : Nat} (pass : Int) (f : Cell U D → Cell U D) (h : lo ≤ hi ∧ hi ≤ n) :
    CW n (finishBins pass f lo hi)
      (fun b c => if (lo ≤ b ∧ b < hi) ∧ pass < 0 then f c else c) := by
  intro m hm
  unfold finishBins
  by_cases hp : pass < 0
  · rw [if_pos hp, cw_forBins f h m hm]
    simp only [hp, and_true]
  · rw [if_neg hp]
    simp only [hp, and_false, if_false]
    exact CW.id' m hm

theorem valsOf_nil (b : Nat) : valsOf ([] : List (Int × T)) b = [] := rfl

theorem valsOf_cons (r : Int × T) (rows : List (Int × T)) (b : Nat) :
    valsOf (r :: rows) b = if r.1 = (b : Int) then r.2 :: valsOf rows b else valsOf rows b := by
  unfold valsOf
  by_cases h : r.1 = (b : Int)
  · rw [List.filter_cons_of_pos (by simpa using h), if_pos h, List.map_cons]
  · rw [List.filter_cons_of_neg (by simpa using h), if_neg h]

theorem valsOf_append (r1 r2 : List (Int × T)) (b : Nat) :
    valsOf (r1 ++ r2) b = valsOf r1 b ++ valsOf r2 b := by
  simp [valsOf, List.filter_append]

theorem valsOf_flatten (rs : List (List (Int × T))) (b : Nat) :
    valsOf rs.flatten b = (rs.map fun r => valsOf r b).flatten := by
  induction rs with
  | nil => rfl
  | cons r rs ih => rw [List.flatten_cons, valsOf_append, ih, List.map_cons, List.flatten_cons]

theorem valsOf_perm {r1 r2 : List (Int × T)} (h : r1.Perm r2) (b : Nat) :
    (valsOf r1 b).Perm (valsOf r2 b) := (h.filter _).map _

theorem cw_rowLoop {n lo hi : Nat} (f : T → Cell U D → Cell U D) (h : hi ≤ n)
    (rows : List (Int × T)) :
    CW n (rowLoop f lo hi rows)
      (fun b c => if lo ≤ b ∧ b < hi then (valsOf rows b).foldl (fun c x => f x c) c else c) := by
  induction rows with
  | nil =>
    intro m hm
    simp only [valsOf_nil, List.foldl_nil, ite_self]
    exact CW.id' m hm
  | cons r rows ih =>
    intro m hm
    unfold rowLoop
    rw [List.foldlM_cons]
    by_cases hr : (lo : Int) ≤ r.1 ∧ r.1 < (hi : Int)
    · have e : rowStep f lo hi m r = some (m.modify r.1.toNat (f r.2)) := by
        unfold rowStep
        rw [if_pos hr, if_pos (by omega)]
      rw [e]
      refine (ih (m.modify r.1.toNat (f r.2)) (by simp [hm])).trans ?_
      congr 1
      apply List.ext_getElem?
      intro i
      rw [List.getElem?_mapIdx, List.getElem?_mapIdx, List.getElem?_modify]
      by_cases hi' : i < m.length
      · rw [List.getElem?_eq_getElem hi']
        simp only [Option.map_some, Option.map_eq_map]
        by_cases he : r.1 = (i : Int)
        · rw [valsOf_cons, if_pos he, if_pos (show r.1.toNat = i by omega), List.foldl_cons,
            if_pos (by omega), if_pos (by omega)]
        · rw [valsOf_cons, if_neg he, if_neg (show ¬ r.1.toNat = i by omega)]
      · rw [List.getElem?_eq_none (by omega)]; rfl
    · have e : rowStep f lo hi m r = some m := by
        unfold rowStep
        rw [if_neg hr]
      rw [e]
      refine (ih m hm).trans ?_
      congr 1
      apply List.ext_getElem?
      intro i
      rw [List.getElem?_mapIdx, List.getElem?_mapIdx]
      by_cases hi' : i < m.length
      · rw [List.getElem?_eq_getElem hi']
        simp only [Option.map_some]
        by_cases hb : lo ≤ i ∧ i < hi
        · rw [valsOf_cons, if_neg (show ¬ r.1 = (i : Int) by omega)]
        · rw [if_neg hb, if_neg hb]
      · rw [List.getElem?_eq_none (by omega)]; rfl

theorem foldl_const_idem {α β : Type} (f : α → α) (hf : ∀ a, f (f a) = f a) (l : List β) (a : α) :
    l.foldl (fun a _ => f a) a = if l = [] then a else f a := by
  induction l generalizing a with
  | nil => simp
  | cons x l ih =>
    rw [List.foldl_cons, ih, hf, if_neg (List.cons_ne_nil _ _)]
    split <;> rfl

theorem cw_copyOut {n lo hi : Nat} (f : Cell U D → Cell U D) (hf : ∀ c, f (f c) = f c)
    (h : lo ≤ hi ∧ hi ≤ n) (rows : List (Int × T)) :
    CW n (copyOut f lo hi rows)
      (fun b c => if (lo ≤ b ∧ b < hi) ∧ (hi - lo < rows.length ∨ valsOf rows b ≠ []) then f c
        else c) := by
  intro m hm
  unfold copyOut
  by_cases hl : hi - lo < rows.length
  · rw [if_pos hl, cw_forBins f h m hm]
    simp only [hl, true_or, and_true]
  · rw [if_neg hl]
    refine ((cw_rowLoop (fun _ => f) h.2 rows).congr ?_ m hm)
    intro b c _
    simp only [hl, false_or]
    by_cases hb : lo ≤ b ∧ b < hi
    · rw [if_pos hb, foldl_const_idem f hf]
      by_cases hv : valsOf rows b = []
      · rw [if_pos hv, if_neg (by simp [hv])]
      · rw [if_neg hv, if_pos ⟨hb, hv⟩]
    · rw [if_neg hb, if_neg (by simp [hb])]

/-! ## Cores -/

theorem coreRun_cells {k : Kernel T U D} {n : Nat}
    {G : Int → Nat → Nat → List T → Cell U D → Cell U D} (rows : List (Int × T))
    (hk : ∀ pass rs, CW n (k pass rs) (fun b c => G pass rs.length b (valsOf rs b) c))
    (blocks : List Nat) :
    coreRun k n rows blocks = some ((fresh n).mapIdx fun b c => blocks.zipIdx.foldl
      (fun (c : Cell U D) (bp : Nat × Nat) => G (bp.2 : Int) (blockElems rows bp.1).length b
        (valsOf (blockElems rows bp.1) b) c) c) := by
  unfold coreRun
  have gen : ∀ (bs : List (Nat × Nat)) (m : Mem U D), m.length = n →
      bs.foldlM (blockStep k rows) m = some (m.mapIdx fun b c => bs.foldl
        (fun (c : Cell U D) (bp : Nat × Nat) => G (bp.2 : Int) (blockElems rows bp.1).length b
          (valsOf (blockElems rows bp.1) b) c) c) := by
    intro bs
    induction bs with
    | nil =>
      intro m hm
      exact CW.id' m hm
    | cons bp bs ih =>
      intro m hm
      rw [List.foldlM_cons]
      have e : blockStep k rows m bp = some (m.mapIdx fun b c => G (bp.2 : Int)
          (blockElems rows bp.1).length b (valsOf (blockElems rows bp.1) b) c) := hk _ _ m hm
      rw [e]
      refine (ih _ (by simp [hm])).trans ?_
      rw [List.mapIdx_mapIdx]
      rfl
  exact gen _ _ (by simp [fresh])

/-- What a sequence of passes establishes about the cell of one bin. -/
theorem passes_rep {G : Int → Nat → List T → Cell U D → Cell U D} {Rep : List T → Cell U D → Prop}
    {P : Nat → Prop} (h0 : ∀ n L, P n → Rep L (G 0 n L ⟨none, 0, none⟩))
    (hs : ∀ p n L L' c, 0 < p → Rep L c → Rep (L ++ L') (G p n L' c))
    (len : Nat → Nat) (vals : Nat → List T) {blocks : List Nat} (hne : blocks ≠ [])
    (hP : ∀ k ∈ blocks, P (len k)) :
    Rep (blocks.map vals).flatten (blocks.zipIdx.foldl
      (fun (c : Cell U D) (bp : Nat × Nat) => G (bp.2 : Int) (len bp.1) (vals bp.1) c)
      ⟨none, 0, none⟩) := by
  have gen : ∀ (bs : List Nat) (k : Nat) (L : List T) (c : Cell U D), Rep L c →
      Rep (L ++ (bs.map vals).flatten) ((bs.zipIdx (k + 1)).foldl
        (fun (c : Cell U D) (bp : Nat × Nat) => G (bp.2 : Int) (len bp.1) (vals bp.1) c) c) := by
    intro bs
    induction bs with
    | nil => intro k L c h; simpa using h
    | cons b bs ih =>
      intro k L c h
      rw [List.zipIdx_cons, List.foldl_cons, List.map_cons, List.flatten_cons, ← List.append_assoc]
      exact ih (k + 1) _ _ (hs _ _ _ _ _ (by simp only; omega) h)
  cases blocks with
  | nil => exact absurd rfl hne
  | cons b bs =>
    rw [List.zipIdx_cons, List.foldl_cons, List.map_cons, List.flatten_cons]
    exact gen bs 0 _ _ (h0 _ _ (hP b (by simp)))

/-! ## Gathering -/

/-- The values of bin `b` in the blocks of one core. -/
def coreVals (rows : List (Int × T)) (b : Nat) (blocks : List Nat) : List T :=
  valsOf ((blocks.map (blockElems rows)).flatten) b

/-- The values of bin `b`, core by core, for the cores that did some work. -/
def workVals (rows : List (Int × T)) (b : Nat) (cores : List (List Nat)) : List (List T) :=
  (cores.filter fun bs => !bs.isEmpty).map (coreVals rows b)

theorem workVals_perm (rows : List (Int × T)) (b : Nat) {cores : List (List Nat)}
    (h : cores.flatten.Perm (List.range (blockLastGeneric rows.length chunk))) :
    (workVals rows b cores).flatten.Perm (valsOf rows b) := by
  have e : (workVals rows b cores).flatten =
      valsOf ((cores.map fun bs => (bs.map (blockElems rows)).flatten).flatten) b := by
    rw [valsOf_flatten, List.map_map]
    clear h
    induction cores with
    | nil => rfl
    | cons c cs ih =>
      unfold workVals at ih ⊢
      cases c with
      | nil => rw [List.filter_cons_of_neg (by simp), ih]; simp [valsOf_nil]
      | cons x xs =>
        rw [List.filter_cons_of_pos (by simp), List.map_cons, List.flatten_cons, ih,
          List.map_cons, List.flatten_cons]
        rfl
  rw [e]
  exact valsOf_perm (cores_perm rows h) b

/-- The gather loop over the cores. -/
theorem gather_rep {step : Nat → Gat U → Cell U D → Gat U} {start : U}
    {CRep : List T → Cell U D → Prop} {R : List (List T) → Gat U → Prop} {n b : Nat} (hb : b < n)
    (h0 : R [] ⟨some start, 0, 0⟩)
    (h1 : ∀ L c, CRep L c → R [L] (step 0 ⟨some start, c.cnt, 0⟩ c))
    (hs : ∀ j Ls L g c, 0 < j → R Ls g → CRep L c → R (Ls ++ [L]) (step j g c))
    (rows : List (Int × T)) (cores : List (List Nat)) (ms : List (Core U D))
    (hm : cores.length = ms.length)
    (hw : ∀ (i : Nat) bs m, cores[i]? = some bs → ms[i]? = some m → m.didWork = !bs.isEmpty ∧
      m.mem.length = n ∧ (bs = [] → ∀ c, m.mem[b]? = some c → c.cnt = 0) ∧
      (bs ≠ [] → ∀ c, m.mem[b]? = some c → CRep (coreVals rows b bs) c)) :
    R (workVals rows b cores)
      (ms.zipIdx.foldl (gatherCore step b) ⟨some start, inv0 ms b, 0⟩) := by
  have gen : ∀ (cs : List (List Nat)) (ms : List (Core U D)) (k : Nat) Ls g,
      cs.length = ms.length →
      (∀ (i : Nat) bs m, cs[i]? = some bs → ms[i]? = some m → m.didWork = !bs.isEmpty ∧
      m.mem.length = n ∧ (bs = [] → ∀ c, m.mem[b]? = some c → c.cnt = 0) ∧
      (bs ≠ [] → ∀ c, m.mem[b]? = some c → CRep (coreVals rows b bs) c)) → R Ls g →
      R (Ls ++ workVals rows b cs) ((ms.zipIdx (k + 1)).foldl (gatherCore step b) g) := by
    intro cs
    induction cs with
    | nil =>
      intro ms k Ls g hl _ h
      cases ms with
      | nil => simpa [workVals] using h
      | cons _ _ => simp at hl
    | cons bs cs ih =>
      intro ms k Ls g hl hw h
      cases ms with
      | nil => simp at hl
      | cons m ms =>
        have hm0 := hw 0 bs m rfl rfl
        have hrest := fun i bs' m' h1 h2 => hw (i + 1) bs' m' h1 h2
        rw [List.zipIdx_cons, List.foldl_cons]
        by_cases he : bs = []
        · subst he
          have e : gatherCore step b g (m, k + 1) = g := by
            unfold gatherCore
            rw [if_neg (by simp [hm0.1])]
          rw [e]
          have := ih ms (k + 1) Ls g (by simpa using hl) hrest h
          simpa [workVals] using this
        · have hc := hm0.2.2.2 he
          obtain ⟨c, hc'⟩ : ∃ c, m.mem[b]? = some c :=
            ⟨_, List.getElem?_eq_getElem (by have := hm0.2.1; omega)⟩
          have hd : m.didWork = true := by
            rw [hm0.1]; cases bs with | nil => exact absurd rfl he | cons _ _ => rfl
          have e : gatherCore step b g (m, k + 1) = step (k + 1) g c := by
            unfold gatherCore
            simp only [hd, if_true, hc']
          rw [e]
          have := ih ms (k + 1) (Ls ++ [coreVals rows b bs]) _ (by simpa using hl) hrest
            (hs (k + 1) _ _ _ _ (by omega) h (hc c hc'))
          have e2 : workVals rows b (bs :: cs) = coreVals rows b bs :: workVals rows b cs := by
            unfold workVals
            rw [List.filter_cons_of_pos (by cases bs with | nil => exact absurd rfl he | cons _ _ => rfl),
              List.map_cons]
          rw [e2]
          simpa using this
  cases cores with
  | nil =>
    cases ms with
    | nil => simpa [workVals, inv0] using h0
    | cons _ _ => simp at hm
  | cons bs cs =>
    cases ms with
    | nil => simp at hm
    | cons m ms =>
      have hm0 := hw 0 bs m rfl rfl
      have hrest := fun i bs' m' h1 h2 => hw (i + 1) bs' m' h1 h2
      obtain ⟨c, hc'⟩ : ∃ c, m.mem[b]? = some c :=
        ⟨_, List.getElem?_eq_getElem (by have := hm0.2.1; omega)⟩
      have ei : inv0 (m :: ms) b = c.cnt := by
        unfold inv0
        simp only [List.getElem?_cons_zero, hc']
      rw [ei, List.zipIdx_cons, List.foldl_cons]
      by_cases he : bs = []
      · subst he
        have e : gatherCore step b ⟨some start, c.cnt, 0⟩ (m, 0) = ⟨some start, c.cnt, 0⟩ := by
          unfold gatherCore
          rw [if_neg (by simp [hm0.1])]
        rw [e, hm0.2.2.1 rfl c hc']
        have := gen cs ms 0 [] _ (by simpa using hm) hrest h0
        simpa [workVals] using this
      · have hd : m.didWork = true := by
          rw [hm0.1]; cases bs with | nil => exact absurd rfl he | cons _ _ => rfl
        have e : gatherCore step b ⟨some start, c.cnt, 0⟩ (m, 0) =
            step 0 ⟨some start, c.cnt, 0⟩ c := by
          unfold gatherCore
          simp only [hd, if_true, hc']
        rw [e]
        have := gen cs ms 0 [coreVals rows b bs] _ (by simpa using hm) hrest
          (h1 _ _ (hm0.2.2.2 he c hc'))
        have e2 : workVals rows b (bs :: cs) = coreVals rows b bs :: workVals rows b cs := by
          unfold workVals
          rw [List.filter_cons_of_pos (by cases bs with | nil => exact absurd rfl he | cons _ _ => rfl),
            List.map_cons]
        rw [e2]
        simpa using this

/-- The sequential path, bin by bin. -/
theorem sequential_cells {k : Kernel T U D} {n : Nat}
    {G : Int → Nat → Nat → List T → Cell U D → Cell U D} (rows : List (Int × T))
    (hk : ∀ pass rs, CW n (k pass rs) (fun b c => G pass rs.length b (valsOf rs b) c)) :
    ∃ out, sequential k n rows = some out ∧ out.length = n ∧
      ∀ b, b < n → out[b]? = some (G (-1) rows.length b (valsOf rows b) ⟨none, 0, none⟩).out := by
  unfold sequential
  rw [hk (-1) rows (fresh n) (by simp [fresh])]
  refine ⟨_, rfl, by simp [fresh], ?_⟩
  intro b hb
  rw [List.getElem?_map, List.getElem?_mapIdx, fresh, List.getElem?_replicate, if_pos hb]
  rfl

/-- The scattered path, bin by bin, when the lengths of the blocks satisfy `P`. -/
theorem scattered_bins' {g : Agg T U D} {n lo hi : Nat} (hlo : lo ≤ hi ∧ hi ≤ n)
    {G : Int → Nat → Nat → List T → Cell U D → Cell U D} (rows : List (Int × T))
    (hk : ∀ pass rs, CW n (g.kernel lo hi pass rs) (fun b c => G pass rs.length b (valsOf rs b) c))
    {CRep : Nat → List T → Cell U D → Prop} {R : Nat → List (List T) → Gat U → Prop}
    {P : Nat → Prop}
    (hc0 : ∀ b, lo ≤ b → b < hi → ∀ len L, P len → CRep b L (G 0 len b L ⟨none, 0, none⟩))
    (hcs : ∀ b, lo ≤ b → b < hi → ∀ p len L L' c, 0 < p → CRep b L c →
      CRep b (L ++ L') (G p len b L' c))
    (h0 : ∀ b, lo ≤ b → b < hi → R b [] ⟨some g.start, 0, 0⟩)
    (h1 : ∀ b, lo ≤ b → b < hi → ∀ L c, CRep b L c → R b [L] (g.step 0 ⟨some g.start, c.cnt, 0⟩ c))
    (hs : ∀ b, lo ≤ b → b < hi → ∀ j Ls L a c, 0 < j → R b Ls a → CRep b L c →
      R b (Ls ++ [L]) (g.step j a c))
    (cores : List (List Nat)) (hP : ∀ bs ∈ cores, ∀ k ∈ bs, P (blockElems rows k).length) :
    ∃ out, scattered g n lo hi rows cores = some out ∧ out.length = n ∧
      ∀ b, lo ≤ b → b < hi → ∃ a, out[b]? = some (g.fin a) ∧ R b (workVals rows b cores) a := by
  let mk : List Nat → Core U D := fun blocks => ⟨!blocks.isEmpty, (fresh n).mapIdx fun b c =>
    blocks.zipIdx.foldl (fun (c : Cell U D) (bp : Nat × Nat) => G (bp.2 : Int)
      (blockElems rows bp.1).length b (valsOf (blockElems rows bp.1) b) c) c⟩
  have e1 : cores.mapM (scatterCore (g.kernel lo hi) n rows) = some (cores.map mk) := by
    clear h0 h1 hs hP
    induction cores with
    | nil => rfl
    | cons c cs ih =>
      rw [List.mapM_cons, ih]
      have : scatterCore (g.kernel lo hi) n rows c = some (mk c) := by
        unfold scatterCore
        rw [coreRun_cells rows hk c]
        rfl
      rw [this]
      rfl
  unfold scattered
  rw [e1, Option.bind_some]
  unfold gather
  rw [if_pos hlo]
  refine ⟨_, rfl, by simp, ?_⟩
  intro b hb1 hb2
  rw [List.getElem?_map, List.getElem?_range (by omega), Option.map_some, if_pos ⟨hb1, hb2⟩]
  refine ⟨_, rfl, ?_⟩
  refine gather_rep (CRep := CRep b) (R := R b) (n := n) (by omega) (h0 b hb1 hb2)
    (h1 b hb1 hb2) (hs b hb1 hb2) rows cores (cores.map mk) (by simp) ?_
  intro i bs m hi1 hi2
  rw [List.getElem?_map, hi1] at hi2
  have hmk : mk bs = m := by simpa using hi2
  subst hmk
  have hcell : ∀ c, (mk bs).mem[b]? = some c → c = bs.zipIdx.foldl
      (fun (c : Cell U D) (bp : Nat × Nat) => G (bp.2 : Int)
      (blockElems rows bp.1).length b (valsOf (blockElems rows bp.1) b) c) ⟨none, 0, none⟩ := by
    intro c hc
    have hc' : ((fresh n).mapIdx fun b c => bs.zipIdx.foldl (fun (c : Cell U D) (bp : Nat × Nat) =>
      G (bp.2 : Int) (blockElems rows bp.1).length b (valsOf (blockElems rows bp.1) b) c) c)[b]? =
        some c := hc
    rw [List.getElem?_mapIdx, fresh, List.getElem?_replicate, if_pos (by omega)] at hc'
    exact (Option.some.inj hc').symm
  refine ⟨rfl, by simp [mk, fresh], ?_, ?_⟩
  · intro hn c hc
    rw [hcell c hc, hn]
    rfl
  · intro hn c hc
    rw [hcell c hc]
    have := passes_rep (G := fun p n L c => G p n b L c) (Rep := CRep b) (hc0 b hb1 hb2)
      (hcs b hb1 hb2) (fun k => (blockElems rows k).length)
      (fun k => valsOf (blockElems rows k) b) hn (hP bs (List.mem_of_getElem? hi1))
    unfold coreVals
    rw [valsOf_flatten, List.map_map]
    exact this

/-- The scattered path, bin by bin. -/
theorem scattered_bins {g : Agg T U D} {n lo hi : Nat} (hlo : lo ≤ hi ∧ hi ≤ n)
    {G : Int → Nat → Nat → List T → Cell U D → Cell U D} (rows : List (Int × T))
    (hk : ∀ pass rs, CW n (g.kernel lo hi pass rs) (fun b c => G pass rs.length b (valsOf rs b) c))
    {CRep : Nat → List T → Cell U D → Prop} {R : Nat → List (List T) → Gat U → Prop}
    (hc0 : ∀ b, lo ≤ b → b < hi → ∀ len L, CRep b L (G 0 len b L ⟨none, 0, none⟩))
    (hcs : ∀ b, lo ≤ b → b < hi → ∀ p len L L' c, 0 < p → CRep b L c →
      CRep b (L ++ L') (G p len b L' c))
    (h0 : ∀ b, lo ≤ b → b < hi → R b [] ⟨some g.start, 0, 0⟩)
    (h1 : ∀ b, lo ≤ b → b < hi → ∀ L c, CRep b L c → R b [L] (g.step 0 ⟨some g.start, c.cnt, 0⟩ c))
    (hs : ∀ b, lo ≤ b → b < hi → ∀ j Ls L a c, 0 < j → R b Ls a → CRep b L c →
      R b (Ls ++ [L]) (g.step j a c))
    (cores : List (List Nat)) :
    ∃ out, scattered g n lo hi rows cores = some out ∧ out.length = n ∧
      ∀ b, lo ≤ b → b < hi → ∃ a, out[b]? = some (g.fin a) ∧ R b (workVals rows b cores) a :=
  scattered_bins' hlo rows hk (P := fun _ => True) (fun b h1 h2 len L _ => hc0 b h1 h2 len L) hcs h0 h1
    hs cores (fun _ _ _ _ => trivial)

end Riptide.GroupBy
