import Verif.Pack.Sums
/-! **C21** and the counting-sort half of **C20**. -/
namespace Riptide.Pack
open Riptide.Work Spec

/-! ## C21 -/

theorem segs_ne_nil {rows fw m : Nat} (hr : 0 < rows) (hf : 0 < fw) :
    segmentBins rows fw m ≠ [] := by
  intro h
  have := (segmentBins_tile rows fw m hf).1
  rw [h] at this
  cases this
  omega

theorem sum_counts (keys : List Int) {segs : List (Nat × Nat)} (ht : Tiles 0 keys.length segs)
    (b : Nat) : (segs.map fun s => (rowsIn keys s.1 s.2 b).length).sum = (rowsOf keys b).length := by
  have := (rowsIn_tiles keys b ht).2
  rw [← rowsIn_all, ← this, List.length_flatMap]

/-- **C21**: for every array, every number of bins, any number of workers and every order in which
the work items are executed, `BinCount` returns the number of rows of each bin; keys outside
`[0, bins)` are not counted. -/
theorem binCount_exact {keys : List Int} {bins fw workers : Nat} {nt : Bool} {calls : List Nat}
    (hb : 0 < bins) (hr : 0 < keys.length) (hf : 0 < fw)
    (hc : CountedWork workers (segmentBins keys.length fw 31).length nt calls) :
    binCount keys bins fw nt calls =
      some (some ((List.range bins).map fun b : Nat => keys.count (b : Int))) := by
  have htile := (segmentBins_tile keys.length fw 31 hf).1
  unfold binCount
  rw [if_neg (by omega)]
  split
  · rw [perCore_eq htile hc.perm]
    simp only [Option.bind_eq_bind, Option.bind_some]
    have := sumCores_eq (bins := bins) (f := fun s b => (rowsIn keys s.1 s.2 b).length)
      (segs_ne_nil (m := 31) hr hf)
    unfold countsIn
    rw [this]
    simp only [Option.bind_some]
    congr 2
    apply List.map_congr_left
    intro b _
    rw [sum_counts keys htile, length_rowsOf]
  · rw [binCountAlgo_eq (Nat.le_refl _)]
    simp only [Option.map_some]
    congr 2
    unfold countsIn
    apply List.map_congr_left
    intro b _
    simp only
    rw [rowsIn_all, length_rowsOf]

/-- The counts fit the type of the returned array. -/
theorem binCount_fits {keys : List Int} (b : Int) (h : keys.length < 2 ^ 63) :
    (outType keys.length).InRange (keys.count b : Int) :=
  outType_fits h List.count_le_length

/-- Without rows or bins `BinCount` raises an error. -/
theorem binCount_error (keys : List Int) (bins fw : Nat) (nt : Bool) (calls : List Nat)
    (h : bins = 0 ∨ keys.length = 0) : binCount keys bins fw nt calls = some none := by
  unfold binCount; rw [if_pos h]

example : binCount [0, 2, 2, -5, 7, 1, 2] 4 3 false [] = some (some [1, 1, 3, 0]) := by decide
/-- Two cores. -/
example : (perCore [0, 2, 2, 9, 1, 2] [(0, 3), (3, 6)] 3 [1, 0]).bind sumCores =
    some [1, 1, 3] := by decide

/-! ## Steps of the work items, per cursor -/

theorem filter_putStep {keys : List Int} {lo hi base b : Nat} (h1 : lo ≤ b) (h2 : b < hi) :
    ∀ l : List Nat, (l.filterMap (putStep keys lo hi base)).filter (fun e => e.cur == base + b) =
      (l.filter fun i => keys[i]? == some (b : Int)).map (Ev.put (base + b)) := by
  intro l
  induction l with
  | nil => rfl
  | cons i l ih =>
    rw [List.filterMap_cons, List.filter_cons]
    cases hk : keys[i]? with
    | none =>
      have : putStep keys lo hi base i = none := by simp [putStep, hk]
      simp only [this]
      rw [ih]; simp
    | some k =>
      by_cases hkb : k = (b : Int)
      · subst hkb
        have : putStep keys lo hi base i = some (Ev.put (base + b) i) := by
          simp only [putStep, hk]
          rw [if_pos (by omega)]
          simp
        simp only [this]
        rw [List.filter_cons, if_pos (by simp [Ev.cur]), ih]
        simp
      · have hne : ¬ ((some k == some (b : Int)) = true) := by simpa using hkb
        rw [if_neg hne]
        by_cases hr : (lo : Int) ≤ k ∧ k < (hi : Int)
        · have : putStep keys lo hi base i = some (Ev.put (base + k.toNat) i) := by
            simp only [putStep, hk]
            rw [if_pos hr]
          simp only [this]
          rw [List.filter_cons, if_neg (by simp [Ev.cur]; omega), ih]
        · have : putStep keys lo hi base i = none := by
            simp only [putStep, hk]
            rw [if_neg hr]
          simp only [this]
          exact ih

theorem putStep_cur {keys : List Int} {lo hi base i : Nat} {e : Ev}
    (h : putStep keys lo hi base i = some e) :
    ∃ b, lo ≤ b ∧ b < hi ∧ e.cur = base + b := by
  unfold putStep at h
  cases hk : keys[i]? with
  | none => rw [hk] at h; cases h
  | some k =>
    rw [hk] at h
    simp only at h
    split at h
    · cases h
      exact ⟨k.toNat, by omega, by omega, rfl⟩
    · cases h

theorem filter_putStep_nil {keys : List Int} {lo hi base c : Nat} (l : List Nat)
    (h : ∀ b, lo ≤ b → b < hi → base + b ≠ c) :
    (l.filterMap (putStep keys lo hi base)).filter (fun e => e.cur == c) = [] := by
  rw [List.filter_eq_nil_iff]
  intro e he
  obtain ⟨i, _, hi⟩ := List.mem_filterMap.1 he
  obtain ⟨b, h1, h2, h3⟩ := putStep_cur hi
  have := h b h1 h2
  simp only [beq_iff_eq]
  omega

theorem filter_subs (count : List Int) (c : Nat) : ∀ (k lo : Nat),
    ((List.range' lo k).map fun b => Ev.sub b (count[b]?.getD 0)).filter (fun e => e.cur == c) =
      if lo ≤ c ∧ c < lo + k then [Ev.sub c (count[c]?.getD 0)] else [] := by
  intro k
  induction k with
  | zero => intro lo; rw [if_neg (by omega)]; rfl
  | succ k ih =>
    intro lo
    rw [List.range'_succ, List.map_cons, List.filter_cons, ih (lo + 1)]
    by_cases h : lo = c
    · subst h
      rw [if_pos (by simp [Ev.cur]), if_neg (by omega), if_pos (by omega)]
    · rw [if_neg (by simpa [Ev.cur] using h)]
      by_cases h2 : lo + 1 ≤ c ∧ c < lo + 1 + k
      · rw [if_pos h2, if_pos (by omega)]
      · rw [if_neg h2, if_neg (by omega)]

theorem makeIGroup_filter (keys count : List Int) (lo hi c : Nat) (h : lo ≤ hi) :
    (makeIGroup keys count lo hi).filter (fun e => e.cur == c) =
      if lo ≤ c ∧ c < hi then
        (rowsOf keys c).map (Ev.put c) ++ [Ev.sub c (count[c]?.getD 0)] else [] := by
  unfold makeIGroup
  rw [List.filter_append, filter_subs]
  by_cases hc : lo ≤ c ∧ c < hi
  · rw [if_pos hc, if_pos (by omega)]
    have := filter_putStep (keys := keys) (base := 0) hc.1 hc.2 (List.range keys.length)
    rw [Nat.zero_add] at this
    rw [this]; rfl
  · rw [if_neg hc, if_neg (by omega), filter_putStep_nil]
    · rfl
    · intro b h1 h2; omega

theorem tiles_find {lo hi c : Nat} {segs : List (Nat × Nat)} (h : Tiles lo hi segs)
    (h1 : lo ≤ c) (h2 : c < hi) : ∃ (t : Nat) (s : Nat × Nat), segs[t]? = some s ∧ s.1 ≤ c ∧ c < s.2 ∧
      ∀ (t' : Nat) (s' : Nat × Nat), t' ≠ t → segs[t']? = some s' → ¬ (s'.1 ≤ c ∧ c < s'.2) := by
  induction h with
  | nil => omega
  | cons h ht ih =>
    rename_i lo mid hi l
    by_cases hc : c < mid
    · refine ⟨0, (lo, mid), rfl, h1, hc, ?_⟩
      intro t' s' hne hs'
      cases t' with
      | zero => exact absurd rfl hne
      | succ t' =>
        rw [List.getElem?_cons_succ] at hs'
        have := tiles_le ht s' (List.mem_of_getElem? hs')
        omega
    · obtain ⟨t, s, hs, hs1, hs2, hu⟩ := ih (by omega) h2
      refine ⟨t + 1, s, by simpa using hs, hs1, hs2, ?_⟩
      intro t' s' hne hs'
      cases t' with
      | zero =>
        simp only [List.getElem?_cons_zero, Option.some.injEq] at hs'
        subst hs'
        simp only; omega
      | succ t' => exact hu t' s' (by omega) (by simpa using hs')

/-! ## C20: the counting sort of `GroupFromBinCount` -/

/-- The work items of `GroupFromBinCount` for the given bands. -/
def bandJobs (keys count : List Int) (segs : List (Nat × Nat)) (t : Nat) : List Ev :=
  match segs[t]? with
  | none => []
  | some s => bandJob keys count s

/-- The counts that `BinCount` returns for the same keys. -/
def trueCounts (keys : List Int) (bins : Nat) : List Int :=
  (List.range bins).map fun b : Nat => (keys.count (b : Int) : Int)

theorem packBands_tile (rows bins fw : Nat) (nt : Bool) (hf : 0 < fw) :
    Tiles 0 bins (packBands rows bins fw nt) := by
  unfold packBands
  split
  · exact (segmentBins_tile bins fw 0 hf).1
  · exact .cons (Nat.zero_le _) (.nil _)

/-- **C20** for `GroupFromBinCount`, given the counts of the same keys: for every array, every
number of bins, every split of the bins over workers, every order of the work items and every
interleaving of their steps, the slices are exact; `iFirst` is the running sum of the counts.
Rows whose key is outside `[0, bins)` are in no slice. -/
theorem groupFromBinCount_slices {keys : List Int} {bins fw workers : Nat} {nt : Bool}
    {calls : List Nat} {seq : List Ev} (hf : 0 < fw) (hn : keys.length < 2 ^ 63)
    (hc : CountedWork workers (packBands keys.length bins fw nt).length nt calls)
    (hs : Interleaves (calls.map (bandJobs keys (trueCounts keys bins)
      (packBands keys.length bins fw nt))) seq) :
    ∃ group : List (Option Int),
      groupFromBinCount keys (trueCounts keys bins) seq =
        some (group, (List.range bins).map fun b : Nat => some (before keys b : Int)) ∧
      group.length = keys.length ∧
      Slices keys bins group ((List.range bins).map fun b : Nat => some (before keys b : Int))
        ((trueCounts keys bins).map some) := by
  have htile := packBands_tile keys.length bins fw nt hf
  generalize hseg : packBands keys.length bins fw nt = segs at *
  have hcount : trueCounts keys bins =
      (List.range' 0 bins).map fun b => ((rowsOf keys b).length : Int) := by
    unfold trueCounts
    rw [List.range_eq_range']
    apply List.map_congr_left
    intro b _
    rw [length_rowsOf]
  have hcb : ∀ b, b < bins → (trueCounts keys bins)[b]? = some ((rowsOf keys b).length : Int) := by
    intro b hb; rw [hcount]; simp [hb]
  have hcum : cumsum (outType keys.length) 0 (trueCounts keys bins) =
      some ((List.range bins).map fun b : Nat => (before keys b : Int)) := by
    rw [hcount]
    have := cumsum_eq hn bins 0
    rw [List.range_eq_range']
    exact this
  -- the steps touching one cursor
  have hcur : ∀ e ∈ seq, e.cur < bins := by
    intro e he
    obtain ⟨t, ht, hm⟩ := hs.mem_perm hc.perm e he
    unfold bandJobs at hm
    rw [List.getElem?_eq_getElem ht] at hm
    simp only [bandJob] at hm
    have hle := tiles_le htile segs[t] (List.getElem_mem ht)
    have := makeIGroup_filter keys (trueCounts keys bins) segs[t].1 segs[t].2 e.cur hle.2.1
    have hin : e ∈ (makeIGroup keys (trueCounts keys bins) segs[t].1 segs[t].2).filter
        (fun x => x.cur == e.cur) := List.mem_filter.2 ⟨hm, by simp⟩
    rw [this] at hin
    split at hin
    · omega
    · simp at hin
  have hfil : ∀ c, seq.filter (fun e => e.cur == c) =
      ((if c < bins then rowsOf keys c else []).map (Ev.put c)) ++
      (if c < bins then [((rowsOf keys c).length : Int)] else []).map (Ev.sub c) := by
    intro c
    by_cases hcb' : c < bins
    · rw [if_pos hcb', if_pos hcb']
      obtain ⟨t, s, hts, h1, h2, hu⟩ := tiles_find htile (Nat.zero_le c) hcb'
      have htl := (List.getElem?_eq_some_iff.1 hts).1
      have hle := tiles_le htile
      rw [hs.filter_perm hc.perm t htl]
      · unfold bandJobs
        rw [hts]
        simp only [bandJob]
        rw [makeIGroup_filter _ _ _ _ _ (hle s (List.mem_of_getElem? hts)).2.1, if_pos ⟨h1, h2⟩,
          hcb c hcb']
        rfl
      · intro t' ht' hne
        unfold bandJobs
        rw [List.getElem?_eq_getElem ht']
        simp only [bandJob]
        rw [makeIGroup_filter _ _ _ _ _ (hle _ (List.getElem_mem ht')).2.1, if_neg]
        exact hu t' _ hne (List.getElem?_eq_getElem ht')
    · rw [if_neg hcb', if_neg hcb']
      simp only [List.map_nil, List.append_nil]
      rw [List.filter_eq_nil_iff]
      intro e he
      have := hcur e he
      simp only [beq_iff_eq]; omega
  obtain ⟨s', r1, r2, r3, r4, r5, _⟩ := exec_run seq
    ⟨(List.range bins).map fun b : Nat => (before keys b : Int), List.replicate keys.length none⟩
    (fun c => if c < bins then rowsOf keys c else [])
    (fun c => if c < bins then [((rowsOf keys c).length : Int)] else [])
    (fun c => (before keys c : Int))
    (by simpa using hcur) hfil
    (by intro c hc'; simp only [List.length_map, List.length_range] at hc'; simp [hc'])
    (by
      intro c hc' _
      simp only [List.length_map, List.length_range] at hc'
      have := before_le keys (c + 1)
      rw [before_succ] at this
      simp only [hc', if_true, List.length_replicate]
      omega)
    (by
      intro c d hc' hd' hne _ _
      simp only [List.length_map, List.length_range] at hc' hd'
      simp only [hc', hd', if_true]
      rcases Nat.lt_or_gt_of_ne hne with h | h
      · have := before_mono keys h; omega
      · have := before_mono keys h; omega)
  simp only [List.length_map, List.length_range, List.length_replicate] at r2 r3 r4 r5
  have hcurf : s'.cur = (List.range bins).map fun b : Nat => (before keys b : Int) := by
    apply List.ext_getElem?
    intro b
    by_cases hb : b < bins
    · rw [r4 b hb]
      simp [hb]
    · rw [List.getElem?_eq_none (by omega), List.getElem?_eq_none (by simp; omega)]
  refine ⟨s'.group, ?_, r3, ?_⟩
  · unfold groupFromBinCount
    rw [hcum]
    simp only [Option.bind_eq_bind, Option.bind_some]
    rw [r1]
    simp only [Option.bind_some, hcurf, List.map_map]
    rfl
  · intro b hb
    refine ⟨(before keys b : Int), by simp [hb], ?_, ?_⟩
    · rw [List.getElem?_map, hcb b hb]; rfl
    · intro j r hj
      exact r5 b hb j r (by simpa [hb] using hj)

/-! ## C20: `BinCount(pack=True)` -/

theorem makeIGroup2_filter (keys : List Int) {bins t b lo hi : Nat} (hb : b < bins) :
    (makeIGroup2 keys bins t lo hi).filter (fun e => e.cur == t * bins + b) =
      (rowsIn keys lo hi b).map (Ev.put (t * bins + b)) := by
  unfold makeIGroup2 rowsIn
  rw [filter_putStep (Nat.zero_le b) hb]

theorem makeIGroup2_filter_ne (keys : List Int) {bins t t' b lo hi : Nat} (hb : b < bins)
    (hne : t' ≠ t) :
    (makeIGroup2 keys bins t' lo hi).filter (fun e => e.cur == t * bins + b) = [] := by
  unfold makeIGroup2
  apply filter_putStep_nil
  intro b' _ hb' he
  exact hne (pos_inj hb' hb he).1

/-- **C20** for `BinCount(pack=True)`: for every array, every number of bins, any number of workers,
every order of the work items of both phases and every interleaving of the packing steps, the
counts and the slices are exact. -/
theorem binCountPack_slices {keys : List Int} {bins fw workers workers' : Nat} {nt : Bool}
    {calls calls' : List Nat} {seq : List Ev} (hb : 0 < bins) (hr : 0 < keys.length) (hf : 0 < fw)
    (hc : CountedWork workers (segmentBins keys.length fw 31).length nt calls)
    (hc' : CountedWork workers' (segmentBins keys.length fw 31).length nt calls')
    (hs : Interleaves (calls'.map (packJob keys bins (segmentBins keys.length fw 31))) seq) :
    ∃ group : List (Option Int),
      binCountPack keys bins fw calls seq =
        some (some ((trueCounts keys bins).map some, group,
          (List.range bins).map fun b : Nat => some (before keys b : Int))) ∧
      group.length = keys.length ∧
      Slices keys bins group ((List.range bins).map fun b : Nat => some (before keys b : Int))
        ((trueCounts keys bins).map some) := by
  have htile := (segmentBins_tile keys.length fw 31 hf).1
  have hnil := segs_ne_nil (m := 31) hr hf
  generalize hseg : segmentBins keys.length fw 31 = segs at *
  have hcores : 0 < segs.length := List.length_pos_iff.2 hnil
  have hcounts : sumCores (segs.map (countsIn keys bins)) =
      some ((List.range bins).map fun b : Nat => keys.count (b : Int)) := by
    have := sumCores_eq (bins := bins) (f := fun s b => (rowsIn keys s.1 s.2 b).length) hnil
    unfold countsIn
    rw [this]
    congr 1
    apply List.map_congr_left
    intro b _
    rw [sum_counts keys htile, length_rowsOf]
  -- the matrix of counts
  let cnt : Nat → Nat → Nat := fun t b =>
    match segs[t]? with
    | none => 0
    | some s => (rowsIn keys s.1 s.2 b).length
  let mem : List Int := (segs.map (countsIn keys bins)).flatten.map fun n : Nat => (n : Int)
  have hmlen : mem.length = segs.length * bins := by
    simp only [mem, List.length_map, List.length_flatten, List.map_map]
    have : ∀ l : List (Nat × Nat), (l.map (List.length ∘ countsIn keys bins)).sum =
        l.length * bins := by
      intro l
      induction l with
      | nil => simp
      | cons a l ih => simp [ih, countsIn, Nat.succ_mul]; omega
    exact this segs
  have hmem : ∀ t b, t < segs.length → b < bins → mem[t * bins + b]? = some (cnt t b : Int) := by
    intro t b ht hb'
    simp only [mem, List.getElem?_map]
    rw [flatten_get _ t b (by
      intro l hl
      obtain ⟨s, _, rfl⟩ := List.mem_map.1 hl
      simp [countsIn]) hb']
    simp [ht, countsIn, hb', cnt]
  have hlt : ∀ t b, t < segs.length → b < bins → t * bins + b < segs.length * bins := by
    intro t b ht hb'
    have : t * bins + bins ≤ segs.length * bins := by
      rw [← Nat.succ_mul]; exact Nat.mul_le_mul_right _ ht
    omega
  have hdiv : ∀ c, c < segs.length * bins → ∃ t b, t < segs.length ∧ b < bins ∧ c = t * bins + b := by
    intro c hc0
    refine ⟨c / bins, c % bins, ?_, Nat.mod_lt _ hb, ?_⟩
    · exact (Nat.div_lt_iff_lt_mul hb).2 hc0
    · rw [Nat.mul_comm]; exact (Nat.div_add_mod c bins).symm
  have hord : ∀ p ∈ colOrder bins segs.length, p < mem.length := by
    intro p hp
    obtain ⟨t, b, ht, hb', rfl⟩ := mem_colOrder hp
    rw [hmlen]; exact hlt t b ht hb'
  obtain ⟨q1, _, q3⟩ := prefix_step (colOrder bins segs.length) 0 mem
    (colOrder_nodup bins segs.length) hord
  -- rows of a bin on the cores before `t`
  let pre : Nat → Nat → Nat := fun t b => ((List.range t).map fun t => cnt t b).sum
  have hpre : ∀ b, pre segs.length b = (rowsOf keys b).length := by
    intro b
    rw [← sum_counts keys htile b]
    simp only [pre]
    congr 1
    apply List.ext_getElem?
    intro t
    by_cases ht : t < segs.length <;> simp [ht, cnt]
  have hpre_succ : ∀ t b, pre (t + 1) b = pre t b + cnt t b := by
    intro t b; simp [pre, List.range_succ, List.sum_append]
  have hpre_mono : ∀ b t t', t < t' → pre t b + cnt t b ≤ pre t' b := by
    intro b t t' h
    induction t' with
    | zero => omega
    | succ t' ih =>
      rw [hpre_succ]
      by_cases he : t = t'
      · subst he; omega
      · have := ih (by omega); omega
  -- the cursors
  have hcursor : ∀ t b, t < segs.length → b < bins →
      (prefixSums mem (colOrder bins segs.length))[t * bins + b]? =
        some ((before keys b : Int) + (pre t b : Int)) := by
    intro t b ht hb'
    obtain ⟨post, hpost⟩ := colOrder_split (bins := bins) ht hb'
    have := q3 _ _ _ hpost
    unfold prefixSums
    rw [this]
    congr 1
    rw [List.map_append, List.sum_append]
    have e2 : (((List.range t).map fun t => t * bins + b).map fun d => mem[d]?.getD 0).sum =
        (pre t b : Int) := by
      have : ∀ k, k ≤ segs.length →
          (((List.range k).map fun t => t * bins + b).map fun d => mem[d]?.getD 0).sum =
            (pre k b : Int) := by
        intro k
        induction k with
        | zero => intro _; rfl
        | succ k ih =>
          intro hk
          rw [List.range_succ, List.map_append, List.map_append, List.sum_append, ih (by omega),
            hpre_succ]
          simp [hmem k b (by omega) hb']
      exact this t (by omega)
    have e1 : ((((List.range b).flatMap fun i =>
        (List.range segs.length).map fun t => t * bins + i).map fun d => mem[d]?.getD 0)).sum =
        (before keys b : Int) := by
      have : ∀ k, k ≤ bins → ((((List.range k).flatMap fun i =>
          (List.range segs.length).map fun t => t * bins + i).map fun d => mem[d]?.getD 0)).sum =
          (before keys k : Int) := by
        intro k
        induction k with
        | zero => intro _; rfl
        | succ k ih =>
          intro hk
          rw [List.range_succ, List.flatMap_append, List.map_append, List.sum_append, ih (by omega),
            before_succ, List.flatMap_singleton]
          have : (((List.range segs.length).map fun t => t * bins + k).map
              fun d => mem[d]?.getD 0).sum = ((rowsOf keys k).length : Int) := by
            have hh : ∀ m, m ≤ segs.length →
                (((List.range m).map fun t => t * bins + k).map fun d => mem[d]?.getD 0).sum =
                  (pre m k : Int) := by
              intro m
              induction m with
              | zero => intro _; rfl
              | succ m ihm =>
                intro hm
                rw [List.range_succ, List.map_append, List.map_append, List.sum_append,
                  ihm (by omega), hpre_succ]
                simp [hmem m k (by omega) (by omega)]
            rw [hh _ (Nat.le_refl _), hpre]
          rw [this]; omega
      exact this b (by omega)
    rw [e1, e2]; omega
  have hclen : (prefixSums mem (colOrder bins segs.length)).length = segs.length * bins := by
    unfold prefixSums; rw [q1, hmlen]
  -- the steps touching one cursor
  have hjob : ∀ t, t < segs.length → packJob keys bins segs t =
      makeIGroup2 keys bins t (segs[t]?.getD (0, 0)).1 (segs[t]?.getD (0, 0)).2 := by
    intro t ht
    unfold packJob
    rw [List.getElem?_eq_getElem ht]; rfl
  have hcur : ∀ e ∈ seq, e.cur < segs.length * bins := by
    intro e he
    obtain ⟨t, ht, hm⟩ := hs.mem_perm hc'.perm e he
    rw [hjob t ht] at hm
    unfold makeIGroup2 at hm
    obtain ⟨i, _, hi⟩ := List.mem_filterMap.1 hm
    obtain ⟨b, _, h2, h3⟩ := putStep_cur hi
    rw [h3]; exact hlt t b ht h2
  let rows : Nat → List Nat := fun c =>
    if c < segs.length * bins then
      rowsIn keys (segs[c / bins]?.getD (0, 0)).1 (segs[c / bins]?.getD (0, 0)).2 (c % bins)
    else []
  have hrows : ∀ t b, t < segs.length → b < bins → rows (t * bins + b) =
      rowsIn keys (segs[t]?.getD (0, 0)).1 (segs[t]?.getD (0, 0)).2 b := by
    intro t b ht hb'
    have h1 : (t * bins + b) / bins = t := by
      rw [Nat.mul_comm, Nat.mul_add_div hb, Nat.div_eq_of_lt hb']; omega
    have h2 : (t * bins + b) % bins = b := by
      rw [Nat.mul_comm, Nat.mul_add_mod, Nat.mod_eq_of_lt hb']
    simp only [rows]
    rw [if_pos (hlt t b ht hb'), h1, h2]
  have hrlen : ∀ t b, t < segs.length → b < bins → (rows (t * bins + b)).length = cnt t b := by
    intro t b ht hb'
    rw [hrows t b ht hb']
    simp only [cnt, List.getElem?_eq_getElem ht, Option.getD_some]
  have hfil : ∀ c, seq.filter (fun e => e.cur == c) =
      (rows c).map (Ev.put c) ++ ((fun _ => []) c : List Int).map (Ev.sub c) := by
    intro c
    simp only [List.map_nil, List.append_nil]
    by_cases hcb' : c < segs.length * bins
    · obtain ⟨t, b, ht, hb', rfl⟩ := hdiv c hcb'
      rw [hs.filter_perm hc'.perm t ht, hjob t ht, makeIGroup2_filter keys hb', hrows t b ht hb']
      intro t' ht' hne
      rw [hjob t' ht', makeIGroup2_filter_ne keys hb' hne]
    · simp only [rows]
      rw [if_neg hcb', List.map_nil, List.filter_eq_nil_iff]
      intro e he
      have := hcur e he
      simp only [beq_iff_eq]; omega
  let start : Nat → Int := fun c => (before keys (c % bins) : Int) + (pre (c / bins) (c % bins) : Int)
  have hstart : ∀ t b, b < bins → start (t * bins + b) =
      (before keys b : Int) + (pre t b : Int) := by
    intro t b hb'
    have h1 : (t * bins + b) / bins = t := by
      rw [Nat.mul_comm, Nat.mul_add_div hb, Nat.div_eq_of_lt hb']; omega
    have h2 : (t * bins + b) % bins = b := by
      rw [Nat.mul_comm, Nat.mul_add_mod, Nat.mod_eq_of_lt hb']
    simp only [start]
    rw [h1, h2]
  obtain ⟨s', r1, _, r3, _, r5, _⟩ := exec_run seq
    ⟨prefixSums mem (colOrder bins segs.length), List.replicate keys.length none⟩
    rows (fun _ => []) start
    (by simpa [hclen] using hcur) hfil
    (by
      intro c hc0
      simp only [hclen] at hc0
      obtain ⟨t, b, ht, hb', rfl⟩ := hdiv c hc0
      rw [hstart t b hb']; exact hcursor t b ht hb')
    (by
      intro c hc0 _
      simp only [hclen] at hc0
      obtain ⟨t, b, ht, hb', rfl⟩ := hdiv c hc0
      rw [hstart t b hb', hrlen t b ht hb']
      have h1 := hpre_mono b t segs.length ht
      rw [hpre] at h1
      have h2 := before_le keys (b + 1)
      rw [before_succ] at h2
      simp only [List.length_replicate]
      omega)
    (by
      intro c d hc0 hd0 hne _ _
      simp only [hclen] at hc0 hd0
      obtain ⟨t, b, ht, hb', rfl⟩ := hdiv c hc0
      obtain ⟨t', b', ht', hb'', rfl⟩ := hdiv d hd0
      rw [hstart t b hb', hstart t' b' hb'', hrlen t b ht hb', hrlen t' b' ht' hb'']
      have h1 := hpre_mono b t segs.length ht
      have h2 := hpre_mono b' t' segs.length ht'
      rw [hpre] at h1 h2
      by_cases hbb : b = b'
      · subst hbb
        rcases Nat.lt_trichotomy t t' with h | h | h
        · have := hpre_mono b t t' h; omega
        · subst h; exact absurd rfl hne
        · have := hpre_mono b t' t h; omega
      · rcases Nat.lt_or_gt_of_ne hbb with h | h
        · have := before_mono keys h; omega
        · have := before_mono keys h; omega)
  simp only [List.length_replicate, hclen] at r3 r5
  have hfirst : ((prefixSums mem (colOrder bins segs.length)).take bins).map some =
      (List.range bins).map fun b : Nat => some (before keys b : Int) := by
    apply List.ext_getElem?
    intro b
    by_cases hb' : b < bins
    · have := hcursor 0 b hcores hb'
      rw [Nat.zero_mul, Nat.zero_add] at this
      rw [List.getElem?_map, List.getElem?_take_of_lt hb', this]
      simp [hb', pre]
    · rw [List.getElem?_eq_none (by simp; omega), List.getElem?_eq_none (by simp; omega)]
  refine ⟨s'.group, ?_, r3, ?_⟩
  · unfold binCountPack
    rw [if_neg (by omega), hseg]
    simp only
    rw [perCore_eq htile hc.perm]
    simp only [Option.bind_eq_bind, Option.bind_some]
    rw [hcounts]
    simp only [Option.bind_some]
    rw [show prefixSums ((segs.map (countsIn keys bins)).flatten.map fun n : Nat => (n : Int))
      (colOrder bins segs.length) = prefixSums mem (colOrder bins segs.length) from rfl]
    rw [r1]
    simp only [Option.bind_some, hfirst]
    unfold trueCounts
    simp [Function.comp_def]
  · intro b hb'
    refine ⟨(before keys b : Int), by simp [hb'], ?_, ?_⟩
    · simp [trueCounts, hb', length_rowsOf]
    · intro j r hj
      -- find the core whose part of the rows contains entry `j`
      have key : ∀ k, k ≤ segs.length → ∀ (j r : Nat),
          ((segs.take k).flatMap fun s => rowsIn keys s.1 s.2 b)[j]? = some r →
          ∃ t j', t < k ∧ j = pre t b + j' ∧ (rows (t * bins + b))[j']? = some r := by
        intro k
        induction k with
        | zero => intro _ j r h; simp at h
        | succ k ih =>
          intro hk j r h
          have hkl : k < segs.length := by omega
          rw [List.take_add_one, List.getElem?_eq_getElem hkl, List.flatMap_append] at h
          have hl : ((segs.take k).flatMap fun s => rowsIn keys s.1 s.2 b).length = pre k b := by
            rw [List.length_flatMap]
            simp only [pre]
            congr 1
            apply List.ext_getElem?
            intro t
            by_cases ht : t < k
            · have : t < segs.length := by omega
              simp [ht, this, cnt]
            · rw [List.getElem?_eq_none (by simp; omega), List.getElem?_eq_none (by simp; omega)]
          by_cases hjl : j < pre k b
          · rw [List.getElem?_append_left (by omega)] at h
            obtain ⟨t, j', h1, h2, h3⟩ := ih (by omega) j r h
            exact ⟨t, j', by omega, h2, h3⟩
          · rw [List.getElem?_append_right (by omega), hl] at h
            refine ⟨k, j - pre k b, by omega, by omega, ?_⟩
            rw [hrows k b (by omega) hb', List.getElem?_eq_getElem hkl]
            simpa using h
      have hall := (rowsIn_tiles keys b htile).2
      rw [rowsIn_all] at hall
      obtain ⟨t, j', ht, hjj, hrj⟩ := key segs.length (Nat.le_refl _) j r (by
        rw [List.take_length, hall]; exact hj)
      obtain ⟨q, hq, hq'⟩ := r5 (t * bins + b) (hlt t b ht hb') j' r hrj
      rw [hstart t b hb'] at hq
      exact ⟨q, by omega, hq'⟩

end Riptide.Pack
