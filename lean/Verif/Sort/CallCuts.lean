import Verif.Sort.CallProps
/-! # Lexsort calls with cutoffs, refusals and where they go wrong (C136) -/
namespace Riptide.Sort.Call
open Riptide.Sort.Spec Riptide.Sort.Call.Spec Riptide.Hash Riptide.Work

/-! ## Cutoffs -/

theorem rising_of_pairwise : ∀ (cuts : List Nat) (s : Nat), (s :: cuts).Pairwise (· ≤ ·) →
    risingFrom (s : Int) (cuts.map (fun (c : Nat) => (c : Int))) = true
  | [], _, _ => rfl
  | c :: cs, s, h => by
    have h1 : s ≤ c := List.rel_of_pairwise_cons h (by simp)
    have ih := rising_of_pairwise cs c (List.pairwise_cons.1 h).2
    simp only [List.map_cons, risingFrom, ih, Bool.and_true, decide_eq_true_eq]
    omega

theorem partsFit_iff (bits : Nat) : ∀ (cuts : List Nat) (s : Nat),
    (∀ t, t < cuts.length → cuts.getD t 0 - (if t = 0 then s else cuts.getD (t - 1) 0) ≤ maxIdx bits) → partsFit bits s cuts = true
  | [], _, _ => rfl
  | c :: cs, s, h => by
    have h0 := h 0 (by simp)
    simp only [if_true, List.getD_cons_zero] at h0
    have ih := partsFit_iff bits cs c (by
      intro t ht
      have := h (t + 1) (by simpa using ht)
      rw [if_neg (by omega)] at this
      simp only [List.getD_cons_succ, Nat.add_sub_cancel] at this
      by_cases h0 : t = 0
      · subst h0; simpa using this
      · rw [if_neg h0]
        obtain ⟨u, rfl⟩ : ∃ u, t = u + 1 := ⟨t - 1, by omega⟩
        simpa using this)
    simp only [partsFit, ih, Bool.and_true, decide_eq_true_eq]
    exact h0

theorem cutsOf_arg {n : Nat} {cuts : List Nat} (rest : List Int) (hl : cuts.getLast? = some n) :
    cutsOf n (some (cutArg cuts rest)) = .are (cuts.map fun (c : Nat) => (c : Int)) := by
  have hne : cuts.length ≠ 0 := by
    intro h
    rw [List.length_eq_zero_iff.1 h] at hl
    cases hl
  have e : (List.range cuts.length).mapM (fun (i : Nat) => (cuts.map (fun (c : Nat) => (c : Int)) ++ rest)[i]?) =
      some ((List.range cuts.length).map fun (i : Nat) => ((cuts.getD i 0 : Nat) : Int)) := by
    apply mapM_some
    intro i hi
    have hi' : i < cuts.length := List.mem_range.1 hi
    rw [List.getElem?_append_left (by simpa using hi'), List.getElem?_map, List.getElem?_eq_getElem hi']
    simp [List.getD, hi']
  have e2 : (List.range cuts.length).map (fun (i : Nat) => ((cuts.getD i 0 : Nat) : Int)) = cuts.map fun (c : Nat) => (c : Int) := by
    apply List.ext_getElem
    · simp
    · intro i h1 h2
      have : i < cuts.length := by simpa using h2
      simp [List.getD, this]
  unfold cutsOf
  show (if (!true) = true then _ else if cuts.length = 0 then _ else
    match (List.range cuts.length).mapM (fun (i : Nat) => (cuts.map (fun (c : Nat) => (c : Int)) ++ rest)[i]?) with
      | none => Cuts.undef
      | some l => if l.getLast? = some (n : Int) then .are l else .raised) = _
  rw [if_neg (by simp), if_neg hne, e, e2]
  show (if (cuts.map fun (c : Nat) => (c : Int)).getLast? = some (n : Int) then _ else _) = _
  rw [if_pos (by rw [List.getLast?_map, hl]; rfl)]

theorem toNat_cuts (cuts : List Nat) : (cuts.map fun (c : Nat) => (c : Int)).map Int.toNat = cuts := by
  rw [List.map_map]
  exact (List.map_congr_left fun i _ => by simp).trans (List.map_id cuts)

theorem cutPlan_arg {bits n : Nat} {cols : List Column} {cuts : List Nat} (hm : cuts.Pairwise (· ≤ ·))
    (hp : ∀ t, t < cuts.length → cuts.getD t 0 - lo cuts t < 2 ^ (bits - 1)) (x : Option IdxArg) :
    cutPlan bits cols n (cuts.map fun (c : Nat) => (c : Int)) x =
      match x with
      | none => .freshCuts cols n cuts
      | some x => if x.mem.length < n then .undef else .indexCuts cols n cuts (x.mem.drop n) := by
  have h1 := rising_of_pairwise cuts 0 (List.pairwise_cons.2 ⟨fun _ _ => Nat.zero_le _, hm⟩)
  have h2 := partsFit_iff bits cuts 0 (fun t ht => by have := hp t ht; unfold lo at this; unfold maxIdx; omega)
  unfold cutPlan
  have h1' : risingFrom 0 (cuts.map fun (c : Nat) => (c : Int)) = true := h1
  rw [h1', toNat_cuts, h2]
  rfl

theorem partitioned_of_run {workers : Nat} {nt : Bool} {n : Nat} {ks : List Col} {dirs : List Bool} (hd : dirs.length = ks.length)
    (hk : ∀ c ∈ ks, c.Good n) {cuts s : List Nat} (hm : cuts.Pairwise (· ≤ ·)) (hl : cuts.getLast? = some n) {r : Option (List Nat)}
    (hp : prepIndex n cuts = some s) (hr : CutRun workers nt cuts (colsOf (infos ks) dirs) s r) :
    ∃ out, r = some out ∧ Partitioned n cuts (orders ks dirs) out := by
  obtain ⟨out, ho, h1, h2⟩ := lexsort_partitions_partial n n workers nt _ cuts (cols_good n ks dirs hd hk).2.1 (Nat.le_refl n) hm hl
    (.ok r) (.cuts cuts s r (Nat.le_refl n) hl hp hr)
  refine ⟨out, by simpa using ho, h1, fun t ht => ?_⟩
  have hle : cuts.getD t 0 ≤ n := by
    have h1 : cuts.getD (cuts.length - 1) 0 = n := by
      rw [List.getD_eq_getElem?_getD, ← List.getLast?_eq_getElem?, hl]; rfl
    rw [← h1]; exact cut_le hm (by omega) (by omega)
  refine stable_congr ?_ (h2 t ht)
  intro x hx y hy
  have hx' := List.mem_range.1 hx
  have hy' := List.mem_range.1 hy
  unfold lo at hx' hy'
  exact good_lex hd hk _ _ (by omega) (by omega)

theorem cutRun_runs (workers : Nat) (nt : Bool) (cuts : List Nat) (order : List Nat) (ho : CountedWork workers cuts.length nt order) :
    ∀ (cols : List Column) (a : List Nat), ∃ r, CutRun workers nt cuts cols a r
  | [], a => ⟨_, .nil a⟩
  | c :: cs, a => by
    have h := CutPass.run (workers := workers) (nt := nt) (c := c) (cuts := cuts) (a := a)
      (fun t => List.replicate ((cuts.getD t 0 - if t = 0 then 0 else cuts.getD (t - 1) 0) / 2) 0) order ho (by simp)
    generalize sortParts c cuts _ order a = r at h
    cases r with
    | none => exact ⟨_, .fail c cs a h⟩
    | some o =>
      obtain ⟨r', hr'⟩ := cutRun_runs workers nt cuts order ho cs o
      exact ⟨_, .step c cs a o r' h hr'⟩

/-- C136: with cutoffs (an `int64` array, item after item in memory) that never fall and end with the number of rows, the call returns a new array which holds, partition after partition,
the rows of the partition counted from its begin, in the lexicographic order. -/
theorem lexsort_call_cutoffs_partial (workers : Nat) (nt : Bool) (bits n : Nat) (ks : List Col) (asc : Asc) (dirs : List Bool) (hne : ks ≠ [])
    (hk : ∀ c ∈ ks, c.Good n) (hm : Means ks.length asc dirs) (cuts : List Nat) (rest : List Int) (hu : cuts.Pairwise (· ≤ ·))
    (hl : cuts.getLast? = some n) (hp : ∀ t, t < cuts.length → cuts.getD t 0 - lo cuts t < 2 ^ (bits - 1)) (r : Reply)
    (h : LexCall workers nt bits ⟨ks.map Col.key, some (cutArg cuts rest), asc, none⟩ r) :
    ∃ out, r = .fresh bits out ∧ Partitioned n cuts (orders ks dirs) out := by
  obtain ⟨f1, f2⟩ := means_flags hm
  have hlen : (infos ks).length = ks.length := by simp [infos]
  have hpl : plan bits ⟨ks.map Col.key, some (cutArg cuts rest), asc, none⟩ = .freshCuts (colsOf (infos ks) dirs) n cuts := by
    rw [plan_good bits hne hk]
    unfold body
    simp only [cutsOf_arg rest hl, startOf, hlen, f2, f1]
    rw [if_neg (by simp), if_neg (fun h => head_infos h.2), cutPlan_arg hu hp]
  obtain ⟨s, hs, _⟩ := prepIndex_spec hu hl
  unfold LexCall at h
  rw [hpl] at h
  cases h with
  | freshFull _ _ _ hn => rw [hs] at hn; cases hn
  | freshCuts _ _ _ s' r h' hr =>
    obtain ⟨out, rfl, ho⟩ := partitioned_of_run (means_len hm) hk hu hl h' hr
    exact ⟨out, rfl, ho⟩

theorem start_ok {bits n : Nat} {x : IdxArg} (hb : x.bits = some bits) (h0 : 0 < x.len) (hle : x.len ≤ n) :
    startOf bits n (some x) = some (some x) := by
  unfold startOf
  simp only
  rw [if_neg (by simp [hb]), if_neg (by omega), if_neg (by omega), if_pos (by simp [IdxArg.fits, hb])]

theorem plan_indexCuts {bits n : Nat} {ks : List Col} {asc : Asc} {dirs : List Bool} (hne : ks ≠ []) (hk : ∀ c ∈ ks, c.Good n)
    (hm : Means ks.length asc dirs) (cuts : List Nat) (rest : List Int) (hu : cuts.Pairwise (· ≤ ·)) (hl : cuts.getLast? = some n)
    (hp : ∀ t, t < cuts.length → cuts.getD t 0 - lo cuts t < 2 ^ (bits - 1)) {x : IdxArg} (hb : x.bits = some bits) (h0 : 0 < x.len)
    (hle : x.len ≤ n) :
    plan bits ⟨ks.map Col.key, some (cutArg cuts rest), asc, some x⟩ =
      if x.mem.length < n then .undef else .indexCuts (colsOf (infos ks) dirs) n cuts (x.mem.drop n) := by
  obtain ⟨f1, f2⟩ := means_flags hm
  have hlen : (infos ks).length = ks.length := by simp [infos]
  rw [plan_good bits hne hk]
  unfold body
  simp only [cutsOf_arg rest hl, start_ok hb h0 hle, hlen, f2, f1]
  rw [if_neg (by simp), if_neg (by simp), cutPlan_arg hu hp]

/-- C136: with cutoffs and an index, the row numbers passed are not used: the partitions are numbered afresh in the memory of the index, `n` items from its begin on, also when
it is shorter than that and the memory belongs to something else. -/
theorem lexsort_call_index_and_cutoffs (workers : Nat) (nt : Bool) (bits n : Nat) (ks : List Col) (asc : Asc) (dirs : List Bool) (hne : ks ≠ [])
    (hk : ∀ c ∈ ks, c.Good n) (hm : Means ks.length asc dirs) (cuts : List Nat) (rest : List Int) (hu : cuts.Pairwise (· ≤ ·))
    (hl : cuts.getLast? = some n) (hp : ∀ t, t < cuts.length → cuts.getD t 0 - lo cuts t < 2 ^ (bits - 1)) (x : IdxArg) (hb : x.bits = some bits)
    (h0 : 0 < x.len) (hle : x.len ≤ n) (r : Reply)
    (h : LexCall workers nt bits ⟨ks.map Col.key, some (cutArg cuts rest), asc, some x⟩ r) :
    (x.mem.length < n → r = .undef) ∧
    (n ≤ x.mem.length → ∃ out, r = .index (out.map (fun (i : Nat) => (i : Int)) ++ x.mem.drop n) ∧ Partitioned n cuts (orders ks dirs) out) := by
  have hpl := plan_indexCuts hne hk hm cuts rest hu hl hp hb h0 hle
  obtain ⟨s, hs, _⟩ := prepIndex_spec hu hl
  unfold LexCall at h
  rw [hpl] at h
  constructor
  · intro hlt
    rw [if_pos hlt] at h
    cases h; rfl
  · intro hge
    rw [if_neg (by omega)] at h
    cases h with
    | indexFull _ _ _ _ hn => rw [hs] at hn; cases hn
    | indexCuts _ _ _ s' _ r h' hr =>
      obtain ⟨out, rfl, ho⟩ := partitioned_of_run (means_len hm) hk hu hl h' hr
      exact ⟨out, rfl, ho⟩

/-! ## Refusals -/

/-- What the call refuses when the arrays are good ones: cutoffs which are not `int64` or do not end with the number of rows; an array `ascending` of another length than
there are arrays; an index of another type, or longer than the arrays. -/
def Refused (bits n k : Nat) (cuts : Option CutArg) (asc : Asc) (index : Option IdxArg) : Prop :=
  (∃ c, cuts = some c ∧ (c.isI64 = false ∨ c.mem[c.len - 1]? ≠ some (n : Int))) ∨
  (∃ len mem, asc = .array len mem ∧ len ≠ k) ∨
  (∃ x, index = some x ∧ (x.bits = none ∨ n < x.len ∨ 0 < x.len ∧ x.bits ≠ some bits))

theorem cutsOf_raised {n : Nat} {cuts : Option CutArg} (hc : ∀ c, cuts = some c → c.isI64 = true → 0 < c.len ∧ c.len ≤ c.mem.length) :
    cutsOf n cuts ≠ .undef ∧ (cutsOf n cuts = .raised ↔ ∃ c, cuts = some c ∧ (c.isI64 = false ∨ c.mem[c.len - 1]? ≠ some (n : Int))) := by
  cases cuts with
  | none => exact ⟨by simp [cutsOf], by simp [cutsOf]⟩
  | some c =>
    unfold cutsOf
    cases hi : c.isI64 with
    | false => simp [hi]
    | true =>
      obtain ⟨h0, hle⟩ := hc c rfl hi
      have e : (List.range c.len).mapM (fun (i : Nat) => c.mem[i]?) = some (c.mem.take c.len) := by
        have e1 : (List.range c.len).mapM (fun (i : Nat) => c.mem[i]?) = some ((List.range c.len).map fun (i : Nat) => c.mem.getD i 0) := mapM_some _ _ _ (by
          intro i hi
          have : i < c.mem.length := by have := List.mem_range.1 hi; omega
          simp [List.getD, this])
        rw [e1]
        congr 1
        apply List.ext_getElem
        · simp; omega
        · intro i h1 h2
          have : i < c.mem.length := by simp at h2; omega
          simp [List.getD, this]
      have hlast : (c.mem.take c.len).getLast? = c.mem[c.len - 1]? := by
        rw [List.getLast?_eq_getElem?, List.getElem?_take, List.length_take]
        rw [show min c.len c.mem.length - 1 = c.len - 1 by omega, if_pos (by omega)]
      have h0' : c.len ≠ 0 := by omega
      by_cases hl : c.mem[c.len - 1]? = some (n : Int)
      · simp [hl, hi, h0', e, hlast]
      · simp [hl, hi, h0', e, hlast]

theorem startOf_none {bits n : Nat} {x : Option IdxArg} :
    startOf bits n x = none ↔ ∃ y, x = some y ∧ (y.bits = none ∨ n < y.len ∨ 0 < y.len ∧ y.bits ≠ some bits) := by
  cases x with
  | none => simp [startOf]
  | some y =>
    unfold startOf
    simp only [Option.some.injEq, exists_eq_left']
    by_cases h1 : y.bits = none
    · simp [h1]
    · rw [if_neg h1]
      by_cases h2 : y.len = 0
      · rw [if_pos h2]; simp [h1, h2]
      · rw [if_neg h2]
        by_cases h3 : n < y.len
        · simp [h3]
        · rw [if_neg h3]
          by_cases h4 : y.bits = some bits
          · simp [IdxArg.fits, h4, h3]
          · simp [IdxArg.fits, h4, h3, h1]; omega

theorem wrongLen_iff {k : Nat} {asc : Asc} : asc.wrongLen k = true ↔ ∃ len mem, asc = .array len mem ∧ len ≠ k := by
  cases asc <;> simp [Asc.wrongLen]

theorem indexPlan_not_raised (bits : Nat) (cols : List Column) (n : Nat) (x : IdxArg) : indexPlan bits cols n x ≠ .raised := by
  unfold indexPlan
  split
  · simp
  · split
    · simp
    · split <;> simp

theorem cutPlan_not_raised (bits : Nat) (cols : List Column) (n : Nat) (l : List Int) (x : Option IdxArg) : cutPlan bits cols n l x ≠ .raised := by
  unfold cutPlan
  split
  · simp
  · split
    · simp
    · cases x with
      | none => simp
      | some x => simp only; split <;> simp

theorem outcome_raised {workers : Nat} {nt : Bool} {bits : Nat} {p : Plan} {r : Reply} (h : Outcome workers nt bits p r) :
    r = .raised ↔ p = .raised := by
  cases h with
  | raised => simp
  | undef => simp
  | fresh _ _ r _ => cases r <;> simp [ofFresh]
  | freshFull => simp
  | freshCuts _ _ _ _ r _ _ => cases r <;> simp [ofFresh]
  | same => simp
  | index _ _ _ r _ => cases r <;> simp [ofIndex]
  | indexFull => simp
  | indexCuts _ _ _ _ _ r _ _ => cases r <;> simp [ofIndex]

/-- C136: a call with good arrays raises exactly when it has to refuse its keywords (cutoffs, if they are `int64`, have an item and lie in memory). -/
theorem lexsort_call_refuses (workers : Nat) (nt : Bool) (bits n : Nat) (ks : List Col) (hne : ks ≠ []) (hk : ∀ c ∈ ks, c.Good n)
    (cuts : Option CutArg) (asc : Asc) (index : Option IdxArg) (hc : ∀ c, cuts = some c → c.isI64 = true → 0 < c.len ∧ c.len ≤ c.mem.length)
    (r : Reply) (h : LexCall workers nt bits ⟨ks.map Col.key, cuts, asc, index⟩ r) :
    r = .raised ↔ Refused bits n ks.length cuts asc index := by
  have hlen : (infos ks).length = ks.length := by simp [infos]
  unfold LexCall at h
  rw [outcome_raised h, plan_good bits hne hk]
  obtain ⟨hu, hr⟩ := cutsOf_raised (n := n) hc
  have hi := startOf_none (bits := bits) (n := n) (x := index)
  have hw := wrongLen_iff (k := ks.length) (asc := asc)
  unfold Refused
  rw [← hr, ← hw, ← hi]
  unfold body
  simp only [hlen]
  generalize cutsOf n cuts = C at hu hr
  generalize startOf bits n index = S at hi
  cases C with
  | undef => exact absurd rfl hu
  | raised => simp
  | absent =>
    cases hw' : asc.wrongLen ks.length with
    | true => simp
    | false =>
      cases S with
      | none => simp
      | some x =>
        simp only [Bool.false_eq_true, if_false, reduceCtorEq, or_self, iff_false]
        rw [if_neg (fun h => head_infos h.2)]
        cases asc.flags ks.length with
        | none => simp
        | some flags =>
          cases x with
          | some x => exact indexPlan_not_raised _ _ _ _
          | none =>
            simp only
            split
            · simp
            · split <;> simp
  | are l =>
    cases hw' : asc.wrongLen ks.length with
    | true => simp
    | false =>
      cases S with
      | none => simp
      | some x =>
        simp only [Bool.false_eq_true, if_false, reduceCtorEq, or_self, iff_false]
        rw [if_neg (fun h => head_infos h.2)]
        cases asc.flags ks.length with
        | none => simp
        | some flags => exact cutPlan_not_raised _ _ _ _ _

/-- One of the arguments is no array, has several dimensions or a type after `NPY_VOID` (a datetime, say). -/
def BadKey (k : Key) : Prop :=
  k = .notArray ∨ ∃ ty ndim odd d, k = .array ty ndim odd d ∧ (20 < ty ∨ 2 ≤ ndim)

theorem badKey_raises {k : Key} (h : BadKey k) : keyInfo k = .error .raised := by
  rcases h with rfl | ⟨ty, ndim, odd, d, rfl, h⟩
  · rfl
  · unfold keyInfo
    by_cases h20 : 20 < ty
    · simp [h20]
    · have h0 : ndim ≠ 0 := by omega
      have h1 : ndim ≠ 1 := by omega
      simp [h20, h0, h1]

theorem mapM_bad : ∀ (ks : List Col) (k : Key) (more : List Key), (∀ c ∈ ks, c.ty ≤ 20) → BadKey k →
    (ks.map Col.key ++ k :: more).mapM keyInfo = .error .raised
  | [], k, more, _, hb => by
    simp only [List.map_nil, List.nil_append, List.mapM_cons, badKey_raises hb]
    rfl
  | c :: ks, k, more, h, hb => by
    have h20 : ¬ 20 < c.ty := by have := h c (by simp); omega
    have e : keyInfo c.key = .ok ⟨true, c.ty, c.d⟩ := by simp [Col.key, keyInfo, h20]
    have ih := mapM_bad ks k more (fun c hc => h c (List.mem_cons_of_mem _ hc)) hb
    simp only [List.map_cons, List.cons_append, List.mapM_cons, e, ih]
    rfl

/-- C136: the first argument which is no one-dimensional array of a known type raises, whatever comes after it. -/
theorem bad_key_refused (workers : Nat) (nt : Bool) (bits : Nat) (ks : List Col) (hk : ∀ c ∈ ks, c.ty ≤ 20) (k : Key) (hb : BadKey k) (more : List Key)
    (cuts : Option CutArg) (asc : Asc) (index : Option IdxArg) (r : Reply)
    (h : LexCall workers nt bits ⟨ks.map Col.key ++ k :: more, cuts, asc, index⟩ r) : r = .raised := by
  have hp : plan bits ⟨ks.map Col.key ++ k :: more, cuts, asc, index⟩ = .raised := by
    unfold plan prepare
    simp only [mapM_bad ks k more hk hb]
  unfold LexCall at h
  exact (outcome_raised h).2 hp

theorem mapM_types : ∀ (ks : List Col), (∀ c ∈ ks, c.ty ≤ 20) → (ks.map Col.key).mapM keyInfo = .ok (infos ks)
  | [], _ => rfl
  | c :: ks, h => by
    have h20 : ¬ 20 < c.ty := by have := h c (by simp); omega
    have e : keyInfo c.key = .ok ⟨true, c.ty, c.d⟩ := by simp [Col.key, keyInfo, h20]
    simp only [List.map_cons, List.mapM_cons, e, mapM_types ks (fun c hc => h c (List.mem_cons_of_mem _ hc))]
    rfl

/-- C136: arrays of different lengths raise. -/
theorem unequal_lengths_refused (workers : Nat) (nt : Bool) (bits : Nat) (k : Col) (ks : List Col) (hk : ∀ c ∈ k :: ks, c.ty ≤ 20) (c : Col) (hc : c ∈ ks)
    (hl : c.d.len ≠ k.d.len) (cuts : Option CutArg) (asc : Asc) (index : Option IdxArg) (r : Reply)
    (h : LexCall workers nt bits ⟨(k :: ks).map Col.key, cuts, asc, index⟩ r) : r = .raised := by
  have hp : plan bits ⟨(k :: ks).map Col.key, cuts, asc, index⟩ = .raised := by
    unfold plan prepare
    simp only [mapM_types (k :: ks) hk]
    have : ((infos ks).all fun j => decide (j.d.len = k.d.len)) = false := by
      rw [List.all_eq_false]
      exact ⟨⟨true, c.ty, c.d⟩, List.mem_map.2 ⟨c, hc, rfl⟩, by simpa using hl⟩
    show (match (if ((infos ks).all fun j => decide (j.d.len = k.d.len)) = true then Except.ok ((infos (k :: ks)), k.d.len) else .error .raised :
        Except Fault (List Info × Nat)) with
      | .error .raised => Plan.raised
      | .error .undef => .undef
      | .ok (is, n) => body bits is n _) = .raised
    rw [this]
    rfl
  unfold LexCall at h
  exact (outcome_raised h).2 hp

example : BadKey (.array 21 1 false (.nums [1])) := .inr ⟨_, _, _, _, rfl, .inl (by decide)⟩

end Riptide.Sort.Call
