import Verif.Hash.GroupLemmas
/-! # Previous/next links and counts are kept up row by row -/
namespace Riptide.Hash
open Spec

/-- The arrays of links are right for every row. -/
def NextAll {C : Type} (cs : List C) (next : List (Option Nat)) : Prop :=
  next.length = cs.length ∧ ∀ (i : Nat) o, next[i]? = some o → NextAt cs i o

def PrevAll {C : Type} (cs : List C) (prev : List (Option Nat)) : Prop :=
  prev.length = cs.length ∧ ∀ (i : Nat) o, prev[i]? = some o → PrevAt cs i o

theorem lt_of_get {α : Type} {l : List α} {i : Nat} {a : α} (h : l[i]? = some a) : i < l.length :=
  (List.getElem?_eq_some_iff.mp h).1

theorem lastAt_snoc_self {C : Type} (cs : List C) (c : C) : LastAt (cs ++ [c]) c cs.length :=
  ⟨get_snoc_eq _ _, fun j hj h => by have := lt_of_get h; simp at this; omega⟩

theorem lastAt_snoc_ne {C : Type} {cs : List C} {c d : C} {l : Nat} (hne : d ≠ c) :
    LastAt (cs ++ [c]) d l ↔ LastAt cs d l := by
  constructor
  · rintro ⟨h1, h2⟩
    rcases get_snoc h1 with ⟨hl, h1⟩ | ⟨_, e⟩
    · refine ⟨h1, fun j hj hc => h2 j hj ?_⟩
      rw [get_snoc_lt (lt_of_get hc)]; exact hc
    · exact absurd e.symm hne
  · rintro ⟨h1, h2⟩
    refine ⟨by rw [get_snoc_lt (lt_of_get h1)]; exact h1, fun j hj hc => ?_⟩
    rcases get_snoc hc with ⟨_, hc⟩ | ⟨_, e⟩
    · exact h2 j hj hc
    · exact absurd e.symm hne

theorem lastAt_unique {C : Type} {cs : List C} {c : C} {l l' : Nat} (h : LastAt cs c l)
    (h' : LastAt cs c l') : l = l' := by
  rcases Nat.lt_trichotomy l l' with hl | hl | hl
  · exact absurd h'.1 (h.2 l' hl)
  · exact hl
  · exact absurd h.1 (h'.2 l hl)

theorem exists_lastAt {C : Type} {cs : List C} {c : C} : ∀ {j : Nat}, cs[j]? = some c → ∃ l, LastAt cs c l := by
  intro j h
  obtain ⟨n, hn⟩ : ∃ n, n = cs.length - j := ⟨_, rfl⟩
  induction n using Nat.strongRecOn generalizing j with
  | ind n ih =>
    by_cases hx : ∃ j' : Nat, j < j' ∧ cs[j']? = some c
    · obtain ⟨j', h1, h2⟩ := hx
      exact ih (cs.length - j') (by have := lt_of_get h2; omega) h2 rfl
    · exact ⟨j, h, fun j' h1 h2 => hx ⟨j', h1, h2⟩⟩

theorem nextAll_new {C : Type} {cs : List C} {next : List (Option Nat)} (h : NextAll cs next) (c : C)
    (hnew : ∀ j : Nat, cs[j]? ≠ some c) : NextAll (cs ++ [c]) (next ++ [none]) := by
  refine ⟨by simp [h.1], fun i o ho => ?_⟩
  rcases get_snoc ho with ⟨hi, ho⟩ | ⟨rfl, rfl⟩
  · have hin : NextAt cs i o := h.2 i o ho
    have hi' : i < cs.length := h.1 ▸ hi
    have e : (cs ++ [c])[i]? = cs[i]? := get_snoc_lt hi'
    cases o with
    | none =>
      intro j hj hc
      rw [e, List.getElem?_eq_getElem hi'] at hc
      rcases get_snoc hc with ⟨_, hc⟩ | ⟨_, hc⟩
      · exact hin j hj (hc.trans (List.getElem?_eq_getElem hi').symm)
      · exact hnew i (by rw [hc]; exact List.getElem?_eq_getElem hi')
    | some j =>
      obtain ⟨h1, h2, h3⟩ := hin
      have hj : j < cs.length := lt_of_get (h2.trans (List.getElem?_eq_getElem hi'))
      refine ⟨h1, by rw [e, get_snoc_lt hj]; exact h2, fun l hl hl' => ?_⟩
      rw [e, get_snoc_lt (by omega)]; exact h3 l hl hl'
  · intro j hj hc
    rw [h.1, get_snoc_eq] at hc
    have := lt_of_get hc
    simp at this; have := h.1; omega

theorem nextAll_old {C : Type} {cs : List C} {next : List (Option Nat)} (h : NextAll cs next) {c : C}
    {l : Nat} (hl : LastAt cs c l) :
    NextAll (cs ++ [c]) ((next ++ [none]).set l (some cs.length)) := by
  have hll : l < cs.length := lt_of_get hl.1
  refine ⟨by simp [h.1], fun i o ho => ?_⟩
  rw [List.getElem?_set] at ho
  by_cases hli : l = i
  · subst hli
    rw [if_pos rfl, if_pos (by simp [h.1]; omega)] at ho
    injection ho with ho; subst ho
    refine ⟨hll, by rw [get_snoc_eq, get_snoc_lt hll]; exact hl.1.symm, fun j hj hj' => ?_⟩
    rw [get_snoc_lt hj', get_snoc_lt hll, hl.1]
    exact hl.2 j hj
  · rw [if_neg hli] at ho
    rcases get_snoc ho with ⟨hi, ho⟩ | ⟨rfl, rfl⟩
    · have hin : NextAt cs i o := h.2 i o ho
      have hi' : i < cs.length := h.1 ▸ hi
      have e : (cs ++ [c])[i]? = cs[i]? := get_snoc_lt hi'
      cases o with
      | none =>
        intro j hj hc
        rw [e, List.getElem?_eq_getElem hi'] at hc
        rcases get_snoc hc with ⟨_, hc⟩ | ⟨_, hc⟩
        · exact hin j hj (hc.trans (List.getElem?_eq_getElem hi').symm)
        · have hi2 : cs[i]? = some c := by rw [hc]; exact List.getElem?_eq_getElem hi'
          have : LastAt cs c i := ⟨hi2, fun j hj hc => hin j hj (hc.trans hi2.symm)⟩
          exact hli (lastAt_unique hl this)
      | some j =>
        obtain ⟨h1, h2, h3⟩ := hin
        have hj : j < cs.length := lt_of_get (h2.trans (List.getElem?_eq_getElem hi'))
        refine ⟨h1, by rw [e, get_snoc_lt hj]; exact h2, fun l hl hl' => ?_⟩
        rw [e, get_snoc_lt (by omega)]; exact h3 l hl hl'
    · intro j hj hc
      rw [h.1, get_snoc_eq] at hc
      have := lt_of_get hc
      simp at this; have := h.1; omega

theorem prevAt_snoc {C : Type} {cs : List C} (c : C) {i : Nat} {o : Option Nat} (hi : i < cs.length)
    (h : PrevAt cs i o) : PrevAt (cs ++ [c]) i o := by
  have e : (cs ++ [c])[i]? = cs[i]? := get_snoc_lt hi
  cases o with
  | none => intro j hj; rw [e, get_snoc_lt (by omega)]; exact h j hj
  | some j =>
    obtain ⟨h1, h2, h3⟩ := h
    refine ⟨h1, by rw [e, get_snoc_lt (by omega)]; exact h2, fun l hl hl' => ?_⟩
    rw [e, get_snoc_lt (by omega)]; exact h3 l hl hl'

theorem prevAll_snoc {C : Type} {cs : List C} {prev : List (Option Nat)} (h : PrevAll cs prev) (c : C)
    (o : Option Nat) (ho : PrevAt (cs ++ [c]) cs.length o) : PrevAll (cs ++ [c]) (prev ++ [o]) := by
  refine ⟨by simp [h.1], fun i o' h' => ?_⟩
  rcases get_snoc h' with ⟨hi, h'⟩ | ⟨rfl, rfl⟩
  · exact prevAt_snoc c (h.1 ▸ hi) (h.2 i o' h')
  · rw [h.1]; exact ho

theorem prevAt_new {C : Type} {cs : List C} {c : C} (hnew : ∀ j : Nat, cs[j]? ≠ some c) :
    PrevAt (cs ++ [c]) cs.length none := by
  intro j hj hc
  rw [get_snoc_eq, get_snoc_lt hj] at hc
  exact hnew j hc

theorem prevAt_old {C : Type} {cs : List C} {c : C} {l : Nat} (hl : LastAt cs c l) :
    PrevAt (cs ++ [c]) cs.length (some l) := by
  have hll : l < cs.length := lt_of_get hl.1
  refine ⟨hll, by rw [get_snoc_eq, get_snoc_lt hll]; exact hl.1, fun j hj hj' => ?_⟩
  rw [get_snoc_eq, get_snoc_lt hj']
  exact hl.2 j hj

/-- Number of rows of each bin `1 .. k`. -/
def countsOf (bins : List Nat) (k : Nat) : List Nat := (List.range k).map fun g => bins.count (g + 1)

theorem countsOf_filtered (bins : List Nat) (k : Nat) : countsOf (bins ++ [0]) k = countsOf bins k := by
  simp [countsOf]

theorem countsOf_old (bins : List Nat) (k u : Nat) :
    (countsOf bins k).modify u (· + 1) = countsOf (bins ++ [u + 1]) k := by
  apply List.ext_getElem?
  intro g
  rw [List.getElem?_modify]
  simp only [countsOf, List.getElem?_map]
  by_cases hg : g < k
  · rw [List.getElem?_range hg]
    by_cases hug : u = g
    · subst hug; simp
    · simp [hug, List.count_cons]
  · rw [List.getElem?_eq_none (by simp; omega)]; simp

theorem countsOf_new (bins : List Nat) (k : Nat) (h : ∀ b ∈ bins, b ≤ k) :
    countsOf bins k ++ [1] = countsOf (bins ++ [k + 1]) (k + 1) := by
  simp only [countsOf, List.range_succ, List.map_append, List.map_cons, List.map_nil, List.count_append]
  have h0 : bins.count (k + 1) = 0 := by
    rw [List.count_eq_zero]
    intro hm; have := h _ hm; omega
  rw [h0]
  congr 1
  · apply List.map_congr_left
    intro g hg
    have : g < k := by simpa using hg
    have : List.count (g + 1) [k + 1] = 0 := by rw [List.count_eq_zero]; simp; omega
    omega
  · simp

theorem numbering_bins_le {K : Type} {rows : List (K × Bool)} {bins firsts : List Nat}
    (N : Numbering rows bins firsts) : ∀ b ∈ bins, b ≤ firsts.length := by
  intro b hb
  obtain ⟨i, hi⟩ := List.mem_iff_getElem?.mp hb
  have hir : i < rows.length := N.length ▸ lt_of_get hi
  have hrow : rows[i]? = some (rows[i].1, rows[i].2) := List.getElem?_eq_getElem hir
  cases hk : rows[i].2 with
  | false => rw [hk] at hrow; have := N.filtered i _ hrow; rw [hi] at this; injection this with this; omega
  | true =>
    rw [hk] at hrow
    obtain ⟨g, h1, h2⟩ := N.range i _ hrow
    rw [hi] at h1; injection h1 with h1; omega

/-! ## `MakeHashLocationMultiKey` -/

/-- The state after the rows `pre`. -/
structure LinkInv {K : Type} [DecidableEq K] (pre : List K) (m : K → Option Nat) (s : LinkOut) : Prop where
  out : Linked pre s.uniques s.index s.running s.prev s.next s.first
  last : ∀ k l, m k = some l ↔ LastAt pre k l

theorem take_snoc_count {K : Type} [DecidableEq K] (pre : List K) (k : K) :
    ((pre ++ [k]).take (pre.length + 1)).count k = pre.count k + 1 := by
  rw [List.take_of_length_le (by simp)]; simp

theorem count_lastAt {K : Type} [DecidableEq K] {pre : List K} {k : K} {l : Nat} (h : LastAt pre k l) :
    (pre.take (l + 1)).count k = pre.count k := by
  have e : pre.count k = (pre.take (l + 1)).count k + (pre.drop (l + 1)).count k := by
    rw [← List.count_append, List.take_append_drop]
  have : (pre.drop (l + 1)).count k = 0 := by
    rw [List.count_eq_zero]
    intro hm
    obtain ⟨j, hj⟩ := List.mem_iff_getElem?.mp hm
    rw [List.getElem?_drop] at hj
    exact h.2 (l + 1 + j) (by omega) hj
  omega

theorem run_snoc {K : Type} [DecidableEq K] {pre : List K} {running : List Nat}
    (h : running.length = pre.length ∧
      ∀ (i : Nat) k, pre[i]? = some k → running[i]? = some ((pre.take (i + 1)).count k))
    (k : K) (v : Nat) (hv : v = pre.count k + 1) :
    (running ++ [v]).length = (pre ++ [k]).length ∧
      ∀ (i : Nat) k', (pre ++ [k])[i]? = some k' → (running ++ [v])[i]? = some (((pre ++ [k]).take (i + 1)).count k') := by
  refine ⟨by simp [h.1], fun i k' hk => ?_⟩
  rcases get_snoc hk with ⟨hi, hk⟩ | ⟨rfl, rfl⟩
  · rw [get_snoc_lt (by rw [h.1]; exact hi), h.2 i k' hk, List.take_append_of_le_length (by omega)]
  · rw [take_snoc_count, ← hv, ← h.1, get_snoc_eq]

theorem firstIs_snoc {C : Type} {cs : List C} {c d : C} {f : Nat} (h : FirstIs cs c f) :
    FirstIs (cs ++ [d]) c f := by
  have hf := lt_of_get h.1
  refine ⟨by rw [get_snoc_lt hf]; exact h.1, fun j hj => ?_⟩
  rw [get_snoc_lt (by omega)]; exact h.2 j hj

theorem first_snoc {K : Type} {pre : List K} {first : List Nat}
    (h : first.length = pre.length ∧
      ∀ (i : Nat) k, pre[i]? = some k → ∃ f, first[i]? = some f ∧ FirstIs pre k f)
    (k : K) (v : Nat) (hv : FirstIs (pre ++ [k]) k v) :
    (first ++ [v]).length = (pre ++ [k]).length ∧
      ∀ (i : Nat) k', (pre ++ [k])[i]? = some k' → ∃ f, (first ++ [v])[i]? = some f ∧ FirstIs (pre ++ [k]) k' f := by
  refine ⟨by simp [h.1], fun i k' hk => ?_⟩
  rcases get_snoc hk with ⟨hi, hk⟩ | ⟨rfl, rfl⟩
  · rw [get_snoc_lt (by rw [h.1]; exact hi)]
    obtain ⟨f, h1, h2⟩ := h.2 i k' hk
    exact ⟨f, h1, firstIs_snoc h2⟩
  · rw [← h.1, get_snoc_eq]; exact ⟨v, rfl, hv⟩

theorem getD_of_get {l : List Nat} {i v : Nat} (h : l[i]? = some v) : l.getD i 0 = v := by
  rw [List.getD_eq_getElem?_getD, h]; rfl

theorem link_step {K : Type} [DecidableEq K] {pre : List K} {m : K → Option Nat} {s : LinkOut}
    (I : LinkInv pre m s) (k : K) :
    LinkInv (pre ++ [k]) (mapPut m k s.index.length (fun _ => s.index.length)) (linkNext s k (m k)) := by
  obtain ⟨⟨⟨firsts, N, hu⟩, hrun, hprev, hnext, hfirst⟩, hlast⟩ := I
  have hlen : s.index.length = pre.length := by simpa using N.length
  have hrows : ∀ (j : Nat) k', pre[j]? = some k' → (pre.map fun k => (k, true))[j]? = some (k', true) := by
    intro j k' h; simp [h]
  have hl' : ∀ k' l, mapPut m k s.index.length (fun _ => s.index.length) k' = some l ↔ LastAt (pre ++ [k]) k' l := by
    intro k' l
    unfold mapPut
    by_cases hk : k' = k
    · subst hk
      rw [if_pos rfl, hlen]
      have : ((m k').map fun _ => pre.length).getD pre.length = pre.length := by cases m k' <;> rfl
      rw [this]
      constructor
      · intro e; injection e with e; subst e; exact lastAt_snoc_self _ _
      · intro h; rw [lastAt_unique h (lastAt_snoc_self _ _)]
    · rw [if_neg hk, lastAt_snoc_ne hk]; exact hlast k' l
  refine ⟨?_, hl'⟩
  cases hmk : m k with
  | none =>
    have hnew : ∀ j : Nat, pre[j]? ≠ some k := by
      intro j hj
      obtain ⟨l, hl⟩ := exists_lastAt hj
      rw [(hlast k l).mpr hl] at hmk; simp at hmk
    have hc : pre.count k = 0 := by
      rw [List.count_eq_zero]; intro hm
      obtain ⟨j, hj⟩ := List.mem_iff_getElem?.mp hm
      exact hnew j hj
    refine ⟨⟨firsts ++ [s.index.length], ?_, by simp [linkNext, hu]⟩, run_snoc hrun k 1 (by omega),
      prevAll_snoc hprev k none (prevAt_new hnew), nextAll_new hnext k hnew, ?_⟩
    · have := numbering_new N k (by
        intro j hj
        simp only [List.getElem?_map, Option.map_eq_some_iff] at hj
        obtain ⟨k', h1, h2⟩ := hj
        injection h2 with h2 _; subst h2
        exact hnew j h1)
      rw [hu] at this
      simpa [linkNext] using this
    · refine first_snoc hfirst k _ ?_
      rw [hlen]
      exact ⟨get_snoc_eq _ _, fun j hj => by rw [get_snoc_lt hj]; exact hnew j⟩
  | some l =>
    have hl : LastAt pre k l := (hlast k l).mp hmk
    have hll : l < s.index.length := by rw [hlen]; exact lt_of_get hl.1
    have hg : s.index[l]? = some (s.index.getD l 0) := by
      rw [List.getD_eq_getElem?_getD, List.getElem?_eq_getElem hll]; rfl
    refine ⟨⟨firsts, ?_, hu⟩, run_snoc hrun k _ ?_, prevAll_snoc hprev k (some l) (prevAt_old hl), ?_, ?_⟩
    · have := numbering_old N k l _ (hrows l k hl.1) hg
      simpa [linkNext] using this
    · rw [getD_of_get (hrun.2 l k hl.1), count_lastAt hl]
    · have := nextAll_old hnext hl
      rw [← hlen] at this; exact this
    · obtain ⟨f, h1, h2⟩ := hfirst.2 l k hl.1
      refine first_snoc hfirst k _ ?_
      rw [getD_of_get h1]
      exact firstIs_snoc h2

theorem link_loop {K : Type} [DecidableEq K] (ks : List K) :
    ∀ (pre : List K) (m : K → Option Nat) (s : LinkOut), LinkInv pre m s →
      LinkInv (pre ++ ks) (mapLoop linkPlan linkNext m s ks).1 (mapLoop linkPlan linkNext m s ks).2 := by
  induction ks with
  | nil => intro pre m s I; simpa [mapLoop] using I
  | cons k ks ih =>
    intro pre m s I
    have := ih (pre ++ [k]) _ _ (link_step I k)
    rw [List.append_assoc] at this
    exact this

theorem link_init {K : Type} [DecidableEq K] : LinkInv ([] : List K) noKeys ⟨0, [], [], [], [], []⟩ where
  out := ⟨⟨[], numbering_nil, rfl⟩, ⟨rfl, by simp⟩, ⟨rfl, by simp⟩, ⟨rfl, by simp⟩, ⟨rfl, by simp⟩⟩
  last := by intro k l; simp [noKeys, LastAt]

/-! ## The second pass of `MultiKeyHash` -/

theorem walkBack_spec {K V : Type} [DecidableEq K] (keys : List K) (prev : List (Option Nat)) (hp : PrevAll keys prev) (v : V) :
    ∀ (fuel j : Nat) (a : List V), j < fuel → j < keys.length → a.length = keys.length →
    ∃ a', walkBack prev v fuel j a = some a' ∧ a'.length = keys.length ∧
      ∀ i : Nat, a'[i]? = if i < j ∧ keys[i]? = keys[j]? then some v else a[i]? := by
  intro fuel
  induction fuel with
  | zero => intro j a h; omega
  | succ fuel ih =>
    intro j a hj hjk ha
    have hjp : j < prev.length := by rw [hp.1]; exact hjk
    unfold walkBack
    rw [List.getElem?_eq_getElem hjp]
    have hP := hp.2 j _ (List.getElem?_eq_getElem hjp)
    cases ho : prev[j] with
    | none =>
      rw [ho] at hP
      refine ⟨a, rfl, ha, fun i => ?_⟩
      rw [if_neg]
      rintro ⟨h1, h2⟩
      exact hP i h1 h2
    | some j' =>
      rw [ho] at hP
      obtain ⟨h1, h2, h3⟩ := hP
      obtain ⟨a', e, hl, hs⟩ := ih j' (a.set j' v) (by omega) (by omega) (by simpa using ha)
      refine ⟨a', e, hl, fun i => ?_⟩
      rw [hs i, List.getElem?_set]
      by_cases hij : j' = i
      · subst hij
        rw [if_neg (by omega), if_pos rfl, if_pos (by omega), if_pos ⟨h1, h2⟩]
      · rw [if_neg hij]
        by_cases hlt : i < j'
        · rw [h2]
          by_cases he : keys[i]? = keys[j]?
          · rw [if_pos ⟨hlt, he⟩, if_pos ⟨by omega, he⟩]
          · rw [if_neg (fun h => he h.2), if_neg (fun h => he h.2)]
        · rw [if_neg (fun h => hlt h.1), if_neg]
          rintro ⟨h4, h5⟩
          exact h3 i (by omega) h4 h5

theorem bucketPass_spec {K : Type} [DecidableEq K] (keys : List K) {uniques : Nat} {index running first : List Nat}
    {prev next : List (Option Nat)} (L : Linked keys uniques index running prev next first) :
    ∀ (n : Nat) (a : List (Nat × Nat)), n ≤ keys.length → a.length = keys.length →
    (∀ (i l : Nat) k, keys[i]? = some k → LastAt keys k l → n ≤ l → a[i]? = some (keys.count k, l)) →
    ∃ a', bucketPass running prev next n a = some a' ∧ a'.length = keys.length ∧
      ∀ (i l : Nat) k, keys[i]? = some k → LastAt keys k l → a'[i]? = some (keys.count k, l) := by
  intro n
  induction n with
  | zero =>
    intro a _ ha hdone
    exact ⟨a, rfl, ha, fun i l k h1 h2 => hdone i l k h1 h2 (Nat.zero_le _)⟩
  | succ n ih =>
    intro a hn ha hdone
    have hnn : n < next.length := by rw [L.next.1]; omega
    have hkn : keys[n]? = some keys[n] := List.getElem?_eq_getElem (by omega)
    unfold bucketPass
    rw [List.getElem?_eq_getElem hnn]
    have hN := L.next.2 n _ (List.getElem?_eq_getElem hnn)
    cases ho : next[n] with
    | some j =>
      rw [ho] at hN
      refine ih a (by omega) ha fun i l k h1 h2 h3 => ?_
      by_cases hl : n = l
      · subst hl
        exact absurd (hN.2.1.trans h2.1) (h2.2 j hN.1)
      · exact hdone i l k h1 h2 (by omega)
    | none =>
      rw [ho] at hN
      have hlast : LastAt keys keys[n] n := ⟨hkn, fun j hj hc => hN j hj (hc.trans hkn.symm)⟩
      have hcount : running.getD n 0 = keys.count keys[n] := by
        rw [getD_of_get (L.run.2 n _ hkn), count_lastAt hlast]
      obtain ⟨a', e, hl', hs⟩ := walkBack_spec keys prev L.prev (running.getD n 0, n) (n + 1) n
        (a.set n (running.getD n 0, n)) (by omega) (by omega) (by simpa using ha)
      simp only [e]
      refine ih a' (by omega) hl' fun i l k h1 h2 h3 => ?_
      rw [hs i, List.getElem?_set]
      by_cases hk : k = keys[n]
      · subst hk
        have hln : l = n := lastAt_unique h2 hlast
        subst hln
        by_cases hil : i = l
        · subst hil
          rw [if_neg (by omega), if_pos rfl, if_pos (by omega), hcount]
        · have : i < l := by
            rcases Nat.lt_trichotomy i l with h | h | h
            · exact h
            · exact absurd h hil
            · exact absurd h1 (h2.2 i h)
          rw [if_pos ⟨this, h1.trans hkn.symm⟩, hcount]
      · have hne : keys[i]? ≠ keys[n]? := by
          rw [h1, hkn]; intro e; injection e with e; exact hk e
        rw [if_neg (fun h => hne h.2), if_neg (by rintro rfl; exact hne rfl)]
        refine hdone i l k h1 h2 ?_
        have : l ≠ n := by
          rintro rfl
          have := h2.1; rw [hkn] at this; injection this with this; exact hk this.symm
        omega

/-! ## `GroupBySuper` -/

/-- The label of a row: its key, or the common label of the filtered rows. -/
def labelOf {K : Type} (r : K × Bool) : Option K := if r.2 then some r.1 else none

structure SuperInv {K : Type} (pre : List (K × Bool)) (m : K → Option (Nat × Nat)) (s : SuperOut) : Prop where
  num : Numbering pre s.out.bins s.out.firsts
  next : NextAll (pre.map labelOf) s.next
  counts : s.counts = countsOf s.out.bins s.out.firsts.length
  inv : ∀ l, s.invalidLast = some l ↔ LastAt (pre.map labelOf) none l
  last : ∀ k v, m k = some v ↔ LastAt (pre.map labelOf) (some k) v.1 ∧ s.out.bins[v.1]? = some (v.2 + 1)

theorem super_step {K : Type} [DecidableEq K] {pre : List (K × Bool)} {m : K → Option (Nat × Nat)}
    {s : SuperOut} (I : SuperInv pre m s) (k : K) (keep : Bool) :
    let m' := if keep then mapPut m k (s.out.bins.length, s.out.firsts.length) (fun v => (s.out.bins.length, v.2))
      else m
    SuperInv (pre ++ [(k, keep)]) m' (superNext s (k, keep) (if keep then m k else none)) := by
  obtain ⟨N, hnext, hcounts, hinv, hlast⟩ := I
  have hlen : s.out.bins.length = (pre.map labelOf).length := by simpa using N.length
  have keyRow : ∀ {j : Nat} {k'}, (pre.map labelOf)[j]? = some (some k') → pre[j]? = some (k', true) := by
    intro j k' h
    simp only [List.getElem?_map, Option.map_eq_some_iff] at h
    obtain ⟨⟨a, b⟩, h1, h2⟩ := h
    cases b with
    | false => simp [labelOf] at h2
    | true => simp [labelOf] at h2; subst h2; exact h1
  cases keep with
  | false =>
    have hmap : (pre ++ [(k, false)]).map labelOf = pre.map labelOf ++ [none] := by simp [labelOf]
    refine ⟨numbering_filtered N k, ?_, ?_, ?_, ?_⟩
    · rw [hmap]
      simp only [superNext]
      rw [if_neg (by simp)]
      cases hi : s.invalidLast with
      | none =>
        refine nextAll_new hnext none fun j hj => ?_
        obtain ⟨l, hl⟩ := exists_lastAt hj
        rw [(hinv l).mpr hl] at hi; simp at hi
      | some l =>
        have := nextAll_old hnext ((hinv l).mp hi)
        rw [← hlen] at this
        simpa [hi] using this
    · simp only [superNext]
      rw [if_neg (by simp), countsOf_filtered]; exact hcounts
    · intro l
      rw [hmap]
      simp only [superNext]
      rw [if_neg (by simp), hlen]
      constructor
      · intro e; injection e with e; subst e; exact lastAt_snoc_self _ _
      · intro h; rw [lastAt_unique h (lastAt_snoc_self _ _)]
    · intro k' v
      rw [hmap, lastAt_snoc_ne (by simp)]
      simp only [superNext]
      rw [if_neg (by simp), if_neg (by simp), hlast k' v]
      constructor
      · rintro ⟨h1, h2⟩; exact ⟨h1, by rw [get_snoc_lt (lt_of_get h2)]; exact h2⟩
      · rintro ⟨h1, h2⟩
        refine ⟨h1, ?_⟩
        rw [get_snoc_lt (by rw [hlen]; exact lt_of_get h1.1)] at h2; exact h2
  | true =>
    have hmap : (pre ++ [(k, true)]).map labelOf = pre.map labelOf ++ [some k] := by simp [labelOf]
    simp only [if_true]
    cases hmk : m k with
    | none =>
      have hnew : ∀ j : Nat, (pre.map labelOf)[j]? ≠ some (some k) := by
        intro j hj
        obtain ⟨l, hl⟩ := exists_lastAt hj
        obtain ⟨g, hg, _⟩ := N.range l k (keyRow hl.1)
        have := (hlast k (l, g)).mpr ⟨hl, hg⟩
        rw [hmk] at this; simp at this
      have N' : Numbering (pre ++ [(k, true)]) (s.out.bins ++ [s.out.firsts.length + 1])
          (s.out.firsts ++ [s.out.bins.length]) :=
        numbering_new N k fun j hj => hnew j (by simp [hj, labelOf])
      refine ⟨N', ?_, ?_, ?_, ?_⟩
      · rw [hmap]; exact nextAll_new hnext (some k) hnew
      · simp only [superNext, if_true]
        rw [hcounts, countsOf_new _ _ (numbering_bins_le N)]
        simp
      · intro l; rw [hmap, lastAt_snoc_ne (by simp)]; exact hinv l
      · intro k' v
        rw [hmap]
        simp only [superNext, if_true]
        unfold mapPut
        by_cases hk : k' = k
        · subst hk
          rw [if_pos rfl, hmk]
          simp only [Option.map_none, Option.getD_none, Option.some.injEq]
          constructor
          · rintro rfl
            exact ⟨by rw [hlen]; exact lastAt_snoc_self _ _, get_snoc_eq _ _⟩
          · rintro ⟨h1, h2⟩
            have hv1 : v.1 = s.out.bins.length := by rw [hlen]; exact lastAt_unique h1 (lastAt_snoc_self _ _)
            rw [hv1, get_snoc_eq] at h2
            injection h2 with h2
            exact Prod.ext hv1.symm (by omega)
        · rw [if_neg hk, lastAt_snoc_ne (by simpa using hk), hlast k' v]
          constructor
          · rintro ⟨h1, h2⟩; exact ⟨h1, by rw [get_snoc_lt (lt_of_get h2)]; exact h2⟩
          · rintro ⟨h1, h2⟩
            refine ⟨h1, ?_⟩
            rw [get_snoc_lt (by rw [hlen]; exact lt_of_get h1.1)] at h2; exact h2
    | some w =>
      obtain ⟨hw1, hw2⟩ := (hlast k w).mp hmk
      have hD : s.out.bins.getD w.1 0 = w.2 + 1 := getD_of_get hw2
      have N' : Numbering (pre ++ [(k, true)]) (s.out.bins ++ [w.2 + 1]) s.out.firsts :=
        numbering_old N k w.1 _ (keyRow hw1.1) hw2
      refine ⟨by simp only [superNext, if_true, hD]; exact N', ?_, ?_, ?_, ?_⟩
      · rw [hmap]
        have := nextAll_old hnext hw1
        rw [← hlen] at this
        simpa [superNext] using this
      · simp only [superNext, if_true]
        rw [hcounts, hD]
        exact countsOf_old _ _ _
      · intro l; rw [hmap, lastAt_snoc_ne (by simp)]; exact hinv l
      · intro k' v
        rw [hmap]
        simp only [superNext, if_true, hD]
        unfold mapPut
        by_cases hk : k' = k
        · subst hk
          rw [if_pos rfl, hmk]
          simp only [Option.map_some, Option.getD_some, Option.some.injEq]
          constructor
          · rintro rfl
            exact ⟨by rw [hlen]; exact lastAt_snoc_self _ _, get_snoc_eq _ _⟩
          · rintro ⟨h1, h2⟩
            have hv1 : v.1 = s.out.bins.length := by rw [hlen]; exact lastAt_unique h1 (lastAt_snoc_self _ _)
            rw [hv1, get_snoc_eq] at h2
            injection h2 with h2
            exact Prod.ext hv1.symm (by omega)
        · rw [if_neg hk, lastAt_snoc_ne (by simpa using hk), hlast k' v]
          constructor
          · rintro ⟨h1, h2⟩; exact ⟨h1, by rw [get_snoc_lt (lt_of_get h2)]; exact h2⟩
          · rintro ⟨h1, h2⟩
            refine ⟨h1, ?_⟩
            rw [get_snoc_lt (by rw [hlen]; exact lt_of_get h1.1)] at h2; exact h2

theorem super_loop {K : Type} [DecidableEq K] (rs : List (K × Bool)) :
    ∀ (pre : List (K × Bool)) (m : K → Option (Nat × Nat)) (s : SuperOut), SuperInv pre m s →
      SuperInv (pre ++ rs) (mapLoop superPlan superNext m s rs).1 (mapLoop superPlan superNext m s rs).2 := by
  induction rs with
  | nil => intro pre m s I; simpa [mapLoop] using I
  | cons r rs ih =>
    intro pre m s I
    obtain ⟨k, keep⟩ := r
    have h := ih (pre ++ [(k, keep)]) _ _ (super_step I k keep)
    rw [List.append_assoc] at h
    cases keep <;> exact h

theorem super_init {K : Type} : SuperInv ([] : List (K × Bool)) noKeys ⟨.init, [], [], none⟩ where
  num := numbering_nil
  next := ⟨rfl, by simp⟩
  counts := rfl
  inv := by intro l; simp [LastAt]
  last := by intro k l; simp [noKeys, LastAt]

/-! ## `Unique` -/

structure UniqueInv {K : Type} (pre : List (K × Bool)) (m : K → Option Nat) (u : UniqueOut) (bins : List Nat) :
    Prop where
  num : Numbering pre bins u.index
  counts : u.counts = countsOf bins u.index.length
  row : u.row = pre.length
  last : ∀ k g, m k = some g ↔ ∃ j : Nat, pre[j]? = some (k, true) ∧ bins[j]? = some (g + 1)

theorem unique_step {K : Type} [DecidableEq K] {pre : List (K × Bool)} {m : K → Option Nat} {u : UniqueOut}
    {bins : List Nat} (I : UniqueInv pre m u bins) (k : K) (keep : Bool) :
    ∃ bins', UniqueInv (pre ++ [(k, keep)]) (if keep then mapPut m k u.index.length id else m)
      (uniqueNext u (k, keep) (if keep then m k else none)) bins' := by
  obtain ⟨N, hc, hrow, hm⟩ := I
  have lift : ∀ {j : Nat} {k' v w}, pre[j]? = some (k', true) → bins[j]? = some v →
      (pre ++ [(k, keep)])[j]? = some (k', true) ∧ (bins ++ [w])[j]? = some v := by
    intro j k' v w h1 h2
    exact ⟨by rw [get_snoc_lt (lt_of_get h1)]; exact h1, by rw [get_snoc_lt (lt_of_get h2)]; exact h2⟩
  have unlift : ∀ {j : Nat} {k' v w}, (keep = true → k' ≠ k) → (pre ++ [(k, keep)])[j]? = some (k', true) →
      (bins ++ [w])[j]? = some v → pre[j]? = some (k', true) ∧ bins[j]? = some v := by
    intro j k' v w hne h1 h2
    rcases get_snoc h1 with ⟨hj, h1⟩ | ⟨_, e⟩
    · rw [get_snoc_lt (by rw [N.length]; exact hj)] at h2; exact ⟨h1, h2⟩
    · injection e with e1 e2; exact absurd e1.symm (hne e2)
  cases keep with
  | false =>
    refine ⟨bins ++ [0], numbering_filtered N k, ?_, by simp [uniqueNext, hrow], fun k' g => ?_⟩
    · simp only [uniqueNext]; rw [if_neg (by simp), countsOf_filtered]; exact hc
    · rw [if_neg (by simp), hm k' g]
      exact ⟨fun ⟨j, h1, h2⟩ => ⟨j, lift h1 h2⟩, fun ⟨j, h1, h2⟩ => ⟨j, unlift (by simp) h1 h2⟩⟩
  | true =>
    simp only [if_true]
    cases hmk : m k with
    | none =>
      have hnew : ∀ j : Nat, pre[j]? ≠ some (k, true) := by
        intro j hj
        obtain ⟨g, hg, _⟩ := N.range j k hj
        rw [(hm k g).mpr ⟨j, hj, hg⟩] at hmk; simp at hmk
      have N' := numbering_new N k hnew
      refine ⟨bins ++ [u.index.length + 1], ?_, ?_, by simp [uniqueNext, hrow], fun k' g => ?_⟩
      · simp only [uniqueNext, if_true, hrow]; rw [← N.length]; exact N'
      · simp only [uniqueNext, if_true]
        rw [hc, countsOf_new _ _ (numbering_bins_le N)]; simp
      · unfold mapPut
        by_cases hk : k' = k
        · subst hk
          rw [if_pos rfl, hmk]
          simp only [Option.map_none, Option.getD_none, Option.some.injEq]
          constructor
          · rintro rfl; exact ⟨pre.length, get_snoc_eq _ _, by rw [← N.length]; exact get_snoc_eq _ _⟩
          · rintro ⟨j, g1, g2⟩
            rcases get_snoc g1 with ⟨_, g1⟩ | ⟨rfl, _⟩
            · exact absurd g1 (hnew j)
            · rw [← N.length, get_snoc_eq] at g2; injection g2 with g2; omega
        · rw [if_neg hk, hm k' g]
          exact ⟨fun ⟨j, h1, h2⟩ => ⟨j, lift h1 h2⟩, fun ⟨j, h1, h2⟩ => ⟨j, unlift (fun _ => hk) h1 h2⟩⟩
    | some w =>
      obtain ⟨j0, hj0, hw⟩ := (hm k w).mp hmk
      refine ⟨bins ++ [w + 1], numbering_old N k j0 _ hj0 hw, ?_, by simp [uniqueNext, hrow], fun k' g => ?_⟩
      · simp only [uniqueNext, if_true]; rw [hc]; exact countsOf_old _ _ _
      · unfold mapPut
        by_cases hk : k' = k
        · subst hk
          rw [if_pos rfl, hmk]
          simp only [Option.map_some, id, Option.getD_some, Option.some.injEq]
          constructor
          · rintro rfl; exact ⟨j0, lift hj0 hw⟩
          · rintro ⟨j, g1, g2⟩
            rcases get_snoc g1 with ⟨hj, g1⟩ | ⟨rfl, _⟩
            · rw [get_snoc_lt (by rw [N.length]; exact hj)] at g2
              have := (hm k' g).mpr ⟨j, g1, g2⟩
              rw [hmk] at this; injection this
            · rw [← N.length, get_snoc_eq] at g2; injection g2 with g2; omega
        · rw [if_neg hk, hm k' g]
          exact ⟨fun ⟨j, h1, h2⟩ => ⟨j, lift h1 h2⟩, fun ⟨j, h1, h2⟩ => ⟨j, unlift (fun _ => hk) h1 h2⟩⟩

theorem unique_loop {K : Type} [DecidableEq K] (rs : List (K × Bool)) :
    ∀ (pre : List (K × Bool)) (m : K → Option Nat) (u : UniqueOut) (bins : List Nat), UniqueInv pre m u bins →
      ∃ bins', UniqueInv (pre ++ rs) (mapLoop uniquePlan uniqueNext m u rs).1
        (mapLoop uniquePlan uniqueNext m u rs).2 bins' := by
  induction rs with
  | nil => intro pre m s b I; exact ⟨b, by simpa [mapLoop] using I⟩
  | cons r rs ih =>
    intro pre m s b I
    obtain ⟨k, keep⟩ := r
    obtain ⟨b', I'⟩ := unique_step I k keep
    have h := ih (pre ++ [(k, keep)]) _ _ b' I'
    rw [List.append_assoc] at h
    cases keep <;> exact h

theorem unique_init {K : Type} : UniqueInv ([] : List (K × Bool)) noKeys ⟨0, [], []⟩ [] where
  num := numbering_nil
  counts := rfl
  row := rfl
  last := by intro k l; simp [noKeys]

/-! ## `MultiKeyRolling` -/

structure RollInv {K : Type} [DecidableEq K] (pre : List K) (m : K → Option (Nat × Nat)) (u : Nat)
    (index running : List Nat) : Prop where
  num : ∃ firsts, Numbering (pre.map fun k => (k, true)) (index.map (· + 1)) firsts ∧ firsts.length = u
  run : running.length = pre.length ∧
    ∀ (i : Nat) k, pre[i]? = some k → running[i]? = some ((pre.take (i + 1)).count k)
  last : ∀ k v, m k = some v ↔ (∃ j : Nat, pre[j]? = some k ∧ index[j]? = some v.1) ∧ v.2 = pre.count k

theorem roll_step {K : Type} [DecidableEq K] {pre : List K} {m : K → Option (Nat × Nat)} {u : Nat}
    {I R : List Nat} (inv : RollInv pre m u I R) (k : K) (s : RollOut) (hs : s.uniques = u) (pi pr : List Nat)
    (hi : I = pi ++ s.index) (hr : R = pr ++ s.running) :
    let s' := rollNext s k (m k)
    RollInv (pre ++ [k]) (mapPut m k (s.uniques, 1) (fun v => (v.1, v.2 + 1))) s'.uniques (pi ++ s'.index)
      (pr ++ s'.running) := by
  obtain ⟨⟨firsts, N, hu⟩, hrun, hm⟩ := inv
  have hlen : I.length = pre.length := by simpa using N.length
  have hrows : ∀ {j : Nat} {k'}, pre[j]? = some k' → (pre.map fun k => (k, true))[j]? = some (k', true) := by
    intro j k' h; simp [h]
  subst hs
  have lift : ∀ {j : Nat} {k' v w}, pre[j]? = some k' → I[j]? = some v →
      (pre ++ [k])[j]? = some k' ∧ (I ++ [w])[j]? = some v := by
    intro j k' v w h1 h2
    exact ⟨by rw [get_snoc_lt (lt_of_get h1)]; exact h1, by rw [get_snoc_lt (lt_of_get h2)]; exact h2⟩
  have unlift : ∀ {j : Nat} {k' v w}, k' ≠ k → (pre ++ [k])[j]? = some k' →
      (I ++ [w])[j]? = some v → pre[j]? = some k' ∧ I[j]? = some v := by
    intro j k' v w hne h1 h2
    rcases get_snoc h1 with ⟨hj, h1⟩ | ⟨_, e⟩
    · rw [get_snoc_lt (by rw [hlen]; exact hj)] at h2; exact ⟨h1, h2⟩
    · exact absurd e.symm hne
  have other : ∀ {k'} {v : Nat × Nat} {w}, k' ≠ k →
      ((∃ j : Nat, pre[j]? = some k' ∧ I[j]? = some v.1) ∧ v.2 = pre.count k' ↔
       (∃ j : Nat, (pre ++ [k])[j]? = some k' ∧ (I ++ [w])[j]? = some v.1) ∧ v.2 = (pre ++ [k]).count k') := by
    intro k' v w hne
    have : (pre ++ [k]).count k' = pre.count k' := by simp [Ne.symm hne]
    rw [this]
    exact ⟨fun ⟨⟨j, h1, h2⟩, h⟩ => ⟨⟨j, lift h1 h2⟩, h⟩, fun ⟨⟨j, h1, h2⟩, h⟩ => ⟨⟨j, unlift hne h1 h2⟩, h⟩⟩
  have hcnt : (pre ++ [k]).count k = pre.count k + 1 := by simp
  cases hmk : m k with
  | none =>
    have hnew : ∀ j : Nat, pre[j]? ≠ some k := by
      intro j hj
      have hjI : j < I.length := by rw [hlen]; exact lt_of_get hj
      rw [(hm k (I[j], pre.count k)).mpr ⟨⟨j, hj, List.getElem?_eq_getElem hjI⟩, rfl⟩] at hmk; simp at hmk
    have hc : pre.count k = 0 := by
      rw [List.count_eq_zero]; intro hmem
      obtain ⟨j, hj⟩ := List.mem_iff_getElem?.mp hmem
      exact hnew j hj
    have eI : pi ++ (s.index ++ [s.uniques]) = I ++ [s.uniques] := by rw [hi, List.append_assoc]
    have eR : pr ++ (s.running ++ [1]) = R ++ [1] := by rw [hr, List.append_assoc]
    simp only [rollNext, eI, eR]
    refine ⟨⟨firsts ++ [I.length], ?_, by simp [hu]⟩, run_snoc hrun k 1 (by omega), fun k' v => ?_⟩
    · have := numbering_new N k (by
        intro j hj
        simp only [List.getElem?_map, Option.map_eq_some_iff] at hj
        obtain ⟨k', h1, h2⟩ := hj
        injection h2 with h2 _; subst h2
        exact hnew j h1)
      rw [hu] at this
      simpa using this
    · unfold mapPut
      by_cases hk : k' = k
      · subst hk
        rw [if_pos rfl, hmk, hcnt]
        simp only [Option.map_none, Option.getD_none, Option.some.injEq]
        constructor
        · rintro rfl
          exact ⟨⟨pre.length, get_snoc_eq _ _, by rw [← hlen]; exact get_snoc_eq _ _⟩, by simp; omega⟩
        · rintro ⟨⟨j, g1, g2⟩, g3⟩
          rcases get_snoc g1 with ⟨_, g1⟩ | ⟨rfl, _⟩
          · exact absurd g1 (hnew j)
          · rw [← hlen, get_snoc_eq] at g2; injection g2 with g2
            exact Prod.ext g2 (by simp; omega)
      · rw [if_neg hk, hm k' v]; exact other hk
  | some w =>
    obtain ⟨⟨j0, hj0, hw⟩, hw2⟩ := (hm k w).mp hmk
    have eI : pi ++ (s.index ++ [w.1]) = I ++ [w.1] := by rw [hi, List.append_assoc]
    have eR : pr ++ (s.running ++ [w.2 + 1]) = R ++ [w.2 + 1] := by rw [hr, List.append_assoc]
    simp only [rollNext, eI, eR]
    refine ⟨⟨firsts, ?_, hu⟩, run_snoc hrun k _ (by omega), fun k' v => ?_⟩
    · have := numbering_old N k j0 (w.1 + 1) (hrows hj0) (by simp [hw])
      simpa using this
    · unfold mapPut
      by_cases hk : k' = k
      · subst hk
        rw [if_pos rfl, hmk, hcnt]
        simp only [Option.map_some, Option.getD_some, Option.some.injEq]
        constructor
        · rintro rfl; exact ⟨⟨j0, lift hj0 hw⟩, by simp; omega⟩
        · rintro ⟨⟨j, g1, g2⟩, g3⟩
          rcases get_snoc g1 with ⟨hj, g1⟩ | ⟨rfl, _⟩
          · rw [get_snoc_lt (by rw [hlen]; exact hj)] at g2
            have := (hm k' (v.1, pre.count k')).mpr ⟨⟨j, g1, g2⟩, rfl⟩
            rw [hmk] at this; injection this with this
            rw [this]
            exact Prod.ext rfl g3.symm
          · rw [← hlen, get_snoc_eq] at g2; injection g2 with g2
            exact Prod.ext g2 (by simp; omega)
      · rw [if_neg hk, hm k' v]; exact other hk

theorem roll_loop {K : Type} [DecidableEq K] (ks : List K) :
    ∀ (pre : List K) (m : K → Option (Nat × Nat)) (s : RollOut) (pi pr : List Nat),
    RollInv pre m s.uniques (pi ++ s.index) (pr ++ s.running) →
    let o := mapLoop rollPlan rollNext m s ks
    RollInv (pre ++ ks) o.1 o.2.uniques (pi ++ o.2.index) (pr ++ o.2.running) := by
  induction ks with
  | nil => intro pre m s pi pr I; simpa [mapLoop] using I
  | cons k ks ih =>
    intro pre m s pi pr I
    have h := ih (pre ++ [k]) _ _ pi pr (roll_step I k s rfl pi pr rfl rfl)
    rw [List.append_assoc] at h
    exact h

theorem roll_init {K : Type} [DecidableEq K] : RollInv ([] : List K) noKeys 0 [] [] where
  num := ⟨[], numbering_nil, rfl⟩
  run := ⟨rfl, by simp⟩
  last := by intro k v; simp [noKeys]

end Riptide.Hash
