import Verif.Hash.LinkLemmas
import Verif.Hash.MemberProps
import Verif.Work.Props
/-! # Grouping (C13), links and buckets (C14), uniques (C52), group lists (C53), rolling counts (C54),
partitioned grouping (C56) -/
namespace Riptide.Hash
open Spec

/-! ## C13 -/

/-- **C13**: grouping a column numbers the distinct kept keys by first appearance, for every hash function
with values below the table size, whenever the kept keys come from fewer values than there are slots. -/
theorem groupby_first_appearance {K : Type} [DecidableEq K] (hash : K → Nat) (size : Nat)
    (hr : ∀ k, hash k < size) (rows : List (K × Bool)) (U : List K) (hU : ∀ r ∈ rows, r.2 = true → r.1 ∈ U)
    (hsize : U.length < size) :
    ∃ o, groupBy hash size rows = .ok o ∧ Numbering rows o.bins o.firsts := by
  obtain ⟨t', e, _⟩ := loop_eq_map (probing_isMap (V := Nat) hash size U hr hsize) groupPlan groupNext rows
    (by
      intro s r hrm
      unfold groupPlan
      cases hb : r.2 with
      | false => simp
      | true => simpa using hU r hrm hb)
    (fresh K Nat size) noKeys .init (represents_fresh hash size U)
  refine ⟨_, by unfold groupBy; rw [e]; rfl, ?_⟩
  have := group_loop rows [] noKeys .init numbering_nil (by intro k v; simp [noKeys])
  simpa using this

/-- **C13**, 1- and 2-byte keys in mask mode: no comparison is made, and none is needed, when the table is
a power of two with a slot for every key. -/
theorem groupby_small_first_appearance (e : Nat) (rows : List (Nat × Bool))
    (hk : ∀ r ∈ rows, r.2 = true → r.1 < 2 ^ e) :
    ∃ o, groupBySmall (2 ^ e) rows = .ok o ∧ Numbering rows o.bins o.firsts := by
  obtain ⟨t', h, _⟩ := loop_eq_map (perfect_isMap (V := Nat) e) groupPlan groupNext rows
    (by
      intro s r hrm
      unfold groupPlan
      cases hb : r.2 with
      | false => simp
      | true => simpa using hk r hrm hb)
    (fresh Nat Nat (2 ^ e)) noKeys .init (direct_fresh (2 ^ e))
  refine ⟨_, by unfold groupBySmall; rw [h]; rfl, ?_⟩
  have := group_loop rows [] noKeys .init numbering_nil (by intro k v; simp [noKeys])
  simpa using this

/-- **C13**, several columns: the same numbering. -/
theorem groupby_multikey_first_appearance {K : Type} [DecidableEq K] (hash : K → Nat) (size : Nat)
    (hr : ∀ k, hash k < size) (rows : List (K × Bool)) (U : List K) (hU : ∀ r ∈ rows, r.2 = true → r.1 ∈ U)
    (hsize : U.length < size) :
    ∃ o, groupByMk hash size rows = .ok o ∧ Numbering rows o.bins o.firsts := by
  obtain ⟨t', e, _⟩ := loop_eq_map (probing_isMap (V := Nat) hash size U hr hsize) groupMkPlan groupMkNext rows
    (by
      intro s r hrm
      unfold groupMkPlan
      cases hb : r.2 with
      | false => simp
      | true => simpa using hU r hrm hb)
    (fresh K Nat size) noKeys .init (represents_fresh hash size U)
  refine ⟨_, by unfold groupByMk; rw [e]; rfl, ?_⟩
  have := group_loop rows [] noKeys .init numbering_nil (by intro k v; simp [noKeys])
  have hsame := groupMk_loop rows noKeys noKeys .init (by intro k; rfl) (by intro k j h; simp [noKeys] at h)
  rw [← hsame] at this
  simpa using this

/-- The sizes chosen by `AllocMemory` from the number of rows suffice: the hypotheses above hold with the
keys themselves as `U`. -/
theorem groupby_sized {K : Type} [DecidableEq K] (hash : K → Nat) (rows : List (K × Bool)) (size : Nat)
    (hn : rows.length ≤ 2 ^ 59) (hs : allocSize .mask rows.length false = some size) (hr : ∀ k, hash k < size) :
    ∃ o, groupBy hash size rows = .ok o ∧ Numbering rows o.bins o.firsts := by
  obtain ⟨s', k, h1, h2, h3⟩ := mask_size rows.length false hn
  refine groupby_first_appearance hash size hr rows (rows.map Prod.fst) (fun r h _ => List.mem_map_of_mem h) ?_
  rw [h1] at hs
  injection hs with hs
  simp only [List.length_map]
  omega

theorem sorted_ext : ∀ {l l' : List Nat}, l.Pairwise (· < ·) → l'.Pairwise (· < ·) → (∀ x, x ∈ l ↔ x ∈ l') → l = l'
  | [], [], _, _, _ => rfl
  | [], b :: _, _, _, h => absurd ((h b).mpr (by simp)) (by simp)
  | a :: _, [], _, _, h => absurd ((h a).mp (by simp)) (by simp)
  | a :: l, b :: l', h1, h2, h => by
    rw [List.pairwise_cons] at h1 h2
    have hab : a = b := by
      have ha := (h a).mp (by simp)
      have hb := (h b).mpr (by simp)
      rcases List.mem_cons.mp ha with e | ha
      · exact e
      · rcases List.mem_cons.mp hb with e | hb
        · exact e.symm
        · have := h1.1 b hb; have := h2.1 a ha; omega
    subst hab
    congr 1
    refine sorted_ext h1.2 h2.2 fun x => ?_
    have := h x
    simp only [List.mem_cons] at this
    constructor
    · intro hx
      rcases this.mp (.inr hx) with e | hx'
      · subst e; have := h1.1 x hx; omega
      · exact hx'
    · intro hx
      rcases this.mpr (.inr hx) with e | hx'
      · subst e; have := h2.1 x hx; omega
      · exact hx'

/-- The bins and first rows are determined by the rows: `Numbering` leaves no freedom. -/
theorem numbering_unique {K : Type} {rows : List (K × Bool)} {bins bins' firsts firsts' : List Nat}
    (N : Numbering rows bins firsts) (N' : Numbering rows bins' firsts') : bins = bins' ∧ firsts = firsts' := by
  have kept : ∀ {b f} (_ : Numbering rows b f) {g x : Nat}, f[g]? = some x → ∃ k, rows[x]? = some (k, true) := by
    intro b f N g x h
    have hb := (N.first g x h).1
    have hx : x < rows.length := N.length ▸ lt_of_get hb
    have hrow : rows[x]? = some (rows[x].1, rows[x].2) := List.getElem?_eq_getElem hx
    cases hk : rows[x].2 with
    | false => rw [hk] at hrow; rw [N.filtered x _ hrow] at hb; simp at hb
    | true => rw [hk] at hrow; exact ⟨_, hrow⟩
  have mem : ∀ {b f} (_ : Numbering rows b f) (x : Nat), x ∈ f ↔
      ∃ k, rows[x]? = some (k, true) ∧ ∀ j : Nat, j < x → rows[j]? ≠ some (k, true) := by
    intro b f N x
    constructor
    · intro hx
      obtain ⟨g, hg⟩ := List.mem_iff_getElem?.mp hx
      obtain ⟨k, hk⟩ := kept N hg
      refine ⟨k, hk, fun j hj hjk => (N.first g x hg).2 j hj ?_⟩
      rw [← (N.first g x hg).1]
      exact (N.same j x k k hjk hk).mpr rfl
    · rintro ⟨k, hk, hmin⟩
      obtain ⟨g, hg, hlt⟩ := N.range x k hk
      have hfg := List.getElem?_eq_getElem hlt
      obtain ⟨h1, h2⟩ := N.first g _ hfg
      obtain ⟨k', hk'⟩ := kept N hfg
      have hkk : k' = k := (N.same _ x k' k hk' hk).mp (h1.trans hg.symm)
      subst hkk
      have hxe : x = f[g] := by
        rcases Nat.lt_trichotomy x f[g] with h | h | h
        · exact absurd hg (h2 x h)
        · exact h
        · exact absurd hk' (hmin _ h)
      rw [hxe]; exact List.getElem_mem hlt
  have hf : firsts = firsts' := sorted_ext N.order N'.order fun x => (mem N x).trans (mem N' x).symm
  subst hf
  refine ⟨List.ext_getElem? fun i => ?_, rfl⟩
  by_cases hi : i < rows.length
  · have hrow : rows[i]? = some (rows[i].1, rows[i].2) := List.getElem?_eq_getElem hi
    cases hk : rows[i].2 with
    | false => rw [hk] at hrow; rw [N.filtered i _ hrow, N'.filtered i _ hrow]
    | true =>
      rw [hk] at hrow
      obtain ⟨g, hg, hlt⟩ := N.range i _ hrow
      have hfg := List.getElem?_eq_getElem hlt
      obtain ⟨k', hk'⟩ := kept N hfg
      have hkk := (N.same _ i k' _ hk' hrow).mp ((N.first g _ hfg).1.trans hg.symm)
      rw [hg, ← (N'.first g _ hfg).1]
      exact (N'.same _ i k' _ hk' hrow).mpr hkk
  · rw [List.getElem?_eq_none (by rw [N.length]; omega), List.getElem?_eq_none (by rw [N'.length]; omega)]

-- a table of 5 slots in which all keys collide
example : groupBy (fun _ => 4) 5 [(7, true), (3, true), (9, false), (7, true), (5, true), (3, true)] =
    .ok ⟨[1, 2, 0, 1, 3, 2], [0, 1, 4]⟩ := by rfl
example : groupByMk (fun k : List Nat => k.length % 4) 4 [([1, 2], true), ([1], true), ([9], false), ([1, 2], true)] =
    .ok ⟨[1, 2, 0, 1], [0, 1]⟩ := by rfl
example : groupBySmall (2 ^ 3) [(7, true), (3, true), (7, true)] = .ok ⟨[1, 2, 1], [0, 1]⟩ := by rfl
example : Numbering [(7, true), (3, true), (9, false), (7, true)] [1, 2, 0, 1] [0, 1] := by
  obtain ⟨o, h, N⟩ := groupby_first_appearance (fun _ => 2) 3 (by simp)
    [(7, true), (3, true), (9, false), (7, true)] [7, 3] (by decide) (by decide)
  have : o = ⟨[1, 2, 0, 1], [0, 1]⟩ := by injection h with h; exact h.symm
  subst this; exact N

set_option maxRecDepth 20000 in
/-- In prime mode 1-byte keys get a table of 193 slots; masked with 192, different keys share a slot and so
a group (the caller's hash mode is used for small keys too, `src/HashLinear.cpp:5188-5201`). -/
theorem small_keys_prime_mode_merges :
    allocSize .prime 128 false = some 193 ∧
    groupBySmall 193 [(64, true), (65, true)] = .ok ⟨[1, 1], [0]⟩ ∧
    ∀ firsts, ¬ Numbering [(64, true), (65, true)] [1, 1] firsts := by
  refine ⟨by decide +kernel, by rfl, fun firsts N => ?_⟩
  have := (N.same 0 1 64 65 rfl rfl).mp rfl
  omega

/-- Floats are grouped by bit pattern: the two zeros (equal numbers) get different groups, while a NaN is
grouped with the NaNs of its own pattern. -/
theorem groupby_float_bits :
    SameFloat FT.f64 0 (2 ^ 63) ∧
    groupBy (fun k => k % 4) 4 [(0, true), (2 ^ 63, true), (0x7FF8000000000000, true), (0x7FF8000000000000, true)] =
      .ok ⟨[1, 2, 3, 3], [0, 1, 2]⟩ := by
  refine ⟨⟨by decide, by decide, .inr ⟨by decide, by decide⟩⟩, by rfl⟩

/-- With a hint below the number of distinct keys the call fails. -/
theorem groupby_small_hint_fails : groupBy (fun k => k % 2) 2 [(1, true), (2, true), (3, true)] = .error .full := by rfl

/-! ## C14 -/

/-- **C14**: group number, running count, nearest earlier and later row, and first row of every row. -/
theorem multikey_links {K : Type} [DecidableEq K] (hash : K → Nat) (size : Nat)
    (hr : ∀ k, hash k < size) (keys : List K) (U : List K) (hU : ∀ k ∈ keys, k ∈ U) (hsize : U.length < size) :
    ∃ o, makeLinks hash size keys = .ok o ∧ Linked keys o.uniques o.index o.running o.prev o.next o.first := by
  obtain ⟨t', e, _⟩ := loop_eq_map (probing_isMap (V := Nat) hash size U hr hsize) linkPlan linkNext keys
    (by intro s r hrm; simpa [linkPlan] using hU r hrm)
    (fresh K Nat size) noKeys ⟨0, [], [], [], [], []⟩ (represents_fresh hash size U)
  refine ⟨_, by unfold makeLinks; rw [e]; rfl, ?_⟩
  have := (link_loop keys [] noKeys ⟨0, [], [], [], [], []⟩ link_init).out
  simpa using this

/-- **C14**, second pass: from correct links it ends, whatever the arrays held before, and gives every row the
number of rows with its key and the last of them. -/
theorem multikey_buckets {K : Type} [DecidableEq K] (keys : List K) {uniques : Nat}
    {index running first : List Nat} {prev next : List (Option Nat)}
    (L : Linked keys uniques index running prev next first) (junk : List (Nat × Nat))
    (hj : junk.length = keys.length) :
    ∃ a, bucketPass running prev next keys.length junk = some a ∧ a.length = keys.length ∧
      ∀ (i : Nat) k, keys[i]? = some k → ∃ l, LastAt keys k l ∧ a[i]? = some (keys.count k, l) := by
  obtain ⟨a, h1, h2, h3⟩ := bucketPass_spec keys L keys.length junk (Nat.le_refl _) hj (by
    intro i l k _ h hl
    have := lt_of_get h.1
    omega)
  refine ⟨a, h1, h2, fun i k hk => ?_⟩
  obtain ⟨l, hl⟩ := exists_lastAt hk
  exact ⟨l, hl, h3 i l k hk hl⟩

example : makeLinks (fun _ => 3) 4 [7, 8, 7, 9, 7] =
    .ok ⟨3, [1, 2, 1, 3, 1], [1, 1, 2, 1, 3], [none, none, some 0, none, some 2],
      [some 2, none, some 4, none, none], [0, 1, 0, 3, 0]⟩ := by rfl
example : bucketPass [1, 1, 2, 1, 3] [none, none, some 0, none, some 2] [some 2, none, some 4, none, none] 5
    (List.replicate 5 (99, 99)) = some [(3, 4), (1, 1), (3, 4), (1, 3), (3, 4)] := by rfl

/-! ## C52 -/

/-- **C52**: `Unique` reports the first row of every distinct kept key, in that order, and its number of rows. -/
theorem unique_first_and_counts {K : Type} [DecidableEq K] (hash : K → Nat) (size : Nat)
    (hr : ∀ k, hash k < size) (rows : List (K × Bool)) (U : List K) (hU : ∀ r ∈ rows, r.2 = true → r.1 ∈ U)
    (hsize : U.length < size) :
    ∃ o, unique hash size rows = .ok o ∧ o.index.Pairwise (· < ·) ∧
      (∀ x : Nat, x ∈ o.index ↔
        ∃ k, rows[x]? = some (k, true) ∧ ∀ j : Nat, j < x → rows[j]? ≠ some (k, true)) ∧
      o.counts.length = o.index.length ∧
      ∀ (g x : Nat) k, o.index[g]? = some x → rows[x]? = some (k, true) →
        o.counts[g]? = some (rows.count (k, true)) := by
  obtain ⟨t', e, _⟩ := loop_eq_map (probing_isMap (V := Nat) hash size U hr hsize) uniquePlan uniqueNext rows
    (by
      intro s r hrm
      unfold uniquePlan
      cases hb : r.2 with
      | false => simp
      | true => simpa using hU r hrm hb)
    (fresh K Nat size) noKeys ⟨0, [], []⟩ (represents_fresh hash size U)
  refine ⟨_, by unfold unique; rw [e]; rfl, ?_⟩
  obtain ⟨bins, I⟩ := unique_loop rows [] noKeys ⟨0, [], []⟩ [] unique_init
  generalize (mapLoop uniquePlan uniqueNext noKeys ⟨0, [], []⟩ rows).2 = o at *
  have N : Numbering rows bins o.index := by simpa using I.num
  have kept : ∀ {g x : Nat}, o.index[g]? = some x → ∃ k, rows[x]? = some (k, true) := by
    intro g x h
    have hb := (N.first g x h).1
    have hx : x < rows.length := N.length ▸ lt_of_get hb
    have hrow : rows[x]? = some (rows[x].1, rows[x].2) := List.getElem?_eq_getElem hx
    cases hk : rows[x].2 with
    | false => rw [hk] at hrow; rw [N.filtered x _ hrow] at hb; simp at hb
    | true => rw [hk] at hrow; exact ⟨_, hrow⟩
  refine ⟨N.order, fun x => ⟨fun hx => ?_, ?_⟩, ?_, ?_⟩
  · obtain ⟨g, hg⟩ := List.mem_iff_getElem?.mp hx
    obtain ⟨k, hk⟩ := kept hg
    refine ⟨k, hk, fun j hj hjk => (N.first g x hg).2 j hj ?_⟩
    rw [← (N.first g x hg).1]
    exact (N.same j x k k hjk hk).mpr rfl
  · rintro ⟨k, hk, hmin⟩
    obtain ⟨g, hg, hlt⟩ := N.range x k hk
    have hfg := List.getElem?_eq_getElem hlt
    obtain ⟨h1, h2⟩ := N.first g _ hfg
    obtain ⟨k', hk'⟩ := kept hfg
    have hkk : k' = k := (N.same _ x k' k hk' hk).mp (h1.trans hg.symm)
    subst hkk
    have hxe : x = o.index[g] := by
      rcases Nat.lt_trichotomy x o.index[g] with h | h | h
      · exact absurd hg (h2 x h)
      · exact h
      · exact absurd hk' (hmin _ h)
    rw [hxe]; exact List.getElem_mem hlt
  · rw [I.counts]; simp [countsOf]
  · intro g x k hg hk
    have hgl := lt_of_get hg
    rw [I.counts]
    have : bins.count (g + 1) = rows.count (k, true) := by
      -- row by row: the bin is `g + 1` exactly for the rows `(k, true)`
      have hpt : ∀ i : Nat, bins[i]? = some (g + 1) ↔ rows[i]? = some (k, true) := by
        intro i
        obtain ⟨h1, _⟩ := N.first g x hg
        constructor
        · intro hi
          have hir : i < rows.length := N.length ▸ lt_of_get hi
          have hrow : rows[i]? = some (rows[i].1, rows[i].2) := List.getElem?_eq_getElem hir
          cases hb : rows[i].2 with
          | false => rw [hb] at hrow; rw [N.filtered i _ hrow] at hi; simp at hi
          | true =>
            rw [hb] at hrow
            rw [hrow, (N.same i x _ k hrow hk).mp (hi.trans h1.symm)]
        · intro hi; rw [← h1]; exact (N.same i x k k hi hk).mpr rfl
      have hlen := N.length
      clear N I e kept hg hk
      revert hpt hlen
      generalize rows = rs
      induction bins generalizing rs with
      | nil => intro hpt hlen; cases rs with
        | nil => rfl
        | cons => simp at hlen
      | cons b bins ih =>
        intro hpt hlen
        cases rs with
        | nil => simp at hlen
        | cons r rs =>
          have h0 := hpt 0
          have ih := ih rs (fun i => by have := hpt (i + 1); simpa using this) (by simpa using hlen)
          simp only [List.getElem?_cons_zero, Option.some.injEq] at h0
          rw [List.count_cons, List.count_cons, ih]
          by_cases hb : b = g + 1
          · rw [h0.mp hb]; simp [hb]
          · have : r ≠ (k, true) := fun h => hb (h0.mpr h)
            simp [hb, this]
    simp [countsOf, hgl, this]

example : unique (fun k => k % 3) 3 [(7, true), (4, true), (7, true), (9, false), (4, true), (7, true)] =
    .ok ⟨6, [0, 1], [3, 2]⟩ := by rfl

/-! ## C53 -/

/-- **C53**: `GroupBySuper` gives the same groups as C13, links every row to the next row of its group (the
filtered rows form one group of their own), and counts the rows of every group. -/
theorem groupsuper_lists {K : Type} [DecidableEq K] (hash : K → Nat) (size : Nat)
    (hr : ∀ k, hash k < size) (rows : List (K × Bool)) (U : List K) (hU : ∀ r ∈ rows, r.2 = true → r.1 ∈ U)
    (hsize : U.length < size) :
    ∃ o, groupSuper hash size rows = .ok o ∧ Numbering rows o.out.bins o.out.firsts ∧
      o.next.length = rows.length ∧ (∀ (i : Nat) l, o.next[i]? = some l → NextAt o.out.bins i l) ∧
      o.counts = (List.range o.out.firsts.length).map fun g => o.out.bins.count (g + 1) := by
  obtain ⟨t', e, _⟩ := loop_eq_map (probing_isMap (V := Nat × Nat) hash size U hr hsize) superPlan superNext rows
    (by
      intro s r hrm
      unfold superPlan
      cases hb : r.2 with
      | false => simp
      | true => simpa using hU r hrm hb)
    (fresh K (Nat × Nat) size) noKeys ⟨.init, [], [], none⟩ (represents_fresh hash size U)
  refine ⟨_, by unfold groupSuper; rw [e]; rfl, ?_⟩
  have I := super_loop rows [] noKeys ⟨.init, [], [], none⟩ super_init
  generalize (mapLoop superPlan superNext noKeys ⟨.init, [], [], none⟩ rows).2 = o at *
  have N : Numbering rows o.out.bins o.out.firsts := by simpa using I.num
  have hnext : NextAll (rows.map labelOf) o.next := by simpa using I.next
  -- two rows have the same bin exactly when they have the same label
  have hb : ∀ (i j : Nat), i < rows.length →
      (o.out.bins[j]? = o.out.bins[i]? ↔ (rows.map labelOf)[j]? = (rows.map labelOf)[i]?) := by
    intro i j hi
    by_cases hj : j < rows.length
    · have hri : rows[i]? = some (rows[i].1, rows[i].2) := List.getElem?_eq_getElem hi
      have hrj : rows[j]? = some (rows[j].1, rows[j].2) := List.getElem?_eq_getElem hj
      rw [List.getElem?_map, List.getElem?_map]
      cases hbi : rows[i].2 <;> cases hbj : rows[j].2 <;> rw [hbi] at hri <;> rw [hbj] at hrj <;> rw [hri, hrj]
      · rw [N.filtered i _ hri, N.filtered j _ hrj]; simp [labelOf]
      · obtain ⟨g, hg, _⟩ := N.range j _ hrj
        rw [N.filtered i _ hri, hg]; simp [labelOf]
      · obtain ⟨g, hg, _⟩ := N.range i _ hri
        rw [N.filtered j _ hrj, hg]; simp [labelOf]
      · rw [N.same j i _ _ hrj hri]; simp [labelOf]
    · have h1 : o.out.bins[j]? = none := List.getElem?_eq_none (by rw [N.length]; omega)
      have h2 : (rows.map labelOf)[j]? = none := List.getElem?_eq_none (by simp; omega)
      have h3 : i < o.out.bins.length := by rw [N.length]; exact hi
      rw [h1, h2, List.getElem?_eq_getElem h3, List.getElem?_eq_getElem (by simpa using hi)]
      simp
  refine ⟨N, by simpa using hnext.1, fun i l hl => ?_, I.counts⟩
  have hi : i < rows.length := by have := lt_of_get hl; rw [hnext.1] at this; simpa using this
  have := hnext.2 i l hl
  cases l with
  | none => intro j hj hc; exact this j hj ((hb i j hi).mp hc)
  | some j =>
    obtain ⟨h1, h2, h3⟩ := this
    exact ⟨h1, (hb i j hi).mpr h2, fun l hl hl' hc => h3 l hl hl' ((hb i l hi).mp hc)⟩

example : groupSuper (fun k => k % 3) 3 [(7, true), (4, false), (7, true), (9, false), (4, true), (7, true)] =
    .ok ⟨⟨[1, 0, 1, 0, 2, 1], [0, 4]⟩, [some 2, some 3, some 5, none, none, none], [3, 1], some 3⟩ := by rfl

/-! ## C54 -/

/-- **C54**: over any number of calls that keep the table, `MultiKeyRolling` numbers the keys (from 0) by first
appearance over the whole history, and counts the occurrences of each key so far. -/
theorem rolling_counts_over_history {K : Type} [DecidableEq K] (hash : K → Nat) (size : Nat)
    (hr : ∀ k, hash k < size) (batches : List (List K)) (U : List K) (hU : ∀ b ∈ batches, ∀ k ∈ b, k ∈ U)
    (hsize : U.length < size) :
    ∃ index running : List Nat, rollAll hash (fresh K (Nat × Nat) size, 0) batches = .ok (index, running) ∧
      (∃ firsts, Numbering (batches.flatten.map fun k => (k, true)) (index.map (· + 1)) firsts) ∧
      running.length = batches.flatten.length ∧
      ∀ (i : Nat) k, batches.flatten[i]? = some k → running[i]? = some ((batches.flatten.take (i + 1)).count k) := by
  have M := probing_isMap (V := Nat × Nat) hash size U hr hsize
  suffices H : ∀ (bs : List (List K)), (∀ b ∈ bs, ∀ k ∈ b, k ∈ U) →
      ∀ (pre : List K) (t : Slots K (Nat × Nat)) (m : K → Option (Nat × Nat)) (u : Nat) (pi pr : List Nat),
      Represents hash size U t m → RollInv pre m u pi pr →
      ∃ index running : List Nat, rollAll hash (t, u) bs = .ok (index, running) ∧
        ∃ m' u', RollInv (pre ++ bs.flatten) m' u' (pi ++ index) (pr ++ running) by
    obtain ⟨index, running, e, m', u', I⟩ := H batches hU [] _ noKeys 0 [] [] (represents_fresh hash size U) roll_init
    simp only [List.nil_append] at I
    obtain ⟨⟨firsts, N, _⟩, hrun, _⟩ := I
    exact ⟨index, running, e, ⟨firsts, N⟩, hrun⟩
  intro bs
  induction bs with
  | nil => intro _ pre t m u pi pr _ I; exact ⟨[], [], rfl, m, u, by simpa using I⟩
  | cons b bs ih =>
    intro hb pre t m u pi pr hrep I
    obtain ⟨t', e, hrep'⟩ := loop_eq_map M rollPlan rollNext b
      (by intro s r hrm; simpa [rollPlan] using hb b (by simp) r hrm) t m ⟨u, [], []⟩ hrep
    have I' := roll_loop b pre m ⟨u, [], []⟩ pi pr (by simpa using I)
    obtain ⟨index, running, e2, m', u', I2⟩ := ih (fun b' h => hb b' (by simp [h])) _ t' _ _ _ _ hrep' I'
    refine ⟨(mapLoop rollPlan rollNext m ⟨u, [], []⟩ b).2.index ++ index,
      (mapLoop rollPlan rollNext m ⟨u, [], []⟩ b).2.running ++ running, ?_, m', u', ?_⟩
    · unfold rollAll rollStep
      rw [e]
      simp only [Except.map]
      rw [e2]
    · simpa [List.append_assoc] using I2

example : rollAll (fun k => k % 3) (fresh Nat (Nat × Nat) 3, 0) [[7, 4, 7], [], [4, 7]] =
    .ok ([0, 1, 0, 1, 0], [1, 1, 2, 2, 3]) := by rfl

/-! ## C56 -/

/-- The running totals of a list of numbers. -/
def runningTotals : Nat → List Nat → List Nat
  | _, [] => []
  | t, n :: ns => (t + n) :: runningTotals (t + n) ns

theorem partOf_flatten {R : Type} (rows : List R) :
    ∀ (n : Nat) (cuts : List Nat), n ≤ cuts.length → (∀ i, i + 1 < cuts.length → cuts.getD i 0 ≤ cuts.getD (i + 1) 0) →
    ((List.range n).map fun i => partOf rows cuts i).flatten = rows.take (if n = 0 then 0 else cuts.getD (n - 1) 0) := by
  intro n
  induction n with
  | zero => intro cuts _ _; simp
  | succ n ih =>
    intro cuts hn hmono
    rw [List.range_succ, List.map_append, List.flatten_append, ih cuts (by omega) hmono]
    simp only [List.map_cons, List.map_nil, List.flatten_cons, List.flatten_nil, List.append_nil, partOf,
      Nat.add_sub_cancel]
    rw [if_neg (by omega : ¬ n + 1 = 0)]
    generalize hc : (if n = 0 then 0 else cuts.getD (n - 1) 0) = c
    have hle : c ≤ cuts.getD n 0 := by
      rw [← hc]
      by_cases h0 : n = 0
      · simp [h0]
      · rw [if_neg h0]
        have := hmono (n - 1) (by omega)
        rwa [show n - 1 + 1 = n by omega] at this
    generalize cuts.getD n 0 = d at *
    have : (rows.take d).take c = rows.take c := by rw [List.take_take, Nat.min_eq_left hle]
    rw [← this, List.take_append_drop]

/-- **C56**: with partitions cut at nondecreasing cutoffs, and for every order in which the work items finish, each
partition is numbered on its own by first appearance; bins, first rows and group totals come out in
partition order. -/
theorem partitioned_groupby {K : Type} [DecidableEq K] (hash : Nat → K → Nat) (size : Nat → Nat)
    (hr : ∀ i k, hash i k < size i) (rows : List (K × Bool)) (cuts : List Nat)
    (hmono : ∀ i, i + 1 < cuts.length → cuts.getD i 0 ≤ cuts.getD (i + 1) 0)
    (hlast : cuts.getLast? = some rows.length)
    (hsize : ∀ i, i < cuts.length → (partOf rows cuts i).length < size i)
    (workers : Nat) (noThreading : Bool) (calls : List Nat)
    (hs : Work.CountedWork workers cuts.length noThreading calls) :
    ∃ outs : List GroupOut, outs.length = cuts.length ∧
      (∀ (i : Nat) o, outs[i]? = some o → Numbering (partOf rows cuts i) o.bins o.firsts) ∧
      ((List.range cuts.length).map fun i => partOf rows cuts i).flatten = rows ∧
      collectParts 0 (partRun hash size rows cuts calls) =
        some (outs.flatMap GroupOut.bins, outs.flatMap GroupOut.firsts,
          runningTotals 0 (outs.map fun o => o.firsts.length)) := by
  have each : ∀ i, ∃ o, i < cuts.length → groupBy (hash i) (size i) (partOf rows cuts i) = .ok o ∧
      Numbering (partOf rows cuts i) o.bins o.firsts := by
    intro i
    by_cases hi : i < cuts.length
    · obtain ⟨o, h⟩ := groupby_first_appearance (hash i) (size i) (hr i) (partOf rows cuts i)
        ((partOf rows cuts i).map Prod.fst) (fun r h _ => List.mem_map_of_mem h) (by simpa using hsize i hi)
      exact ⟨o, fun _ => h⟩
    · exact ⟨.init, fun h => absurd h hi⟩
  refine ⟨(List.range cuts.length).map fun i => (each i).choose, by simp, ?_, ?_, ?_⟩
  · intro i o ho
    have hi : i < cuts.length := by have := lt_of_get ho; simpa using this
    simp only [List.getElem?_map, List.getElem?_range hi, Option.map_some, Option.some.injEq] at ho
    subst ho
    exact ((each i).choose_spec hi).2
  · rw [partOf_flatten rows cuts.length cuts (Nat.le_refl _) hmono]
    have hne : cuts ≠ [] := by rintro rfl; simp at hlast
    have hpos : cuts.length ≠ 0 := by simpa using hne
    rw [if_neg hpos]
    have : cuts.getD (cuts.length - 1) 0 = rows.length := by
      rw [List.getLast?_eq_getElem?] at hlast
      rw [List.getD_eq_getElem?_getD, hlast]; rfl
    rw [this, List.take_of_length_le (Nat.le_refl _)]
  · unfold partRun
    rw [foldl_set_perm _ hs.perm _ (by simp)]
    have hmap : (List.range cuts.length).map (fun i => some (groupBy (hash i) (size i) (partOf rows cuts i))) =
        ((List.range cuts.length).map fun i => (each i).choose).map fun o => some (.ok o) := by
      rw [List.map_map]
      apply List.map_congr_left
      intro i hi
      simp only [Function.comp_apply]
      exact congrArg some ((each i).choose_spec (by simpa using hi)).1
    rw [hmap]
    generalize (List.range cuts.length).map (fun i => (each i).choose) = outs
    have gen : ∀ (outs : List GroupOut) (t : Nat), collectParts t (outs.map fun o => some (.ok o)) =
        some (outs.flatMap GroupOut.bins, outs.flatMap GroupOut.firsts,
          runningTotals t (outs.map fun o => o.firsts.length)) := by
      intro outs
      induction outs with
      | nil => intro t; rfl
      | cons o outs ih => intro t; simp [collectParts, ih, runningTotals]
    exact gen outs 0

-- two partitions; the first rows of the second are relative to its start
example : collectParts 0 (partRun (fun _ k => k % 4) (fun _ => 4)
    [(7, true), (3, true), (7, true), (3, true), (9, true)] [3, 5] [1, 0]) =
    some ([1, 2, 1, 1, 2], [0, 1, 0, 1], [2, 4]) := by rfl

end Riptide.Hash
