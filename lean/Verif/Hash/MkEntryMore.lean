import Verif.Hash.MkEntryProps
/-! # The other calls on rows of several arrays (C131): uniques, group lists, links and rolling counts -/
namespace Riptide.Hash
open Spec Riptide.Work

theorem expected_le {hint n : Nat} (hn : n ≤ 2 ^ 59) (hh : hint ≤ 2 ^ 59) : expected hint n ≤ 2 ^ 59 := by
  unfold expected
  split <;> omega

theorem count_map {K L : Type} [BEq K] [LawfulBEq K] [BEq L] [LawfulBEq L] (f : K → L) (a : K) (l : List K) (h : ∀ x ∈ l, f x = f a → x = a) :
    (l.map f).count (f a) = l.count a := by
  induction l with
  | nil => rfl
  | cons x l ih =>
    rw [List.map_cons, List.count_cons, List.count_cons, ih fun y hy => h y (by simp [hy])]
    by_cases he : x = a
    · subst he; simp
    · have : f x ≠ f a := fun e => he (h x (by simp) e)
      simp [he, this]

/-- Lawful comparisons count alike. -/
theorem count_any {K : Type} (a : K) (l : List K) (i j : BEq K) (hi : @LawfulBEq K i) (hj : @LawfulBEq K j) : @List.count K i a l = @List.count K j a l := by
  have : i = j := by
    cases i with
    | mk f =>
      cases j with
      | mk g =>
        congr
        funext x y
        rw [Bool.eq_iff_iff]
        exact (@beq_iff_eq K ⟨f⟩ hi x y).trans (@beq_iff_eq K ⟨g⟩ hj x y).symm
  subst this
  rfl

theorem count_le_any {K : Type} (i : BEq K) (a : K) (l : List K) : @List.count K i a l ≤ l.length := List.count_le_length

/-- The rows as the loops see them. -/
theorem keyed_get {keys : List KeyCol} {n : Nat} (hc : ∀ c ∈ keys, IsArray n c) (filter : Option FilterArg) {i : Nat} {k : List (List UInt8)} {b : Bool}
    (hk : k ∈ rowsOf keys n) :
    ((keyed keys n filter).map fun r => (r.1.flatten, r.2))[i]? = some (k.flatten, b) ↔ (keyed keys n filter)[i]? = some (k, b) := by
  rw [List.getElem?_map]
  cases h : (keyed keys n filter)[i]? with
  | none => simp
  | some r =>
    obtain ⟨r1, r2⟩ := r
    have hr := mem_keyed (List.mem_of_getElem? h)
    simp only [Option.map_some, Option.some.injEq, Prod.mk.injEq]
    constructor
    · rintro ⟨h1, h2⟩; exact ⟨rows_inj hc hr hk h1, h2⟩
    · rintro ⟨rfl, h2⟩; exact ⟨rfl, h2⟩

/-! ## Uniques -/

/-- **C131**, `MultiKeyUnique32`: the first row of every distinct kept row, in order, and how often it occurs. -/
theorem unique_calls_partial (H : List UInt8 → Nat) (keys : List KeyCol) (n hint : Nat) (filter : Option FilterArg)
    (h0 : keys ≠ []) (hc : ∀ c ∈ keys, IsArray n c) (hf : IsFilter n filter) (hp : Packed filter) (hn : n ≤ 2 ^ 59) (hh : hint ≤ 2 ^ 59)
    (U : List (List (List UInt8))) (hU : ∀ r ∈ keyed keys n filter, r.2 = true → r.1 ∈ U)
    (hroom : U.length < 65536 ∨ U.length < 2 * expected hint n) :
    ∃ rows counts : List Nat,
      multiKeyUnique H keys hint filter = some (.value (if n < 2100000000 then .i32 else .i64, ints rows, ints counts)) ∧
      rows.Pairwise (· < ·) ∧
      (∀ x : Nat, x ∈ rows ↔ ∃ k, (keyed keys n filter)[x]? = some (k, true) ∧ ∀ j : Nat, j < x → (keyed keys n filter)[j]? ≠ some (k, true)) ∧
      counts.length = rows.length ∧
      ∀ (g x : Nat) k, rows[g]? = some x → (keyed keys n filter)[x]? = some (k, true) → counts[g]? = some ((keyed keys n filter).count (k, true)) := by
  obtain ⟨s, e, hs⟩ := room_size (mode := 2) (width := 3) (expected_le hn hh) (.inl ⟨rfl, .inr (.inr hroom)⟩) (by decide) (by decide)
  obtain ⟨o, eo, h1, h2, h3, h4⟩ := unique_first_and_counts (mkHash H s) s (mkHash_lt H (by omega)) ((keyed keys n filter).map fun r => (r.1.flatten, r.2))
    (U.map List.flatten) (by
      intro r hr hk
      rw [List.mem_map] at hr
      obtain ⟨q, hq, rfl⟩ := hr
      exact List.mem_map_of_mem (hU q hq hk)) (by simpa using hs)
  have hidx : ∀ x ∈ o.index, x < n := by
    intro x hx
    obtain ⟨k, hk, _⟩ := (h2 x).mp hx
    have := lt_of_get hk
    simpa [keyed_length] using this
  have hget : ∀ {x : Nat} {k b}, (keyed keys n filter)[x]? = some (k, b) →
      ((keyed keys n filter).map fun r => (r.1.flatten, r.2))[x]? = some (k.flatten, b) := by
    intro x k b h
    rw [List.getElem?_map, h]
    rfl
  have hcount : ∀ {k b}, (k, b) ∈ keyed keys n filter →
      ((keyed keys n filter).map fun r => (r.1.flatten, r.2)).count (k.flatten, b) = (keyed keys n filter).count (k, b) := by
    intro k b hk
    refine count_map (fun r : List (List UInt8) × Bool => (r.1.flatten, r.2)) (k, b) _ ?_
    rintro ⟨r1, r2⟩ hr he
    simp only [Prod.mk.injEq] at he ⊢
    exact ⟨rows_inj hc (mem_keyed hr) (mem_keyed hk) he.1, he.2⟩
  have hex : ∀ x : Nat, x ∈ o.index ↔ ∃ k, (keyed keys n filter)[x]? = some (k, true) ∧ ∀ j : Nat, j < x → (keyed keys n filter)[j]? ≠ some (k, true) := by
    intro x
    rw [h2 x]
    constructor
    · rintro ⟨k, hk, hmin⟩
      rw [List.getElem?_map] at hk
      cases hr : (keyed keys n filter)[x]? with
      | none => rw [hr] at hk; simp at hk
      | some r =>
        rw [hr] at hk
        simp only [Option.map_some, Option.some.injEq, Prod.mk.injEq] at hk
        obtain ⟨r1, r2⟩ := r
        obtain ⟨rfl, rfl⟩ := hk
        exact ⟨r1, rfl, fun j hj hjk => hmin j hj (hget hjk)⟩
    · rintro ⟨k, hk, hmin⟩
      refine ⟨k.flatten, hget hk, fun j hj hjk => hmin j hj ?_⟩
      exact (keyed_get hc filter (mem_keyed (List.mem_of_getElem? hk))).mp hjk
  have hcnt : ∀ (g x : Nat) k, o.index[g]? = some x → (keyed keys n filter)[x]? = some (k, true) →
      o.counts[g]? = some ((keyed keys n filter).count (k, true)) := by
    intro g x k hg hk
    rw [h4 g x _ hg (hget hk)]
    exact congrArg some ((count_any _ _ _ _ inferInstance inferInstance).trans (hcount (List.mem_of_getElem? hk)))
  have hcn : ∀ c ∈ o.counts, c ≤ n := by
    intro c hcm
    obtain ⟨g, hg⟩ := List.mem_iff_getElem?.mp hcm
    have hgl : g < o.index.length := by rw [← h3]; exact lt_of_get hg
    obtain ⟨k, hk, _⟩ := (hex _).mp (List.getElem_mem hgl)
    have := hcnt g _ k (List.getElem?_eq_getElem hgl) hk
    rw [hg] at this
    injection this with this
    rw [this]
    have := List.count_le_length (a := (k, true)) (l := keyed keys n filter)
    rw [keyed_length] at this
    exact this
  refine ⟨o.index, o.counts, ?_, h1, hex, h3, hcnt⟩
  unfold multiKeyUnique
  rw [keyRows_ok h0 hc hf hp]
  dsimp only
  rw [(hint_of hh).2, wanted_nat, show hintOr hint n = expected hint n from rfl, e]
  dsimp only
  rw [eo]
  dsimp only
  rw [(hint_of hh).1, if_neg (by decide), asType_unique (by omega) (fun x hx => by have := hidx x hx; omega), asType_unique (by omega) hcn]
  rfl

-- three rows, two of them the same
example : ∃ rows counts : List Nat,
    multiKeyUnique (fun _ => 7) [⟨3, 1, false, [1, 2, 1]⟩] 0 none = some (.value (.i32, ints rows, ints counts)) ∧
    rows.Pairwise (· < ·) ∧
      (∀ x : Nat, x ∈ rows ↔ ∃ k, (keyed [⟨3, 1, false, [1, 2, 1]⟩] 3 none)[x]? = some (k, true) ∧
        ∀ j : Nat, j < x → (keyed [⟨3, 1, false, [1, 2, 1]⟩] 3 none)[j]? ≠ some (k, true)) ∧
      counts.length = rows.length ∧
      ∀ (g x : Nat) k, rows[g]? = some x → (keyed [⟨3, 1, false, [1, 2, 1]⟩] 3 none)[x]? = some (k, true) →
        counts[g]? = some ((keyed [⟨3, 1, false, [1, 2, 1]⟩] 3 none).count (k, true)) :=
  unique_calls_partial _ _ 3 0 none (by decide) (by simp [IsArray]) trivial trivial (by decide) (by decide) (rowsOf [⟨3, 1, false, [1, 2, 1]⟩] 3)
    (fun r hr _ => mem_keyed hr) (.inl (by decide))

/-- The different kept rows, as the loops see them. -/
theorem too_many_rows {keys : List KeyCol} {n : Nat} {filter : Option FilterArg} (hc : ∀ c ∈ keys, IsArray n c) {U : List (List (List UInt8))} (hU : U.Nodup)
    (hUk : ∀ k ∈ U, (k, true) ∈ keyed keys n filter) :
    (U.map List.flatten).Nodup ∧ ∀ k ∈ U.map List.flatten, ∃ r ∈ (keyed keys n filter).map fun r => (r.1.flatten, r.2), r = (k, true) := by
  refine ⟨?_, ?_⟩
  · rw [List.nodup_iff_pairwise_ne, List.pairwise_map]
    refine List.Pairwise.imp_of_mem ?_ hU
    intro a b ha hb hne he
    exact hne (rows_inj hc (mem_keyed (hUk a ha)) (mem_keyed (hUk b hb)) he)
  · intro k hk
    rw [List.mem_map] at hk
    obtain ⟨q, hq, rfl⟩ := hk
    exact ⟨(q.flatten, true), List.mem_map.mpr ⟨_, hUk q hq, rfl⟩, rfl⟩

/-- With too many different rows for the table `None` is returned, without any exception. -/
theorem too_many_uniques (H : List UInt8 → Nat) (keys : List KeyCol) (n hint : Nat) (filter : Option FilterArg)
    (h0 : keys ≠ []) (hc : ∀ c ∈ keys, IsArray n c) (hf : IsFilter n filter) (hp : Packed filter) (hn : n ≤ 2 ^ 59) (hh : hint ≤ 2 ^ 59)
    (U : List (List (List UInt8))) (hU : U.Nodup) (hUk : ∀ k ∈ U, (k, true) ∈ keyed keys n filter) (h1 : 65536 < U.length)
    (h2 : 4 * expected hint n ≤ U.length) : multiKeyUnique H keys hint filter = some .pyNone := by
  obtain ⟨s, e, hs, hsd⟩ := toomany_size (expected_le hn hh) (.inl ⟨rfl, h1, h2⟩)
  obtain ⟨hUn, hUr⟩ := too_many_rows hc hU hUk
  unfold multiKeyUnique
  rw [keyRows_ok h0 hc hf hp]
  dsimp only
  rw [(hint_of hh).2, wanted_nat, show hintOr hint n = expected hint n from rfl, e]
  dsimp only
  have g : unique (mkHash H s) s ((keyed keys n filter).map fun r => (r.1.flatten, r.2)) = .error .full := by
    unfold unique
    rw [loop_full (mkHash_lt H hs) (key := fun r => if r.2 then some r.1 else none) (by
      intro st r
      unfold uniquePlan
      cases r.2
      · rfl
      · exact ⟨_, _, rfl⟩) _ _ _ (by simp [fresh]) (U.map List.flatten) hUn (fun k hk => by
        obtain ⟨r, hr, rfl⟩ := hUr k hk
        exact .inr ⟨_, hr, rfl⟩) (by simpa using hsd)]
    rfl
  rw [g]
  dsimp only
  rw [(hint_of hh).1]
  rfl

/-! ## Group lists -/

theorem noRow_eq {l : Option Nat} (h : ∀ i, l = some i → i < 2 ^ 31) : noRow l = rowOr l := by
  cases l with
  | none => rfl
  | some i => exact wrap32 (h i rfl)

/-- **C131**, `MultiKeyGroupBy32Super`: the groups, for every row the next row of its group (the dropped rows count as one group), and the number of rows of every
group. -/
theorem super_calls_partial (H : List UInt8 → Nat) (keys : List KeyCol) (n hint : Nat) (filter : Option FilterArg) (mode : Int)
    (h0 : keys ≠ []) (hc : ∀ c ∈ keys, IsArray n c) (hf : IsFilter n filter) (hp : Packed filter) (hn : n ≤ 2100000000) (hh : hint ≤ 2 ^ 59)
    (U : List (List (List UInt8))) (hU : ∀ r ∈ keyed keys n filter, r.2 = true → r.1 ∈ U) (hroom : Room mode 3 (expected hint n) U.length) :
    ∃ (bins firsts counts : List Nat) (next : List (Option Nat)),
      multiKeySuper H keys hint filter mode = some (.value ⟨ints bins, next.map rowOr, ints firsts, ints counts⟩) ∧
      Numbering (keyed keys n filter) bins firsts ∧ next.length = n ∧ (∀ (i : Nat) l, next[i]? = some l → NextAt bins i l) ∧
      counts = (List.range firsts.length).map fun g => bins.count (g + 1) := by
  obtain ⟨s, e, hs⟩ := room_size (width := 3) (expected_le (hint := hint) (n := n) (by omega) hh) hroom (by decide) (by decide)
  obtain ⟨o, eo, N, h1, h2, h3⟩ := groupsuper_lists (mkHash H s) s (mkHash_lt H (by omega)) ((keyed keys n filter).map fun r => (r.1.flatten, r.2))
    (U.map List.flatten) (by
      intro r hr hk
      rw [List.mem_map] at hr
      obtain ⟨q, hq, rfl⟩ := hr
      exact List.mem_map_of_mem (hU q hq hk)) (by simpa using hs)
  have N' : Numbering (keyed keys n filter) o.out.bins o.out.firsts :=
    numbering_map List.flatten (fun x hx y hy h => rows_inj hc (mem_keyed hx) (mem_keyed hy) h) N
  have hb := bins_le N'
  have hfi := firsts_lt N'
  have hbl := N'.length
  rw [keyed_length] at hb hfi hbl
  have hcn : ∀ c ∈ o.counts, c < 2 ^ 31 := by
    intro c hcm
    rw [h3, List.mem_map] at hcm
    obtain ⟨g, _, rfl⟩ := hcm
    have := List.count_le_length (a := g + 1) (l := o.out.bins)
    omega
  have hnx : o.next.map noRow = o.next.map rowOr := by
    apply List.map_congr_left
    intro l hl
    apply noRow_eq
    rintro i rfl
    obtain ⟨j, hj⟩ := List.mem_iff_getElem?.mp hl
    have := h2 j _ hj
    obtain ⟨_, h5, _⟩ := this
    have hjl : j < o.out.bins.length := by have := lt_of_get hj; rw [h1] at this; simp [keyed_length] at this; omega
    rw [List.getElem?_eq_getElem hjl] at h5
    have := lt_of_get h5
    omega
  refine ⟨o.out.bins, o.out.firsts, o.counts, o.next, ?_, N', by rw [h1]; simp [keyed_length], h2, h3⟩
  unfold multiKeySuper
  rw [keyRows_ok h0 hc hf hp]
  dsimp only
  rw [if_neg (by omega), (hint_of hh).2, wanted_nat, show hintOr hint n = expected hint n from rfl, e]
  dsimp only
  rw [eo]
  dsimp only
  rw [(hint_of hh).1, if_neg (by simp; omega), asType_i32 (fun x hx => by have := hb x hx; omega), asType_i32 (fun x hx => by have := hfi x hx; omega),
    asType_i32 hcn, hnx]

-- two rows of the same group
example : ∃ (bins firsts counts : List Nat) (next : List (Option Nat)),
    multiKeySuper (fun _ => 7) [⟨2, 1, false, [1, 1]⟩] 0 none 2 = some (.value ⟨ints bins, next.map rowOr, ints firsts, ints counts⟩) ∧
      Numbering (keyed [⟨2, 1, false, [1, 1]⟩] 2 none) bins firsts ∧ next.length = 2 ∧ (∀ (i : Nat) l, next[i]? = some l → NextAt bins i l) ∧
      counts = (List.range firsts.length).map fun g => bins.count (g + 1) :=
  super_calls_partial _ _ 2 0 none 2 (by decide) (by simp [IsArray]) trivial trivial (by decide) (by decide) (rowsOf [⟨2, 1, false, [1, 1]⟩] 2)
    (fun r hr _ => mem_keyed hr) (.inl (by decide))

/-- With too many different rows for the table the error is raised without the lock of the interpreter: undefined behaviour. -/
theorem too_many_super_groups (H : List UInt8 → Nat) (keys : List KeyCol) (n hint : Nat) (filter : Option FilterArg) (mode : Int)
    (h0 : keys ≠ []) (hc : ∀ c ∈ keys, IsArray n c) (hf : IsFilter n filter) (hp : Packed filter) (hn : n ≤ 2 ^ 59) (hh : hint ≤ 2 ^ 59)
    (U : List (List (List UInt8))) (hU : U.Nodup) (hUk : ∀ k ∈ U, (k, true) ∈ keyed keys n filter) (hmany : TooMany mode (expected hint n) U.length) :
    multiKeySuper H keys hint filter mode = none := by
  obtain ⟨s, e, hs, hsd⟩ := toomany_size (expected_le hn hh) hmany
  obtain ⟨hUn, hUr⟩ := too_many_rows hc hU hUk
  unfold multiKeySuper
  rw [keyRows_ok h0 hc hf hp]
  dsimp only
  split
  · rfl
  rw [(hint_of hh).2, wanted_nat, show hintOr hint n = expected hint n from rfl, e]
  dsimp only
  have g : groupSuper (mkHash H s) s ((keyed keys n filter).map fun r => (r.1.flatten, r.2)) = .error .full := by
    unfold groupSuper
    rw [loop_full (mkHash_lt H hs) (key := fun r => if r.2 then some r.1 else none) (by
      intro st r
      unfold superPlan
      cases r.2
      · rfl
      · exact ⟨_, _, rfl⟩) _ _ _ (by simp [fresh]) (U.map List.flatten) hUn (fun k hk => by
        obtain ⟨r, hr, rfl⟩ := hUr k hk
        exact .inr ⟨_, hr, rfl⟩) (by simpa using hsd)]
    rfl
  rw [g]

-- mode 0, hint 1: one slot for two rows
example : multiKeySuper (fun _ => 7) [⟨2, 1, false, [1, 2]⟩] 1 none 0 = none :=
  too_many_super_groups _ [⟨2, 1, false, [1, 2]⟩] 2 1 none 0 (by decide) (by simp [IsArray]) trivial trivial (by decide) (by decide) [[[1]], [[2]]] (by decide) (by decide)
    (.inr (by decide))

/-! ## Links -/

theorem get_map_iff {K L : Type} {f : K → L} {l : List K} (hf : ∀ x ∈ l, ∀ y ∈ l, f x = f y → x = y) (i j : Nat) :
    (l.map f)[j]? = (l.map f)[i]? ↔ l[j]? = l[i]? := by
  rw [List.getElem?_map, List.getElem?_map]
  cases hi : l[i]? with
  | none => cases hj : l[j]? <;> simp
  | some x =>
    cases hj : l[j]? with
    | none => simp
    | some y =>
      simp only [Option.map_some, Option.some.injEq]
      constructor
      · intro h; exact hf y (List.mem_of_getElem? hj) x (List.mem_of_getElem? hi) h
      · intro h; rw [h]

theorem get_map_some {K L : Type} {f : K → L} {l : List K} (hf : ∀ x ∈ l, ∀ y ∈ l, f x = f y → x = y) {k : K} (hk : k ∈ l) (i : Nat) :
    (l.map f)[i]? = some (f k) ↔ l[i]? = some k := by
  rw [List.getElem?_map]
  cases hi : l[i]? with
  | none => simp
  | some x =>
    simp only [Option.map_some, Option.some.injEq]
    constructor
    · intro h; exact hf x (List.mem_of_getElem? hi) k hk h
    · intro h; rw [h]

/-- Links of rows told apart in the same way. -/
theorem linked_map {K L : Type} [DecidableEq K] [DecidableEq L] {f : K → L} {keys : List K} (hf : ∀ x ∈ keys, ∀ y ∈ keys, f x = f y → x = y) {uniques : Nat}
    {index running first : List Nat} {prev next : List (Option Nat)} (h : Linked (keys.map f) uniques index running prev next first) :
    Linked keys uniques index running prev next first where
  num := by
    obtain ⟨firsts, N, hl⟩ := h.num
    refine ⟨firsts, numbering_map f ?_ ?_, hl⟩
    · intro x hx y hy he
      rw [List.mem_map] at hx hy
      obtain ⟨a, ha, rfl⟩ := hx
      obtain ⟨b, hb, rfl⟩ := hy
      exact hf a ha b hb he
    · rw [List.map_map] at N ⊢
      exact N
  run := by
    refine ⟨by simpa using h.run.1, ?_⟩
    intro i k hk
    have := h.run.2 i (f k) (by rw [List.getElem?_map, hk]; rfl)
    rw [this, ← List.map_take, count_map f k]
    intro x hx he
    exact hf x (List.mem_of_mem_take hx) k (List.mem_of_getElem? hk) he
  prev := by
    refine ⟨by simpa using h.prev.1, ?_⟩
    intro i o ho
    have := h.prev.2 i o ho
    cases o with
    | none => intro j hj he; exact this j hj ((get_map_iff hf i j).mpr he)
    | some l =>
      obtain ⟨h1, h2, h3⟩ := this
      exact ⟨h1, (get_map_iff hf i l).mp h2, fun m hm hm' he => h3 m hm hm' ((get_map_iff hf i m).mpr he)⟩
  next := by
    refine ⟨by simpa using h.next.1, ?_⟩
    intro i o ho
    have := h.next.2 i o ho
    cases o with
    | none => intro j hj he; exact this j hj ((get_map_iff hf i j).mpr he)
    | some l =>
      obtain ⟨h1, h2, h3⟩ := this
      exact ⟨h1, (get_map_iff hf i l).mp h2, fun m hm hm' he => h3 m hm hm' ((get_map_iff hf i m).mpr he)⟩
  first := by
    refine ⟨by simpa using h.first.1, ?_⟩
    intro i k hk
    obtain ⟨g, hg, h1, h2⟩ := h.first.2 i (f k) (by rw [List.getElem?_map, hk]; rfl)
    have hm := List.mem_of_getElem? hk
    exact ⟨g, hg, (get_map_some hf hm g).mp h1, fun j hj he => h2 j hj ((get_map_some hf hm j).mpr he)⟩

theorem keyed_fst (keys : List KeyCol) (n : Nat) (filter : Option FilterArg) :
    ((keyed keys n filter).map fun r => (r.1.flatten, r.2)).map Prod.fst = (rowsOf keys n).map List.flatten := by
  rw [List.map_map]
  have : (Prod.fst ∘ fun r : List (List UInt8) × Bool => (r.1.flatten, r.2)) = List.flatten ∘ Prod.fst := rfl
  rw [this, ← List.map_map]
  congr 1
  unfold keyed
  rw [List.map_fst_zip]
  simp [flags_length, rowsOf]

/-- **C131**, `MultiKeyHash`: for every row the number of its key, how often the key occurred, nearest earlier and later row, first row, number of rows with the key, and the last
one of them — of all rows, whatever the filter says. -/
theorem hash_calls_ignore_filters (H : List UInt8 → Nat) (keys : List KeyCol) (n hint : Nat) (filter : Option FilterArg) (junk : List (Nat × Nat))
    (h0 : keys ≠ []) (hc : ∀ c ∈ keys, IsArray n c) (hf : IsFilter n filter) (hp : Packed filter) (hn : n < 2 ^ 31) (hh : hint ≤ 2 ^ 59)
    (hj : junk.length = n) (U : List (List (List UInt8))) (hU : ∀ r ∈ rowsOf keys n, r ∈ U) (hroom : U.length < 65536 ∨ U.length < 2 * expected hint n) :
    ∃ (uniques : Nat) (index running first : List Nat) (prev next : List (Option Nat)) (bucket : List (Nat × Nat)),
      multiKeyHash H keys hint filter junk = some (.value ⟨ints index, ints running, ints (bucket.map Prod.fst), prev.map rowOr, next.map rowOr, ints first,
        ints (bucket.map Prod.snd)⟩) ∧
      Linked (rowsOf keys n) uniques index running prev next first ∧ bucket.length = n ∧
      ∀ (i : Nat) k, (rowsOf keys n)[i]? = some k → ∃ l, LastAt (rowsOf keys n) k l ∧ bucket[i]? = some ((rowsOf keys n).count k, l) := by
  obtain ⟨s, e, hs⟩ := room_size (mode := 2) (width := 3) (expected_le (hint := hint) (n := n) (by omega) hh) (.inl ⟨rfl, .inr (.inr hroom)⟩) (by decide) (by decide)
  have hrl : (rowsOf keys n).length = n := by simp [rowsOf]
  obtain ⟨o, eo, L⟩ := multikey_links (mkHash H s) s (mkHash_lt H (by omega)) ((rowsOf keys n).map List.flatten) (U.map List.flatten) (by
      intro k hk
      rw [List.mem_map] at hk
      obtain ⟨q, hq, rfl⟩ := hk
      exact List.mem_map_of_mem (hU q hq)) (by simpa using hs)
  have L' := linked_map (fun x hx y hy h => rows_inj hc hx hy h) L
  obtain ⟨a, ea, hal, hab⟩ := multikey_buckets (rowsOf keys n) L' junk (by rw [hj, hrl])
  rw [hrl] at ea hal
  have hi : ∀ x ∈ o.index, x < 2 ^ 31 := by
    intro x hx
    obtain ⟨firsts, N, _⟩ := L'.num
    have := bins_le N x hx
    rw [List.length_map, hrl] at this
    omega
  have hr : ∀ x ∈ o.running, x < 2 ^ 31 := by
    intro x hx
    obtain ⟨i, hi⟩ := List.mem_iff_getElem?.mp hx
    have hil : i < (rowsOf keys n).length := by rw [← L'.run.1]; exact lt_of_get hi
    have := L'.run.2 i _ (List.getElem?_eq_getElem hil)
    rw [hi] at this
    injection this with this
    rw [this]
    refine Nat.lt_of_le_of_lt (count_le_any _ _ _) ?_
    rw [List.length_take]
    omega
  have hpv : o.prev.map noRow = o.prev.map rowOr := by
    apply List.map_congr_left
    intro l hl
    apply noRow_eq
    rintro i rfl
    obtain ⟨j, hj⟩ := List.mem_iff_getElem?.mp hl
    obtain ⟨h1, _, _⟩ := L'.prev.2 j _ hj
    have := lt_of_get hj
    have := L'.prev.1
    omega
  have hnx : o.next.map noRow = o.next.map rowOr := by
    apply List.map_congr_left
    intro l hl
    apply noRow_eq
    rintro i rfl
    obtain ⟨j, hj⟩ := List.mem_iff_getElem?.mp hl
    obtain ⟨_, h1, _⟩ := L'.next.2 j _ hj
    have hjl : j < (rowsOf keys n).length := by rw [← L'.next.1]; exact lt_of_get hj
    rw [List.getElem?_eq_getElem hjl] at h1
    have := lt_of_get h1
    omega
  have hfi : ∀ x ∈ o.first, x < 2 ^ 31 := by
    intro x hx
    obtain ⟨i, hi⟩ := List.mem_iff_getElem?.mp hx
    have hil : i < (rowsOf keys n).length := by rw [← L'.first.1]; exact lt_of_get hi
    obtain ⟨g, hg, h1, _⟩ := L'.first.2 i _ (List.getElem?_eq_getElem hil)
    rw [hi] at hg
    injection hg with hg
    have := lt_of_get h1
    omega
  have hbk : ∀ p ∈ a, p.1 < 2 ^ 31 ∧ p.2 < 2 ^ 31 := by
    intro p hp
    obtain ⟨i, hi⟩ := List.mem_iff_getElem?.mp hp
    have hil : i < (rowsOf keys n).length := by have := lt_of_get hi; omega
    obtain ⟨l, hl, he⟩ := hab i _ (List.getElem?_eq_getElem hil)
    rw [hi] at he
    injection he with he
    subst he
    have := lt_of_get hl.1
    refine ⟨?_, by show l < _; omega⟩
    dsimp only
    exact Nat.lt_of_le_of_lt (count_le_any _ _ _) (by omega)
  refine ⟨o.uniques, o.index, o.running, o.first, o.prev, o.next, a, ?_, L', hal, fun i k hk => by
    obtain ⟨l, h1, h2⟩ := hab i k hk
    exact ⟨l, h1, h2.trans (congrArg (fun c => some (c, l)) (count_any _ _ _ _ inferInstance inferInstance))⟩⟩
  unfold multiKeyHash
  rw [keyRows_ok h0 hc hf hp]
  dsimp only
  rw [if_neg (by omega), (hint_of hh).2, wanted_nat, show hintOr hint n = expected hint n from rfl, e]
  dsimp only
  rw [keyed_fst, eo]
  dsimp only
  rw [ea]
  dsimp only
  rw [(hint_of hh).1, if_neg (by decide), asType_i32 hi, asType_i32 hr, asType_i32 hfi, hpv, hnx]
  rw [asType_i32 (by
      intro x hx
      rw [List.mem_map] at hx
      obtain ⟨p, hp, rfl⟩ := hx
      exact (hbk p hp).1), asType_i32 (by
      intro x hx
      rw [List.mem_map] at hx
      obtain ⟨p, hp, rfl⟩ := hx
      exact (hbk p hp).2)]

-- three rows; the filter drops all of them
example : ∃ (uniques : Nat) (index running first : List Nat) (prev next : List (Option Nat)) (bucket : List (Nat × Nat)),
      multiKeyHash (fun _ => 7) [⟨3, 1, false, [1, 2, 1]⟩] 0 (some ⟨true, 3, 1, [0, 0, 0]⟩) [(0, 0), (0, 0), (0, 0)] =
        some (.value ⟨ints index, ints running, ints (bucket.map Prod.fst), prev.map rowOr, next.map rowOr, ints first, ints (bucket.map Prod.snd)⟩) ∧
      Linked (rowsOf [⟨3, 1, false, [1, 2, 1]⟩] 3) uniques index running prev next first ∧ bucket.length = 3 ∧
      ∀ (i : Nat) k, (rowsOf [⟨3, 1, false, [1, 2, 1]⟩] 3)[i]? = some k →
        ∃ l, LastAt (rowsOf [⟨3, 1, false, [1, 2, 1]⟩] 3) k l ∧ bucket[i]? = some ((rowsOf [⟨3, 1, false, [1, 2, 1]⟩] 3).count k, l) :=
  hash_calls_ignore_filters _ _ 3 0 _ _ (by decide) (by simp [IsArray]) (by simp [IsFilter]) (by simp [Packed]) (by decide) (by decide) rfl
    (rowsOf [⟨3, 1, false, [1, 2, 1]⟩] 3) (fun r h => h) (.inl (by decide))

/-- With too many different rows for the table nobody catches the exception: the process ends. -/
theorem too_many_links (H : List UInt8 → Nat) (keys : List KeyCol) (n hint : Nat) (filter : Option FilterArg) (junk : List (Nat × Nat))
    (h0 : keys ≠ []) (hc : ∀ c ∈ keys, IsArray n c) (hf : IsFilter n filter) (hp : Packed filter) (hn : n ≤ 2 ^ 59) (hh : hint ≤ 2 ^ 59)
    (U : List (List (List UInt8))) (hU : U.Nodup) (hUk : ∀ k ∈ U, k ∈ rowsOf keys n) (h1 : 65536 < U.length)
    (h2 : 4 * expected hint n ≤ U.length) : multiKeyHash H keys hint filter junk = none := by
  obtain ⟨s, e, hs, hsd⟩ := toomany_size (expected_le hn hh) (.inl ⟨rfl, h1, h2⟩)
  unfold multiKeyHash
  rw [keyRows_ok h0 hc hf hp]
  dsimp only
  split
  · rfl
  rw [(hint_of hh).2, wanted_nat, show hintOr hint n = expected hint n from rfl, e]
  dsimp only
  have hUn : (U.map List.flatten).Nodup := by
    rw [List.nodup_iff_pairwise_ne, List.pairwise_map]
    refine List.Pairwise.imp_of_mem ?_ hU
    intro a b ha hb hne he
    exact hne (rows_inj hc (hUk a ha) (hUk b hb) he)
  have g : makeLinks (mkHash H s) s ((rowsOf keys n).map List.flatten) = .error .full := by
    unfold makeLinks
    rw [loop_full (mkHash_lt H hs) (key := some) (by
      intro st r
      exact ⟨_, _, rfl⟩) _ _ _ (by simp [fresh]) (U.map List.flatten) hUn (fun k hk => by
        rw [List.mem_map] at hk
        obtain ⟨q, hq, rfl⟩ := hk
        exact .inr ⟨_, List.mem_map_of_mem (hUk q hq), rfl⟩) (by simpa using hsd)]
    rfl
  rw [keyed_fst, g]

end Riptide.Hash
