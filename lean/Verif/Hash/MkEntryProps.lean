import Verif.Hash.MkEntryLemmas
/-! # The group-by call on rows of several arrays (C130) -/
namespace Riptide.Hash
open Spec Riptide.Work

/-! ## Without partitions -/

/-- **C130**: for key arrays of the same length, a boolean filter whose flags lie side by side (or none), and room in the table, the call numbers the kept rows by first
appearance; two rows are in the same group exactly when all of their items have the same bytes.  Missing: filters with gaps (`gaps_in_filters_are_ignored`) and small keys in
other hash modes (`small_keys_are_merged`). -/
theorem group_calls_partial (H : List UInt8 → Nat) (keys : List KeyCol) (n hint : Nat) (filter : Option FilterArg) (mode : Int) (calls : List Nat)
    (h0 : keys ≠ []) (hc : ∀ c ∈ keys, IsArray n c) (hf : IsFilter n filter) (hp : Packed filter) (hn : n ≤ 2 ^ 59) (hh : hint ≤ 2 ^ 59)
    (U : List (List (List UInt8))) (hU : ∀ r ∈ keyed keys n filter, r.2 = true → r.1 ∈ U)
    (hroom : Room mode (rowWidth keys) (expected hint n) U.length) :
    ∃ bins firsts : List Nat,
      multiKeyGroupBy H keys hint filter mode none calls =
        some (.value ⟨if n ≤ 2100000000 then .i32 else .i64, ints bins, ints firsts, none, firsts.length⟩) ∧
      Numbering (keyed keys n filter) bins firsts := by
  have hlen : ((keyed keys n filter).map fun r => (r.1.flatten, r.2)).length = n := by simp [keyed_length]
  obtain ⟨o, e, N⟩ := groupRows_ok H (mode := mode) (hint := hint) (width := rowWidth keys)
    (rows := (keyed keys n filter).map fun r => (r.1.flatten, r.2)) (by
      intro r hr
      rw [List.mem_map] at hr
      obtain ⟨q, hq, rfl⟩ := hr
      exact row_bytes hc (mem_keyed hq))
    (U := U.map List.flatten) (by
      intro r hr hk
      rw [List.mem_map] at hr
      obtain ⟨q, hq, rfl⟩ := hr
      exact List.mem_map_of_mem (hU q hq hk))
    (by rw [hlen]; unfold hintOr; split <;> omega)
    (by rw [hlen, List.length_map]; exact hroom)
  have N' : Numbering (keyed keys n filter) o.bins o.firsts :=
    numbering_map List.flatten (fun x hx y hy h => rows_inj hc (mem_keyed hx) (mem_keyed hy) h) N
  refine ⟨o.bins, o.firsts, ?_, N'⟩
  have hb := bins_le N'
  have hfi := firsts_lt N'
  rw [keyed_length] at hb hfi
  unfold multiKeyGroupBy
  rw [keyRows_ok h0 hc hf hp]
  dsimp only
  unfold plainGroups
  rw [(hint_of hh).2, e, (hint_of hh).1]
  simp only [Bool.false_eq_true, if_false]
  rw [asType_group (by omega) hb, asType_group (by omega) (fun x hx => by have := hfi x hx; omega)]
  congr 3
  unfold groupIndexType
  by_cases h : n ≤ 2100000000
  · rw [if_pos h, if_neg (by omega)]
  · rw [if_neg h, if_pos (by omega)]

/-- With the defaults (hint 0, hash mode 2) there is always room. -/
theorem group_defaults_partial (H : List UInt8 → Nat) (keys : List KeyCol) (n : Nat) (filter : Option FilterArg) (calls : List Nat)
    (h0 : keys ≠ []) (hc : ∀ c ∈ keys, IsArray n c) (hf : IsFilter n filter) (hp : Packed filter) (hn : n ≤ 2 ^ 59) :
    ∃ bins firsts : List Nat,
      multiKeyGroupBy H keys 0 filter 2 none calls =
        some (.value ⟨if n ≤ 2100000000 then .i32 else .i64, ints bins, ints firsts, none, firsts.length⟩) ∧
      Numbering (keyed keys n filter) bins firsts := by
  refine group_calls_partial H keys n 0 filter 2 calls h0 hc hf hp hn (by omega) (rowsOf keys n) (fun r hr _ => mem_keyed hr) (.inl ⟨rfl, ?_⟩)
  have : (rowsOf keys n).length = n := by simp [rowsOf]
  rw [this]
  unfold expected
  simp only [if_true]
  omega

-- two keys and a filter: the second row is dropped, the first and the fourth are the same
example : ∃ bins firsts : List Nat,
    multiKeyGroupBy (fun _ => 7) [⟨4, 1, false, [1, 1, 2, 1]⟩, ⟨4, 2, false, [5, 0, 5, 0, 5, 0, 5, 0]⟩] 0 (some ⟨true, 4, 1, [1, 0, 1, 1]⟩) 2 none [] =
      some (.value ⟨.i32, ints bins, ints firsts, none, firsts.length⟩) ∧
    Numbering (keyed [⟨4, 1, false, [1, 1, 2, 1]⟩, ⟨4, 2, false, [5, 0, 5, 0, 5, 0, 5, 0]⟩] 4 (some ⟨true, 4, 1, [1, 0, 1, 1]⟩)) bins firsts :=
  group_defaults_partial _ _ 4 _ _ (by decide) (by simp [IsArray]) (by simp [IsFilter]) (by simp [Packed]) (by decide)

/-- Arrays of different lengths, filters that are not boolean, and filters of another length are refused, and nothing is lost. -/
theorem group_refusals (H : List UInt8 → Nat) (c : KeyCol) (cs : List KeyCol) (hint : Int) (filter : Option FilterArg) (mode : Int) (cuts : Option CutArg)
    (calls : List Nat)
    (h : (∃ d ∈ cs, d.rows ≠ c.rows) ∨ ((∀ d ∈ c :: cs, IsArray c.rows d) ∧ ∃ f, filter = some f ∧ (f.isBool = false ∨ f.len ≠ c.rows))) :
    multiKeyGroupBy H (c :: cs) hint filter mode cuts calls = some (.raised 0) := by
  unfold multiKeyGroupBy
  have : keyRows (.list (c :: cs)) filter = some none := by
    unfold keyRows
    rcases h with ⟨d, hd, hne⟩ | ⟨hc, f, rfl, hf⟩
    · have : cs.all (fun d => decide (d.rows = c.rows)) = false := by
        rw [List.all_eq_false]
        exact ⟨d, hd, by simpa using hne⟩
      have e : prepare (.list (c :: cs)) = some none := by
        unfold prepare
        simp only [KeyArg.cols]
        rw [this]
        rfl
      rw [e]
    · obtain ⟨p, e, h1, _⟩ := prepared (arg := .list (c :: cs)) (n := c.rows) (by simp [KeyArg.cols]) hc trivial
      rw [e]
      dsimp only
      have : filterFlags p.rows (some f) = some none := by
        rw [h1, filterFlags, if_neg]
        rcases hf with hf | hf
        · simp [hf]
        · simp [hf]
      rw [this]
  rw [this]

example : multiKeyGroupBy (fun _ => 7) [⟨2, 1, false, [1, 1]⟩] 0 (some ⟨true, 3, 1, [1, 0, 1]⟩) 2 none [] = some (.raised 0) :=
  group_refusals _ _ _ _ _ _ _ _ (.inr ⟨by simp [IsArray], _, rfl, .inr (by decide)⟩)

/-- A hint that is negative or has more than 64 bits never gives a result: the exception is only seen after all of the work. -/
theorem bad_hints_give_no_result (H : List UInt8 → Nat) (keys : List KeyCol) (hint : Int) (filter : Option FilterArg) (mode : Int) (cuts : Option CutArg)
    (calls : List Nat) (hh : hint < 0 ∨ 2 ^ 64 ≤ hint) (r : GroupResult) : multiKeyGroupBy H keys hint filter mode cuts calls ≠ some (.value r) := by
  have hr : hintRaises hint = true := by
    unfold hintRaises
    simp only [Bool.or_eq_true, decide_eq_true_eq]
    exact hh
  unfold multiKeyGroupBy
  repeat' split
  all_goals try (intro h; cases h; done)
  · unfold plainGroups
    rw [hr]
    repeat' split
    all_goals (intro h; first | cases h; done | contradiction)
  · unfold partGroups
    rw [hr]
    repeat' split
    all_goals (intro h; first | cases h; done | contradiction)

/-! ## What goes wrong -/

theorem one_byte_rows (H : List UInt8 → Nat) (mode hint : Int) (n : Nat) (data : List UInt8) (filter : Option FilterArg) (flags : List Bool) (calls : List Nat)
    (hl : data.length = n) (hf : filterFlags n filter = some (some flags)) :
    multiKeyGroupBy H [⟨n, 1, false, data⟩] hint filter mode none calls =
      plainGroups H hint mode n 1 ((data.map fun b => [b]).zip flags) := by
  have hc : ∀ c ∈ [(⟨n, 1, false, data⟩ : KeyCol)], IsArray n c := by
    simp [IsArray, hl]
  obtain ⟨p, e, h1, h2, h3⟩ := prepared (arg := .list [⟨n, 1, false, data⟩]) (by simp [KeyArg.cols]) hc trivial
  unfold multiKeyGroupBy keyRows
  rw [e]
  dsimp only
  rw [h1, hf]
  dsimp only
  rw [h3, h2]
  simp only [Option.map_some, KeyArg.cols]
  have : ((rowsOf [⟨n, 1, false, data⟩] n).map List.flatten) = data.map fun b => [b] := by
    unfold rowsOf
    rw [List.map_map]
    apply List.ext_getElem?
    intro i
    by_cases hi : i < n
    · rw [List.getElem?_map, List.getElem?_range hi, List.getElem?_map, List.getElem?_eq_getElem (by omega)]
      simp only [Function.comp_apply, List.map_cons, List.map_nil, item, Option.map_some, List.flatten_cons, List.flatten_nil, List.append_nil]
      rw [Nat.mul_one, List.drop_eq_getElem_cons (by omega)]
      rfl
    · rw [List.getElem?_eq_none (by simp; omega), List.getElem?_eq_none (by simp; omega)]
  rw [this]
  rfl

/-- The distance between the flags of a filter is ignored: of the flags True, False (two bytes apart, with a True between them) the second is taken for True. -/
theorem gaps_in_filters_are_ignored (H : List UInt8 → Nat) :
    flagsOf 2 (some ⟨true, 2, 2, [1, 1, 0, 0]⟩) = [true, false] ∧ IsFilter 2 (some ⟨true, 2, 2, [1, 1, 0, 0]⟩) ∧
    multiKeyGroupBy H [⟨2, 1, false, [5, 6]⟩] 0 (some ⟨true, 2, 2, [1, 1, 0, 0]⟩) 2 none [] =
      multiKeyGroupBy H [⟨2, 1, false, [5, 6]⟩] 0 none 2 none [] ∧
    ∀ bins firsts : List Nat, Numbering (keyed [⟨2, 1, false, [5, 6]⟩] 2 none) bins firsts →
      ¬ Numbering (keyed [⟨2, 1, false, [5, 6]⟩] 2 (some ⟨true, 2, 2, [1, 1, 0, 0]⟩)) bins firsts := by
  refine ⟨by decide, ?_, ?_, ?_⟩
  · refine ⟨rfl, rfl, ?_⟩
    intro i hi
    simp
    omega
  · rw [one_byte_rows H 2 0 2 [5, 6] _ [true, true] [] rfl (by decide), one_byte_rows H 2 0 2 [5, 6] none [true, true] [] rfl (by decide)]
  · intro bins firsts N N'
    obtain ⟨g, h, _⟩ := N.range 1 _ rfl
    rw [N'.filtered 1 _ rfl] at h
    cases h

set_option maxRecDepth 20000 in
theorem small_keys_128 : groupBySmall 128 [(1, true), (129, true)] = .ok ⟨[1, 1], [0]⟩ := by rfl

/-- Keys of one byte have no comparison, and with another hash mode too few slots: in mode 1 (prime) the keys 64 and 65, in mode 0 the keys 1 and 129 become one group. -/
theorem small_keys_are_merged (H : List UInt8 → Nat) :
    multiKeyGroupBy H [⟨2, 1, false, [64, 65]⟩] 0 none 1 none [] = some (.value ⟨.i32, [1, 1], [0], none, 1⟩) ∧
    multiKeyGroupBy H [⟨2, 1, false, [1, 129]⟩] 0 none 0 none [] = some (.value ⟨.i32, [1, 1], [0], none, 1⟩) ∧
    (∀ firsts, ¬ Numbering (keyed [⟨2, 1, false, [64, 65]⟩] 2 none) [1, 1] firsts) ∧
    ∀ firsts, ¬ Numbering (keyed [⟨2, 1, false, [1, 129]⟩] 2 none) [1, 1] firsts := by
  have s1 : tableSize 1 128 = some 193 := by decide +kernel
  have s0 : tableSize 0 128 = some 128 := by decide +kernel
  refine ⟨?_, ?_, ?_, ?_⟩
  · rw [one_byte_rows H 1 0 2 [64, 65] none [true, true] [] rfl (by decide)]
    unfold plainGroups groupRows
    rw [if_pos rfl, s1, Option.map_some,
      show groupBySmall 193 ((([64, 65].map fun b => [b]).zip [true, true]).map fun r => (leWord r.1, r.2)) = .ok ⟨[1, 1], [0]⟩ from
        small_keys_prime_mode_merges.2.1]
    decide
  · rw [one_byte_rows H 0 0 2 [1, 129] none [true, true] [] rfl (by decide)]
    unfold plainGroups groupRows
    rw [if_pos rfl, s0, Option.map_some,
      show groupBySmall 128 ((([1, 129].map fun b => [b]).zip [true, true]).map fun r => (leWord r.1, r.2)) = .ok ⟨[1, 1], [0]⟩ from small_keys_128]
    decide
  · intro firsts N
    have := (N.same 0 1 _ _ rfl rfl).mp rfl
    revert this
    decide
  · intro firsts N
    have := (N.same 0 1 _ _ rfl rfl).mp rfl
    revert this
    decide

theorem toomany_size {mode : Int} {want d : Nat} (hw : want ≤ 2 ^ 59) (h : TooMany mode want d) :
    ∃ s, tableSize mode (want : Int) = some s ∧ 0 < s ∧ s < d := by
  unfold tableSize
  rw [Int.toNat_natCast]
  rcases h with ⟨rfl, h1, h2⟩ | ⟨m1, m2, h1, h2⟩
  · obtain ⟨s, k, e, _, h65, _, h2n, h4⟩ := mask_size want false hw
    refine ⟨s, by rw [if_pos rfl, e], by omega, ?_⟩
    simp only [Bool.false_eq_true, if_false] at h4
    omega
  · obtain ⟨k, e, _, hk, hj⟩ := powAbove_spec want (by omega) 64 0 (by omega) (by omega) (by intro j hj; omega)
    refine ⟨2 ^ k, by rw [if_neg m2, if_neg m1]; exact e, Nat.pow_pos (by omega), ?_⟩
    cases k with
    | zero => simp; omega
    | succ k =>
      have := hj k (by omega)
      rw [Nat.pow_succ]
      omega

/-- With too many different rows for the table the call fails, and its index array is never freed. -/
theorem too_many_groups (H : List UInt8 → Nat) (keys : List KeyCol) (n hint : Nat) (filter : Option FilterArg) (mode : Int) (calls : List Nat)
    (h0 : keys ≠ []) (hc : ∀ c ∈ keys, IsArray n c) (hf : IsFilter n filter) (hp : Packed filter) (hn : n ≤ 2 ^ 59) (hh : hint ≤ 2 ^ 59)
    (h1 : rowWidth keys ≠ 1) (h2 : rowWidth keys ≠ 2) (U : List (List (List UInt8))) (hU : U.Nodup) (hUk : ∀ k ∈ U, (k, true) ∈ keyed keys n filter)
    (hmany : TooMany mode (expected hint n) U.length) : multiKeyGroupBy H keys hint filter mode none calls = some (.raised 1) := by
  obtain ⟨s, e, hs, hsd⟩ := toomany_size (by unfold expected; split <;> omega) hmany
  have hlen : ((keyed keys n filter).map fun r => (r.1.flatten, r.2)).length = n := by simp [keyed_length]
  unfold multiKeyGroupBy
  rw [keyRows_ok h0 hc hf hp]
  dsimp only
  have hUn : (U.map List.flatten).Nodup := by
    rw [List.nodup_iff_pairwise_ne, List.pairwise_map]
    refine List.Pairwise.imp_of_mem ?_ hU
    intro a b ha hb hne he
    exact hne (rows_inj hc (mem_keyed (hUk a ha)) (mem_keyed (hUk b hb)) he)
  have hkeys : ∀ (V : Type) (k : List UInt8), k ∈ U.map List.flatten → k ∈ stored (fresh (List UInt8) V s) ∨
      ∃ r ∈ (keyed keys n filter).map fun r => (r.1.flatten, r.2), (if r.2 then some r.1 else none) = some k := by
    intro V k hk
    rw [List.mem_map] at hk
    obtain ⟨q, hq, rfl⟩ := hk
    exact .inr ⟨(q.flatten, true), List.mem_map.mpr ⟨_, hUk q hq, rfl⟩, rfl⟩
  unfold plainGroups groupRows
  rw [if_neg h1, if_neg h2, (hint_of hh).2, wanted_nat, hlen]
  rw [show hintOr hint n = expected hint n from rfl, e]
  have g1 : groupBy (mkHash H s) s ((keyed keys n filter).map fun r => (r.1.flatten, r.2)) = .error .full := by
    unfold groupBy
    rw [loop_full (mkHash_lt H hs) (key := fun r => if r.2 then some r.1 else none) (by
      intro st r
      unfold groupPlan
      cases r.2
      · rfl
      · exact ⟨_, _, rfl⟩) _ _ _ (by simp [fresh]) (U.map List.flatten) hUn (hkeys Nat) (by simpa using hsd)]
    rfl
  have g2 : groupByMk (mkHash H s) s ((keyed keys n filter).map fun r => (r.1.flatten, r.2)) = .error .full := by
    unfold groupByMk
    rw [loop_full (mkHash_lt H hs) (key := fun r => if r.2 then some r.1 else none) (by
      intro st r
      unfold groupMkPlan
      cases r.2
      · rfl
      · exact ⟨_, _, rfl⟩) _ _ _ (by simp [fresh]) (U.map List.flatten) hUn (hkeys Nat) (by simpa using hsd)]
    rfl
  by_cases h48 : rowWidth keys = 4 ∨ rowWidth keys = 8
  · rw [if_pos h48, Option.map_some, g1]
  · rw [if_neg h48, Option.map_some, g2]

-- mode 0 and hint 1: a single slot for two rows
example (H : List UInt8 → Nat) : multiKeyGroupBy H [⟨2, 4, false, [1, 0, 0, 0, 2, 0, 0, 0]⟩] 1 none 0 none [] = some (.raised 1) :=
  too_many_groups H [⟨2, 4, false, [1, 0, 0, 0, 2, 0, 0, 0]⟩] 2 1 none 0 [] (by decide) (by simp [IsArray]) trivial trivial (by decide) (by decide) (by decide) (by decide)
    [[[1, 0, 0, 0]], [[2, 0, 0, 0]]] (by decide) (by decide) (.inr (by decide))

/-! ## With partitions -/

theorem part_map {R S : Type} (f : R → S) (rows : List R) (cuts : List Nat) (i : Nat) : partOf (rows.map f) cuts i = (part rows cuts i).map f := by
  unfold partOf part
  rw [List.map_drop, List.map_take]

theorem mem_part {R : Type} {rows : List R} {cuts : List Nat} {i : Nat} {r : R} (h : r ∈ part rows cuts i) : r ∈ rows :=
  List.mem_of_mem_take (List.mem_of_mem_drop h)

theorem part_length {R : Type} (rows : List R) (cuts : List Nat) (i : Nat) : (part rows cuts i).length ≤ rows.length := by
  unfold part
  simp only [List.length_drop, List.length_take]
  omega

theorem totals_eq : ∀ (l : List Nat) (t : Nat), runningTotals t l = totalsFrom t l
  | [], _ => rfl
  | n :: l, t => by rw [runningTotals, totalsFrom, totals_eq l]

/-- Nondecreasing from `a` on. -/
theorem rising_spec : ∀ (cuts : List Nat) (a : Nat), (∀ i, i + 1 < cuts.length → cuts.getD i 0 ≤ cuts.getD (i + 1) 0) → (∀ c, cuts.head? = some c → a ≤ c) →
    risingFrom (a : Int) (ints cuts) = true
  | [], _, _, _ => rfl
  | c :: cuts, a, h, hh => by
    have ih := rising_spec cuts c (fun i hi => by have := h (i + 1) (by simpa using hi); simpa using this) (by
      intro d hd
      cases cuts with
      | nil => simp at hd
      | cons e cuts =>
        have := h 0 (by simp)
        simp at hd this
        omega)
    have := hh c rfl
    show (decide ((a : Int) ≤ (c : Int)) && risingFrom (c : Int) (ints cuts)) = true
    rw [ih]
    simp
    omega

/-- **C130**, partitions: with nondecreasing cutoffs that lie side by side and end with the number of rows, in whatever order the partitions are done, every partition is numbered by
itself; bins, first rows (counted from the start of their partition) and totals are those of the partitions one after the other.  Missing: cutoffs with gaps (`gaps_in_cutoffs_are_ignored`)
and no cutoffs at all (`no_cutoffs_read_outside`). -/
theorem group_parts_partial (H : List UInt8 → Nat) (keys : List KeyCol) (n hint : Nat) (filter : Option FilterArg) (mode : Int) (cuts : List Nat) (rest : List Int)
    (h0 : keys ≠ []) (hc : ∀ c ∈ keys, IsArray n c) (hf : IsFilter n filter) (hp : Packed filter) (hn : n ≤ 2 ^ 59) (hh : hint ≤ 2 ^ 59)
    (hmono : ∀ i, i + 1 < cuts.length → cuts.getD i 0 ≤ cuts.getD (i + 1) 0) (hlast : cuts.getLast? = some n)
    (U : Nat → List (List (List UInt8))) (hU : ∀ i, i < cuts.length → ∀ r ∈ part (keyed keys n filter) cuts i, r.2 = true → r.1 ∈ U i)
    (hroom : ∀ i, i < cuts.length → Room mode (rowWidth keys) (expected hint (part (keyed keys n filter) cuts i).length) (U i).length)
    {workers : Nat} {nt : Bool} {calls : List Nat} (hs : CountedWork workers cuts.length nt calls) :
    ∃ outs : List (List Nat × List Nat), outs.length = cuts.length ∧
      (∀ (i : Nat) (o : List Nat × List Nat), outs[i]? = some o → Numbering (part (keyed keys n filter) cuts i) o.1 o.2) ∧
      ((List.range cuts.length).map fun i => part (keyed keys n filter) cuts i).flatten = keyed keys n filter ∧
      multiKeyGroupBy H keys hint filter mode (some ⟨true, cuts.length, 1, ints cuts ++ rest⟩) calls =
        some (.value ⟨if n ≤ 2100000000 then .i32 else .i64, ints (outs.flatMap Prod.fst), ints (outs.flatMap Prod.snd),
          some (ints (totalsFrom 0 (outs.map fun o => o.2.length))), (outs.flatMap Prod.snd).length⟩) := by
  generalize hR : keyed keys n filter = R at *
  have hRl : R.length = n := by rw [← hR]; exact keyed_length keys n filter
  have each : ∀ i, ∃ o : GroupOut, i < cuts.length →
      groupRows H mode (hint : Int) (rowWidth keys) (partOf (R.map fun r => (r.1.flatten, r.2)) cuts i) = some (.ok o) ∧
      Numbering (part R cuts i) o.bins o.firsts := by
    intro i
    by_cases hi : i < cuts.length
    · have hpl := part_length R cuts i
      obtain ⟨o, e, N⟩ := groupRows_ok H (mode := mode) (hint := hint) (width := rowWidth keys)
        (rows := (part R cuts i).map fun r => (r.1.flatten, r.2)) (by
          intro r hr
          rw [List.mem_map] at hr
          obtain ⟨q, hq, rfl⟩ := hr
          exact row_bytes hc (mem_keyed (by rw [hR]; exact mem_part hq)))
        (U := (U i).map List.flatten) (by
          intro r hr hk
          rw [List.mem_map] at hr
          obtain ⟨q, hq, rfl⟩ := hr
          exact List.mem_map_of_mem (hU i hi q hq hk))
        (by rw [List.length_map]; unfold hintOr; split <;> omega)
        (by rw [List.length_map, List.length_map]; exact hroom i hi)
      refine ⟨o, fun _ => ⟨by rw [part_map]; exact e, ?_⟩⟩
      exact numbering_map List.flatten (fun x hx y hy h =>
        rows_inj hc (mem_keyed (by rw [hR]; exact mem_part hx)) (mem_keyed (by rw [hR]; exact mem_part hy)) h) N
    · exact ⟨.init, fun h => absurd h hi⟩
  refine ⟨(List.range cuts.length).map fun i => ((each i).choose.bins, (each i).choose.firsts), by simp, ?_, ?_, ?_⟩
  · intro i o ho
    have hi : i < cuts.length := by have := lt_of_get ho; simpa using this
    simp only [List.getElem?_map, List.getElem?_range hi, Option.map_some, Option.some.injEq] at ho
    subst ho
    exact ((each i).choose_spec hi).2
  · have := partOf_flatten R cuts.length cuts (Nat.le_refl _) hmono
    have hne : cuts ≠ [] := by rintro rfl; simp at hlast
    have hpos : cuts.length ≠ 0 := by simpa using hne
    rw [if_neg hpos] at this
    have hl : cuts.getD (cuts.length - 1) 0 = n := by
      rw [List.getLast?_eq_getElem?] at hlast
      rw [List.getD_eq_getElem?_getD, hlast]; rfl
    rw [hl, List.take_of_length_le (by omega)] at this
    exact this
  · have hrun : partRows H mode (hint : Int) (rowWidth keys) (R.map fun r => (r.1.flatten, r.2)) cuts calls =
        ((List.range cuts.length).map fun i => (each i).choose).map fun o => some (.ok o) := by
      unfold partRows
      rw [foldl_set_perm _ hs.perm _ (by simp), List.map_map]
      apply List.map_congr_left
      intro i hi
      exact ((each i).choose_spec (by simpa using hi)).1
    have hnum : ∀ o ∈ (List.range cuts.length).map (fun i => (each i).choose), ∃ i, Numbering (part R cuts i) o.bins o.firsts := by
      intro o ho
      rw [List.mem_map] at ho
      obtain ⟨i, hi, rfl⟩ := ho
      exact ⟨i, ((each i).choose_spec (by simpa using hi)).2⟩
    have houts : (List.range cuts.length).map (fun i => ((each i).choose.bins, (each i).choose.firsts)) =
        ((List.range cuts.length).map fun i => (each i).choose).map fun o => (o.bins, o.firsts) := by
      rw [List.map_map]; rfl
    rw [houts]
    generalize (List.range cuts.length).map (fun i => (each i).choose) = outs at *
    have gen : ∀ (outs : List GroupOut) (t : Nat), collectParts t (outs.map fun o => some (.ok o)) =
        some (outs.flatMap GroupOut.bins, outs.flatMap GroupOut.firsts, totalsFrom t (outs.map fun o => o.firsts.length)) := by
      intro outs
      induction outs with
      | nil => intro t; rfl
      | cons o outs ih => intro t; simp [collectParts, ih, totalsFrom]
    have hmem : (List.range cuts.length).mapM (fun i => (ints cuts ++ rest)[i]?) = some (ints cuts) := by
      rw [mapM_some _ (fun i => (cuts.getD i 0 : Int))]
      · congr 1
        apply List.ext_getElem?
        intro i
        by_cases hi : i < cuts.length
        · rw [List.getElem?_map, List.getElem?_range hi, ints, List.getElem?_map, List.getElem?_eq_getElem hi]
          simp [List.getD, hi]
        · rw [List.getElem?_eq_none (by simp; omega), List.getElem?_eq_none (by simp [ints]; omega)]
      · intro i hi
        have hi : i < cuts.length := by simpa using hi
        rw [List.getElem?_append_left (by simpa [ints] using hi), ints, List.getElem?_map, List.getElem?_eq_getElem hi]
        simp [List.getD, hi]
    have hlast' : (ints cuts).getLast? = some (n : Int) := by rw [ints, List.getLast?_map, hlast]; rfl
    have hpos : cuts.length ≠ 0 := by
      intro h
      have : cuts = [] := by simpa using h
      rw [this] at hlast
      simp at hlast
    have hback : (ints cuts).map Int.toNat = cuts := by
      rw [ints, List.map_map]
      conv => rhs; rw [← List.map_id cuts]
      apply List.map_congr_left
      intro x _
      simp
    have hb : ∀ x ∈ outs.flatMap GroupOut.bins, x ≤ n := by
      intro x hx
      rw [List.mem_flatMap] at hx
      obtain ⟨o, ho, hx⟩ := hx
      obtain ⟨i, N⟩ := hnum o ho
      have := bins_le N x hx
      have := part_length R cuts i
      omega
    have hfi : ∀ x ∈ outs.flatMap GroupOut.firsts, x ≤ n := by
      intro x hx
      rw [List.mem_flatMap] at hx
      obtain ⟨o, ho, hx⟩ := hx
      obtain ⟨i, N⟩ := hnum o ho
      have := firsts_lt N x hx
      have := part_length R cuts i
      omega
    unfold multiKeyGroupBy
    rw [keyRows_ok h0 hc hf hp, hR]
    dsimp only
    unfold partGroups
    simp only [Bool.not_true, Bool.false_eq_true, if_false]
    rw [if_neg hpos, hmem]
    dsimp only
    have hrise : risingFrom 0 (ints cuts) = true := rising_spec cuts 0 hmono (fun _ _ => by omega)
    rw [hlast', if_neg (by simp), hrise]
    simp only [Bool.not_true, Bool.false_eq_true, if_false]
    rw [hback, (hint_of hh).2, hrun, gen]
    dsimp only
    rw [(hint_of hh).1, if_neg (by decide), asType_group (by omega) hb, asType_group (by omega) hfi]
    have f1 : (outs.map fun o => (o.bins, o.firsts)).flatMap Prod.fst = outs.flatMap GroupOut.bins := by rw [List.flatMap_map]
    have f2 : (outs.map fun o => (o.bins, o.firsts)).flatMap Prod.snd = outs.flatMap GroupOut.firsts := by rw [List.flatMap_map]
    have f3 : (outs.map fun o => (o.bins, o.firsts)).map (fun o => o.2.length) = outs.map fun o => o.firsts.length := by rw [List.map_map]; rfl
    rw [f1, f2, f3]
    congr 3
    unfold groupIndexType
    by_cases h : n ≤ 2100000000
    · rw [if_pos h, if_neg (by omega)]
    · rw [if_neg h, if_pos (by omega)]

-- two partitions of two rows: the hypotheses hold
example : ∃ outs : List (List Nat × List Nat), outs.length = 2 ∧
      (∀ (i : Nat) (o : List Nat × List Nat), outs[i]? = some o → Numbering (part (keyed [⟨4, 1, false, [1, 1, 1, 2]⟩] 4 none) [2, 4] i) o.1 o.2) ∧
      ((List.range 2).map fun i => part (keyed [⟨4, 1, false, [1, 1, 1, 2]⟩] 4 none) [2, 4] i).flatten = keyed [⟨4, 1, false, [1, 1, 1, 2]⟩] 4 none ∧
      multiKeyGroupBy (fun _ => 0) [⟨4, 1, false, [1, 1, 1, 2]⟩] 0 none 2 (some ⟨true, 2, 1, [2, 4]⟩) [0, 1] =
        some (.value ⟨.i32, ints (outs.flatMap Prod.fst), ints (outs.flatMap Prod.snd),
          some (ints (totalsFrom 0 (outs.map fun o => o.2.length))), (outs.flatMap Prod.snd).length⟩) :=
  group_parts_partial (fun _ => 0) [⟨4, 1, false, [1, 1, 1, 2]⟩] 4 0 none 2 [2, 4] [] (by decide) (by simp [IsArray]) trivial trivial (by decide) (by decide)
    (by intro i hi; have : i = 0 := by simp at hi; omega
        subst this; decide) rfl (fun i => rowsOf [⟨4, 1, false, [1, 1, 1, 2]⟩] 4) (fun i _ r hr _ => mem_keyed (mem_part hr))
    (fun i _ => .inl ⟨rfl, .inl rfl⟩) (workers := 0) (nt := true) (.direct rfl)

/-- An array of no cutoffs is read outside: undefined behaviour, whatever the keys are. -/
theorem no_cutoffs_read_outside (H : List UInt8 → Nat) (keys : List KeyCol) (n : Nat) (hint mode : Int) (filter : Option FilterArg) (step : Nat) (mem : List Int)
    (calls : List Nat) (h0 : keys ≠ []) (hc : ∀ c ∈ keys, IsArray n c) (hf : IsFilter n filter) (hp : Packed filter) :
    multiKeyGroupBy H keys hint filter mode (some ⟨true, 0, step, mem⟩) calls = none := by
  unfold multiKeyGroupBy
  rw [keyRows_ok h0 hc hf hp]
  rfl

/-- Cutoffs of another type, and cutoffs that do not end with the number of rows, are refused. -/
theorem cutoff_refusals (H : List UInt8 → Nat) (keys : List KeyCol) (n : Nat) (hint mode : Int) (filter : Option FilterArg) (c : CutArg)
    (calls : List Nat) (h0 : keys ≠ []) (hc : ∀ c ∈ keys, IsArray n c) (hf : IsFilter n filter) (hp : Packed filter)
    (h : c.isI64 = false ∨ (c.isI64 = true ∧ 0 < c.len ∧ c.len ≤ c.mem.length ∧ c.mem[c.len - 1]? ≠ some (n : Int))) :
    multiKeyGroupBy H keys hint filter mode (some c) calls = some (.raised 0) := by
  unfold multiKeyGroupBy
  rw [keyRows_ok h0 hc hf hp]
  dsimp only
  unfold partGroups
  rcases h with h | ⟨h1, h2, h3, h4⟩
  · rw [h]; rfl
  · rw [h1, if_neg (by decide), if_neg (by omega)]
    rw [mapM_some _ (fun i => c.mem.getD i 0)]
    · dsimp only
      rw [if_pos]
      intro h
      rw [List.getLast?_map, List.getLast?_range, if_neg (by omega)] at h
      simp only [Option.map_some, Option.some.injEq] at h
      apply h4
      rw [← h, List.getElem?_eq_getElem (by omega)]
      simp [List.getD, show c.len - 1 < c.mem.length by omega]
    · intro i hi
      have hi : i < c.len := by simpa using hi
      simp [List.getD, show i < c.mem.length by omega]

/-- The distance between cutoffs is ignored: the cutoffs 1, 2 with a 0 between them in memory are refused. -/
theorem gaps_in_cutoffs_are_ignored (H : List UInt8 → Nat) (calls : List Nat) :
    multiKeyGroupBy H [⟨2, 1, false, [5, 5]⟩] 0 none 2 (some ⟨true, 2, 2, [1, 0, 2, 0]⟩) calls = some (.raised 0) :=
  cutoff_refusals H _ 2 0 2 none _ calls (by decide) (by simp [IsArray]) trivial trivial (.inr (by decide))

end Riptide.Hash
