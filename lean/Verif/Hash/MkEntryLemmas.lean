import Verif.Hash.MkEntrySpec
import Verif.Hash.MultiKeyFull
import Verif.Hash.GroupProps
import Verif.Hash.CategoricalProps
/-! # Lemmas on the grouping calls -/
namespace Riptide.Hash
open Spec Riptide.Work

/-! ## Numberings -/

/-- Rows told apart in the same way are numbered in the same way. -/
theorem numbering_map {K L : Type} (f : K → L) {rows : List (K × Bool)} {bins firsts : List Nat}
    (hf : ∀ x ∈ rows, ∀ y ∈ rows, f x.1 = f y.1 → x.1 = y.1)
    (N : Numbering (rows.map fun r => (f r.1, r.2)) bins firsts) : Numbering rows bins firsts := by
  have get : ∀ {i : Nat} {k b}, rows[i]? = some (k, b) → (rows.map fun r => (f r.1, r.2))[i]? = some (f k, b) := by
    intro i k b h
    rw [List.getElem?_map, h]
    rfl
  refine ⟨by simpa using N.length, fun i k h => N.filtered i _ (get h), fun i k h => N.range i _ (get h), ?_, N.first, N.order⟩
  intro i j k k' h h'
  rw [N.same i j _ _ (get h) (get h')]
  constructor
  · intro e; exact hf _ (List.mem_of_getElem? h) _ (List.mem_of_getElem? h') e
  · intro e; rw [e]

theorem firsts_lt {K : Type} {rows : List (K × Bool)} {bins firsts : List Nat} (N : Numbering rows bins firsts) : ∀ f ∈ firsts, f < rows.length := by
  intro f hf
  obtain ⟨g, hg⟩ := List.mem_iff_getElem?.mp hf
  rw [← N.length]
  exact lt_of_get (N.first g f hg).1

theorem nodup_of_lt {l : List Nat} (h : l.Pairwise (· < ·)) : l.Nodup := h.imp (fun h => by omega)

theorem firsts_length {K : Type} {rows : List (K × Bool)} {bins firsts : List Nat} (N : Numbering rows bins firsts) : firsts.length ≤ rows.length := by
  have := nodup_subset_length (u := List.range rows.length) (nodup_of_lt N.order) (fun x hx => by simpa using firsts_lt N x hx)
  simpa using this

theorem bins_le {K : Type} {rows : List (K × Bool)} {bins firsts : List Nat} (N : Numbering rows bins firsts) : ∀ b ∈ bins, b ≤ rows.length := by
  intro b hb
  obtain ⟨i, hi⟩ := List.mem_iff_getElem?.mp hb
  have hlt : i < rows.length := by rw [← N.length]; exact lt_of_get hi
  have hrow : rows[i]? = some (rows[i].1, rows[i].2) := List.getElem?_eq_getElem hlt
  cases hk : rows[i].2 with
  | false =>
    rw [hk] at hrow
    have := N.filtered i _ hrow
    rw [hi] at this
    injection this with this
    omega
  | true =>
    rw [hk] at hrow
    obtain ⟨g, hg, hgl⟩ := N.range i _ hrow
    rw [hi] at hg
    injection hg with hg
    have := firsts_length N
    omega

/-! ## Numbers in 32 and 64 bits -/

theorem wrap32 {x : Nat} (h : x < 2 ^ 31) : IT.i32.wrap (x : Int) = (x : Int) := by
  apply IT.wrap_of_inRange _ (by decide)
  simp only [IT.InRange, IT.lo, IT.hi, IT.i32]
  simp
  omega

theorem wrap64 {x : Nat} (h : x < 2 ^ 63) : IT.i64.wrap (x : Int) = (x : Int) := by
  apply IT.wrap_of_inRange _ (by decide)
  simp only [IT.InRange, IT.lo, IT.hi, IT.i64]
  simp
  omega

theorem asType_i32 {l : List Nat} (h : ∀ x ∈ l, x < 2 ^ 31) : asType .i32 l = ints l :=
  List.map_congr_left fun x hx => wrap32 (h x hx)

theorem asType_i64 {l : List Nat} (h : ∀ x ∈ l, x < 2 ^ 63) : asType .i64 l = ints l :=
  List.map_congr_left fun x hx => wrap64 (h x hx)

theorem asType_group {n : Nat} {l : List Nat} (hn : n < 2 ^ 63) (h : ∀ x ∈ l, x ≤ n) : asType (groupIndexType n) l = ints l := by
  unfold groupIndexType
  split
  · exact asType_i64 fun x hx => by have := h x hx; omega
  · exact asType_i32 fun x hx => by have := h x hx; omega

theorem asType_unique {n : Nat} {l : List Nat} (hn : n < 2 ^ 63) (h : ∀ x ∈ l, x ≤ n) : asType (uniqueIndexType n) l = ints l := by
  unfold uniqueIndexType
  split
  · exact asType_i32 fun x hx => by have := h x hx; omega
  · exact asType_i64 fun x hx => by have := h x hx; omega

/-! ## Sizes -/

theorem hint_of {h : Nat} (hh : h ≤ 2 ^ 59) : hintRaises (h : Int) = false ∧ hintOf (h : Int) = (h : Int) := by
  have h1 : hintRaises (h : Int) = false := by
    unfold hintRaises
    simp only [Bool.or_eq_false_iff, decide_eq_false_iff_not]
    omega
  refine ⟨h1, ?_⟩
  rw [hintOf, h1, if_neg (by decide), wrap64 (by omega)]

theorem wanted_nat (h n : Nat) : wanted (h : Int) n = ((hintOr h n : Nat) : Int) := by
  unfold wanted hintOr
  by_cases h0 : h = 0
  · subst h0; rfl
  · rw [if_neg h0, if_neg (by omega)]

/-- Enough slots for wide rows. -/
theorem room_size {mode : Int} {width want d : Nat} (hw : want ≤ 2 ^ 59) (h : Room mode width want d) (h1 : width ≠ 1) (h2 : width ≠ 2) :
    ∃ s, tableSize mode (want : Int) = some s ∧ d < s := by
  unfold tableSize
  rw [Int.toNat_natCast]
  rcases h with ⟨rfl, h⟩ | ⟨rfl, _, _, h3, h4⟩ | ⟨m1, m2, _, _, h3⟩
  · obtain ⟨s, k, e, _, h65, _, h2n, _⟩ := mask_size want false hw
    refine ⟨s, by rw [if_pos rfl, e], ?_⟩
    simp only [Bool.false_eq_true, if_false] at h2n
    rcases h with h | h | h | h
    · exact absurd h h1
    · exact absurd h h2
    · omega
    · omega
  · obtain ⟨s, e, hlt, _⟩ := prime_size_partial want false h4
    refine ⟨s, ?_, by omega⟩
    rw [if_neg (by omega), if_pos rfl, e]
    show (if s = 0 then none else some s) = some s
    rw [if_neg (by omega)]
  · obtain ⟨k, e, _, hk, _⟩ := powAbove_spec want (by omega) 64 0 (by omega) (by omega) (by intro j hj; omega)
    exact ⟨2 ^ k, by rw [if_neg m2, if_neg m1]; exact e, by omega⟩

theorem mkHash_lt (H : List UInt8 → Nat) {s : Nat} (hs : 0 < s) (k : List UInt8) : mkHash H s k < s := by
  unfold mkHash
  exact Nat.lt_of_le_of_lt Nat.and_le_right (by omega)

theorem small_sizes : tableSize 2 128 = some (2 ^ 16) ∧ tableSize 2 32768 = some (2 ^ 16) := by decide +kernel

/-- The loops for all widths number the rows. -/
theorem groupRows_ok (H : List UInt8 → Nat) {mode : Int} {hint width : Nat} {rows : List (List UInt8 × Bool)} (hlen : ∀ r ∈ rows, r.1.length = width)
    {U : List (List UInt8)} (hU : ∀ r ∈ rows, r.2 = true → r.1 ∈ U) (hw : hintOr hint rows.length ≤ 2 ^ 59)
    (hroom : Room mode width (hintOr hint rows.length) U.length) :
    ∃ o, groupRows H mode (hint : Int) width rows = some (.ok o) ∧ Numbering rows o.bins o.firsts := by
  have small : ∀ e, width ≤ 2 → e = 16 →
      ∃ o, groupBySmall (2 ^ e) (rows.map fun r => (leWord r.1, r.2)) = .ok o ∧ Numbering rows o.bins o.firsts := by
    intro e h2 he
    obtain ⟨o, h, N⟩ := groupby_small_first_appearance e (rows.map fun r => (leWord r.1, r.2)) (by
      intro r hr _
      rw [List.mem_map] at hr
      obtain ⟨q, hq, rfl⟩ := hr
      have := leWord_lt_pow q.1
      rw [hlen q hq] at this
      have h4 : 256 ^ width ≤ 256 ^ 2 := Nat.pow_le_pow_right (by omega) h2
      subst he
      show leWord q.1 < 2 ^ 16
      omega)
    exact ⟨o, h, numbering_map leWord (fun x hx y hy e => leWord_inj ((hlen x hx).trans (hlen y hy).symm) e) N⟩
  unfold groupRows
  by_cases h1 : width = 1
  · rw [if_pos h1]
    have hm : mode = 2 := by rcases hroom with ⟨h, _⟩ | ⟨_, h, _⟩ | ⟨_, _, h, _⟩ <;> first | exact h | exact absurd h1 h
    subst hm
    obtain ⟨o, e, N⟩ := small 16 (by omega) rfl
    rw [small_sizes.1]
    exact ⟨o, by rw [Option.map_some, e], N⟩
  rw [if_neg h1]
  by_cases h2 : width = 2
  · rw [if_pos h2]
    have hm : mode = 2 := by rcases hroom with ⟨h, _⟩ | ⟨_, _, h, _⟩ | ⟨_, _, _, h, _⟩ <;> first | exact h | exact absurd h2 h
    subst hm
    obtain ⟨o, e, N⟩ := small 16 (by omega) rfl
    rw [small_sizes.2]
    exact ⟨o, by rw [Option.map_some, e], N⟩
  rw [if_neg h2, wanted_nat]
  obtain ⟨s, e, hs⟩ := room_size hw hroom h1 h2
  rw [e]
  split
  · obtain ⟨o, h, N⟩ := groupby_first_appearance (mkHash H s) s (mkHash_lt H (by omega)) rows U hU hs
    exact ⟨o, by rw [Option.map_some, h], N⟩
  · obtain ⟨o, h, N⟩ := groupby_multikey_first_appearance (mkHash H s) s (mkHash_lt H (by omega)) rows U hU hs
    exact ⟨o, by rw [Option.map_some, h], N⟩

/-! ## The keys -/

theorem flags_length (n : Nat) (filter : Option FilterArg) : (flagsOf n filter).length = n := by
  cases filter <;> simp [flagsOf]

theorem filterFlags_ok {n : Nat} {filter : Option FilterArg} (h : IsFilter n filter) (hp : Packed filter) :
    filterFlags n filter = some (some (flagsOf n filter)) := by
  cases filter with
  | none => rfl
  | some f =>
    obtain ⟨h1, h2, h3⟩ := h
    have hi : ∀ i, i < n → i * f.step = i := by
      intro i hi
      rcases hp with hp | hp
      · rw [hp, Nat.mul_one]
      · have : i = 0 := by omega
        subst this
        simp
    rw [filterFlags, h1, h2]
    simp only [decide_true, Bool.and_self, if_true]
    rw [mapM_some _ (fun i => f.mem.getD i 0)]
    · simp only [Option.map_some, flagsOf, List.map_map]
      congr 2
      apply List.map_congr_left
      intro i hm
      rw [hi i (by simpa using hm)]
      rfl
    · intro i hm
      have hm : i < n := by simpa using hm
      have := h3 i hm
      rw [hi i hm] at this
      simp [List.getD, this]

theorem keyRows_ok {keys : List KeyCol} {n : Nat} {filter : Option FilterArg} (h0 : keys ≠ []) (hc : ∀ c ∈ keys, IsArray n c)
    (hf : IsFilter n filter) (hp : Packed filter) :
    keyRows (.list keys) filter = some (some (n, rowWidth keys, (keyed keys n filter).map fun r => (r.1.flatten, r.2))) := by
  obtain ⟨p, e, h1, h2, h3⟩ := prepared (arg := .list keys) h0 hc trivial
  unfold keyRows
  rw [e]
  dsimp only
  rw [h1, filterFlags_ok hf hp]
  dsimp only
  rw [h3, h2]
  simp only [Option.map_some, KeyArg.cols, rowWidth, keyed, List.zip_map_left]
  rfl

theorem mem_keyed {keys : List KeyCol} {n : Nat} {filter : Option FilterArg} {r : List (List UInt8) × Bool} (h : r ∈ keyed keys n filter) :
    r.1 ∈ rowsOf keys n := (List.of_mem_zip h).1

theorem keyed_length (keys : List KeyCol) (n : Nat) (filter : Option FilterArg) : (keyed keys n filter).length = n := by
  simp [keyed, flags_length, rowsOf]

theorem row_bytes {keys : List KeyCol} {n : Nat} (hc : ∀ c ∈ keys, IsArray n c) {r : List (List UInt8)} (h : r ∈ rowsOf keys n) :
    r.flatten.length = rowWidth keys := by
  obtain ⟨i, hi, rfl⟩ := mem_rowsOf h
  rw [List.length_flatten, row_length hc hi]
  rfl

theorem rows_inj {keys : List KeyCol} {n : Nat} (hc : ∀ c ∈ keys, IsArray n c) {x y : List (List UInt8)} (hx : x ∈ rowsOf keys n) (hy : y ∈ rowsOf keys n)
    (h : x.flatten = y.flatten) : x = y := by
  obtain ⟨i, hi, rfl⟩ := mem_rowsOf hx
  obtain ⟨j, hj, rfl⟩ := mem_rowsOf hy
  exact flatten_inj (by rw [row_length hc hi, row_length hc hj]) h

/-! ## Full tables -/

/-- An insertion either succeeds, and all keys and the new one are in the table, or reports a full table. -/
theorem upsert_any {K V : Type} [DecidableEq K] {t : Slots K V} {h : Nat} (hh : h < t.length) (k : K) (v : V) (f : V → V) :
    (∃ t' o, upsert t (fun x => decide (x = k)) h k v f = .ok (t', o) ∧ t'.length = t.length ∧ (∀ x ∈ stored t, x ∈ stored t') ∧ k ∈ stored t') ∨
    upsert t (fun x => decide (x = k)) h k v f = .error .full := by
  have hpf := probe_from t (fun x => decide (x = k)) h hh t.length 0 (by omega) (by omega) (fun e he => absurd he (by omega))
  rw [cyc_zero hh] at hpf
  unfold upsert
  rcases hpf with ⟨d, k', v', _, _, e, hat, hm, _⟩ | ⟨d, _, hd, e, hfree, _⟩ | ⟨e, _⟩
  · refine .inl ⟨_, _, by rw [e], by simp, ?_, ?_⟩
    · intro x hx
      obtain ⟨q, w, hq⟩ := mem_stored.mp hx
      by_cases hqp : q = cyc t.length h d
      · subst hqp
        unfold At at hq hat
        rw [hq] at hat
        have : x = k' := by simpa using congrArg (fun o : Option (Option (K × V)) => o.bind (fun o => o.map Prod.fst)) hat
        subst this
        exact mem_stored.mpr ⟨_, f v', (at_set (at_lt (by unfold At; rw [hq]))).mpr (.inl ⟨rfl, rfl, rfl⟩)⟩
      · exact mem_stored.mpr ⟨q, w, (at_set (at_lt hat)).mpr (.inr ⟨hqp, hq⟩)⟩
    · have : k' = k := by simpa using hm
      subst this
      exact mem_stored.mpr ⟨_, f v', (at_set (at_lt hat)).mpr (.inl ⟨rfl, rfl, rfl⟩)⟩
  · have hp := cyc_lt hh hd
    refine .inl ⟨_, _, by rw [e], by simp, ?_, mem_stored.mpr ⟨_, v, (at_set hp).mpr (.inl ⟨rfl, rfl, rfl⟩)⟩⟩
    intro x hx
    obtain ⟨q, w, hq⟩ := mem_stored.mp hx
    refine mem_stored.mpr ⟨q, w, (at_set hp).mpr (.inr ⟨?_, hq⟩)⟩
    rintro rfl
    unfold At at hq
    rw [hfree] at hq
    simp at hq
  · exact .inr (by rw [e])

/-- A loop that stores a key for every row with one: it succeeds, and then has all of the keys in the table, or the table is full. -/
theorem loop_any {K V R S : Type} [DecidableEq K] {hash : K → Nat} {size : Nat} (hh : ∀ k, hash k < size) {plan : S → R → Op K V}
    {next : S → R → Option V → S} {key : R → Option K}
    (hp : ∀ s r, match key r with
      | none => plan s r = .skip
      | some k => ∃ v f, plan s r = .put k v f) :
    ∀ (rows : List R) (t : Slots K V) (s : S), t.length = size →
    (∃ t' s', tableLoop (probing hash) plan next t s rows = .ok (t', s') ∧ t'.length = size ∧ (∀ x ∈ stored t, x ∈ stored t') ∧
      ∀ r ∈ rows, ∀ k, key r = some k → k ∈ stored t') ∨
    tableLoop (probing hash) plan next t s rows = .error .full
  | [], t, s, ht => .inl ⟨t, s, rfl, ht, fun x h => h, by simp⟩
  | r :: rows, t, s, ht => by
    have hpr := hp s r
    unfold tableLoop
    cases hk : key r with
    | none =>
      rw [hk] at hpr
      simp only at hpr
      rw [hpr]
      dsimp only
      rcases loop_any hh hp rows t (next s r none) ht with ⟨t', s', e, h1, h2, h3⟩ | h
      · refine .inl ⟨t', s', e, h1, h2, ?_⟩
        intro q hq k hqk
        rcases List.mem_cons.mp hq with rfl | hq
        · rw [hk] at hqk; cases hqk
        · exact h3 q hq k hqk
      · exact .inr h
    | some k =>
      rw [hk] at hpr
      simp only at hpr
      obtain ⟨v, f, hpr⟩ := hpr
      rw [hpr]
      dsimp only
      rcases upsert_any (t := t) (h := hash k) (by rw [ht]; exact hh k) k v f with ⟨t1, o, e, g1, g2, g3⟩ | e
      · have e' : (probing hash).put t k v f = .ok (t1, o) := e
        rw [e']
        dsimp only
        rcases loop_any hh hp rows t1 (next s r o) (g1.trans ht) with ⟨t', s', e, h1, h2, h3⟩ | h
        · refine .inl ⟨t', s', e, h1, fun x hx => h2 x (g2 x hx), ?_⟩
          intro q hq k' hqk
          rcases List.mem_cons.mp hq with rfl | hq
          · rw [hk] at hqk; injection hqk with hqk; subst hqk; exact h2 _ g3
          · exact h3 q hq k' hqk
        · exact .inr h
      · have e' : (probing hash).put t k v f = .error .full := e
        rw [e']
        exact .inr rfl

/-- With more different keys than slots the table gets full. -/
theorem loop_full {K V R S : Type} [DecidableEq K] {hash : K → Nat} {size : Nat} (hh : ∀ k, hash k < size) {plan : S → R → Op K V}
    {next : S → R → Option V → S} {key : R → Option K}
    (hp : ∀ s r, match key r with
      | none => plan s r = .skip
      | some k => ∃ v f, plan s r = .put k v f)
    (rows : List R) (t : Slots K V) (s : S) (ht : t.length = size) (U : List K) (hU : U.Nodup)
    (hk : ∀ k ∈ U, k ∈ stored t ∨ ∃ r ∈ rows, key r = some k) (hfull : size < U.length) : tableLoop (probing hash) plan next t s rows = .error .full := by
  rcases loop_any hh hp (next := next) rows t s ht with ⟨t', s', _, h1, h2, h3⟩ | h
  · exfalso
    have := nodup_subset_length hU (u := stored t') (fun x hx => by
      rcases hk x hx with h | ⟨r, hr, hrk⟩
      · exact h2 x h
      · exact h3 r hr x hrk)
    have h4 := stored_length t'
    omega
  · exact h

end Riptide.Hash
