import Verif.Member.GraphProps
/-! # What the graph of tasks stores, and where it fails -/
namespace Riptide.Member

theorem mapM_inv {α β : Type} {f : α → Option β} : ∀ {l : List α} {s : List β}, l.mapM f = some s →
    (∀ y ∈ s, ∃ x ∈ l, f x = some y) ∧ ∀ x ∈ l, ∃ y ∈ s, f x = some y
  | [], s, h => by
    cases h
    exact ⟨nofun, nofun⟩
  | a :: l, s, h => by
    rw [List.mapM_cons] at h
    cases ha : f a with
    | none => rw [ha] at h; cases h
    | some b =>
      cases hl : l.mapM f with
      | none => rw [ha, hl] at h; cases h
      | some t =>
        rw [ha, hl] at h
        cases h
        obtain ⟨h1, h2⟩ := mapM_inv hl
        refine ⟨?_, ?_⟩
        · intro y hy
          rw [List.mem_cons] at hy
          rcases hy with rfl | hy
          · exact ⟨a, by simp, ha⟩
          · obtain ⟨x, hx, hf⟩ := h1 y hy
            exact ⟨x, by simp [hx], hf⟩
        · intro x hx
          rw [List.mem_cons] at hx
          rcases hx with rfl | hx
          · exact ⟨b, by simp, ha⟩
          · obtain ⟨y, hy, hf⟩ := h2 x hx
            exact ⟨y, by simp [hy], hf⟩

theorem mapM_none {α β : Type} {f : α → Option β} {l : List α} {x : α} (hx : x ∈ l) (hf : f x = none) : l.mapM f = none := by
  cases h : l.mapM f with
  | none => rfl
  | some s =>
    obtain ⟨y, _, hy⟩ := (mapM_inv h).2 x hx
    rw [hf] at hy
    cases hy

theorem mapM_getElem? {α β : Type} {f : α → Option β} : ∀ {l : List α} {s : List β}, l.mapM f = some s → ∀ {i : Nat} {x : α}, l[i]? = some x →
    ∃ y, s[i]? = some y ∧ f x = some y
  | [], s, h, i, x, hx => by simp at hx
  | a :: l, s, h, i, x, hx => by
    rw [List.mapM_cons] at h
    cases ha : f a with
    | none => rw [ha] at h; cases h
    | some b =>
      cases hl : l.mapM f with
      | none => rw [ha, hl] at h; cases h
      | some t =>
        rw [ha, hl] at h
        cases h
        cases i with
        | zero =>
          cases hx
          exact ⟨b, rfl, ha⟩
        | succ i => exact mapM_getElem? hl (by simpa using hx)

/-- What a range sends to a table. -/
theorem split_items {α : Type} {w len B : Nat} {key : Nat → Option α} {bucket : α → Option Nat} {r : Nat × Int} {s : List (List (List (α × Nat)))}
    (h : split w len B key bucket r = some s) {j : Nat} (hj : j < B) (e : α × Nat) :
    e ∈ (s.getD j []).flatten ↔ r ≠ (0, 0) ∧ ∃ ps, positions w len r = some ps ∧ e.2 ∈ ps ∧ key e.2 = some e.1 ∧ bucket e.1 = some j := by
  unfold split at h
  by_cases hr : r = (0, 0)
  · rw [if_pos hr] at h
    cases h
    simp [hr, List.getD, hj]
  · rw [if_neg hr] at h
    cases hp : positions w len r with
    | none => rw [hp] at h; cases h
    | some ps =>
      rw [hp] at h
      dsimp only at h
      cases he : ps.mapM (fun i => (key i).map (fun k => (k, i))) with
      | none => rw [he] at h; cases h
      | some es =>
        rw [he] at h
        dsimp only at h
        split at h
        · obtain ⟨y, y1, y2⟩ := mapM_getElem? h (List.getElem?_range hj)
          have hy : y.flatten = es.filter (fun e => bucket e.1 == some j) := by
            split at y2
            · cases y2
            · cases y2
              exact chunks_flatten (by omega) _ _ (Nat.le_refl _)
          have hg : s.getD j [] = y := by simp [List.getD, y1]
          have hes : e ∈ es ↔ e.2 ∈ ps ∧ key e.2 = some e.1 := by
            obtain ⟨m1, m2⟩ := mapM_inv he
            constructor
            · intro hm
              obtain ⟨i, hi, h⟩ := m1 e hm
              cases hk : key i with
              | none => rw [hk] at h; cases h
              | some k =>
                rw [hk] at h
                cases h
                exact ⟨hi, hk⟩
            · rintro ⟨hi, hk⟩
              obtain ⟨y, hy, h⟩ := m2 _ hi
              rw [hk] at h
              cases h
              exact hy
          rw [hg, hy, List.mem_filter, hes]
          simp only [ne_eq, hr, not_false_eq_true, true_and, Option.some.injEq, exists_eq_left', beq_iff_eq, and_assoc]
        · cases h

/-- What is in a table when no task goes wrong, whatever the order of the tasks: the items of the ranges, each in its table. -/
theorem table_items {α : Type} {G n len : Nat} {key : Nat → Option α} {bucket : α → Option Nat} {S : List (List (List (List (α × Nat))))}
    (h : splitAll G n len key bucket = some S) {maps : List (List (α × Nat))} (hm : Tables S (tables G n) maps) {j : Nat} {m : List (α × Nat)}
    (hj : maps[j]? = some m) (e : α × Nat) :
    e ∈ m ↔ ∃ r ∈ spans G (indexBits n) n len (n * len + 2) 0, r ≠ (0, 0) ∧ ∃ ps, positions (indexBits n) len r = some ps ∧ e.2 ∈ ps ∧
      key e.2 = some e.1 ∧ bucket e.1 = some j := by
  obtain ⟨hlen, hst⟩ := hm
  have hjB : j < tables G n := by
    have := (List.getElem?_eq_some_iff.mp hj).1
    omega
  obtain ⟨r, hr, rfl⟩ := hst j m hj
  obtain ⟨m1, m2⟩ := mapM_inv h
  rw [List.mem_flatten]
  constructor
  · rintro ⟨msg, h1, h2⟩
    obtain ⟨l, hl, hmsg⟩ := (interleaved_mem hr msg).mp h1
    obtain ⟨s, hs, rfl⟩ := List.mem_map.mp hl
    obtain ⟨x, hx, hf⟩ := m1 s hs
    exact ⟨x, hx, (split_items hf hjB e).mp (List.mem_flatten.mpr ⟨msg, hmsg, h2⟩)⟩
  · rintro ⟨x, hx, hrest⟩
    obtain ⟨s, hs, hf⟩ := m2 x hx
    obtain ⟨msg, hmsg, h2⟩ := List.mem_flatten.mp ((split_items hf hjB e).mpr hrest)
    exact ⟨msg, (interleaved_mem hr msg).mpr ⟨_, List.mem_map.mpr ⟨s, hs, rfl⟩, hmsg⟩, h2⟩

/-- Whatever the array and the order of the tasks: an item which is found is equal to what is at its place. -/
theorem found_is_equal {α : Type} {G n len : Nat} {key : Nat → Option α} {bucket : α → Option Nat} {S : List (List (List (List (α × Nat))))}
    (h : splitAll G n len key bucket = some S) {maps : List (List (α × Nat))} (hm : Tables S (tables G n) maps) (eq : α → α → Bool) {b : Option Nat}
    {v : α} {i : Nat} (ha : answer eq maps b v = some (some i)) :
    (∃ x, key i = some x ∧ eq x v = true) ∧
      ∃ r ∈ spans G (indexBits n) n len (n * len + 2) 0, ∃ ps, positions (indexBits n) len r = some ps ∧ i ∈ ps := by
  unfold answer at ha
  cases b with
  | none => cases ha
  | some j =>
    dsimp only at ha
    cases hj : maps[j]? with
    | none => rw [hj] at ha; cases ha
    | some m =>
      rw [hj] at ha
      have hf := Option.some.inj ha
      unfold find at hf
      cases hq : m.find? (fun e => eq e.1 v) with
      | none => rw [hq] at hf; cases hf
      | some e =>
        rw [hq] at hf
        cases hf
        obtain ⟨r, hr, _, ps, p1, p2, p3, _⟩ := (table_items h hm hj e).mp (List.mem_of_find?_eq_some hq)
        exact ⟨⟨e.1, p3, by simpa using List.find?_some hq⟩, r, hr, ps, p1, p2⟩

/-! ### Ranges which are empty -/

/-- A range without an item reads a bucket that has none. -/
theorem empty_range {α : Type} {w len B a : Nat} (key : Nat → Option α) (bucket : α → Option Nat) (hB : 0 < B) (ha : 0 < a) :
    split w len B key bucket (a, (a : Int)) = none := by
  have hp : positions w len (a, (a : Int)) = some [] := by
    unfold positions
    dsimp only
    rw [if_neg (by omega), Int.toNat_natCast, Nat.sub_self]
    simp
  unfold split
  rw [if_neg (by intro h; have := congrArg Prod.fst h; dsimp only at this; omega), hp]
  simp only [List.mapM_nil]
  refine (if_pos (by simp)).trans ?_
  exact mapM_none (List.mem_range.mpr hB) (by simp)

/-- A last piece of `G - 1` or `G` numbers is followed by an empty range. -/
theorem spans_extra {G w n : Nat} (hG : 2 ≤ G) (hw : n < 2 ^ (w - 1)) (hw0 : 0 < w) (h : n % G = 0 ∨ n % G = G - 1) :
    ∀ (fuel c : Nat), c * G ≤ n → n - c * G + 1 < fuel → (n, (n : Int)) ∈ spans G w n 1 fuel (c * G)
  | 0, c, _, hf => by omega
  | fuel + 1, c, hc, hf => by
    have hend : ∀ f, 0 < f → (n, (n : Int)) ∈ spans G w n 1 f n := by
      intro f hf
      obtain ⟨f, rfl⟩ : ∃ k, f = k + 1 := ⟨f - 1, by omega⟩
      rw [spans]
      have : spanEnd G w n 1 n = n := by
        unfold spanEnd
        rw [if_pos (by omega), Nat.mul_one, bmod_small hw hw0]
      rw [this]
      exact List.mem_cons_self
    by_cases he : c * G = n
    · rw [he]; exact hend _ (by omega)
    · by_cases hl : (c + 1) * G ≤ n
      · have hsp : spanEnd G w n 1 (c * G) = (((c + 1) * G : Nat) : Int) := by
          unfold spanEnd
          rw [Nat.div_one, Nat.mul_one, Nat.mul_one, Nat.succ_mul]
          rw [Nat.succ_mul] at hl
          split
          · rw [bmod_small hw hw0]; congr 1; omega
          · rw [bmod_small (by omega) hw0]
        rw [spans, hsp]
        refine List.mem_cons_of_mem _ ?_
        rw [if_neg (by rw [Nat.succ_mul]; omega), Int.toNat_natCast]
        exact spans_extra hG hw hw0 h fuel (c + 1) hl (by rw [Nat.succ_mul] at hl ⊢; omega)
      · have hmod : n % G = n - c * G := by
          have : n = n - c * G + c * G := by omega
          rw [this, Nat.add_mul_mod_self_right, Nat.mod_eq_of_lt (by rw [Nat.succ_mul] at hl; omega)]
          omega
        have hsp : spanEnd G w n 1 (c * G) = n := by
          unfold spanEnd
          rw [Nat.div_one, Nat.mul_one, Nat.mul_one]
          rw [Nat.succ_mul] at hl
          rw [if_pos (by omega), bmod_small hw hw0]
        rw [spans, hsp]
        refine List.mem_cons_of_mem _ ?_
        rw [if_neg (by omega), Int.toNat_natCast]
        exact hend _ (by omega)

/-- A million numbers, or 999999, or any number of numbers with such a remainder: a null pointer is read. -/
theorem whole_pieces {α : Type} (data : List α) (bucket : α → Option Nat) (hpos : 0 < data.length) (hn : data.length < 2 ^ 63)
    (h : data.length % 1000000 = 0 ∨ data.length % 1000000 = 999999) : splitAll grain data.length 1 (numKey data) bucket = none := by
  have hm := spans_extra (G := grain) (w := indexBits data.length) (n := data.length) (by decide) (bits_enough hn) (bits_pos _) h (data.length * 1 + 2) 0
    (by omega) (by omega)
  rw [Nat.zero_mul] at hm
  refine mapM_none hm (empty_range _ _ ?_ hpos)
  unfold tables grain
  omega

/-- Strings with 999999 characters or more in one range: a null pointer is read, too. -/
theorem many_characters {α : Type} (key : Nat → Option α) (bucket : α → Option Nat) {n len : Nat} (hn : n ≤ 1000000 / len * len)
    (hc : 999999 ≤ n * len) (hw : n * len < 2 ^ (indexBits n - 1)) : splitAll grain n len key bucket = none := by
  have hw0 := bits_pos n
  have he : ∀ s, spanEnd grain (indexBits n) n len s = ((n * len : Nat) : Int) := by
    intro s
    unfold spanEnd grain
    rw [if_pos (by omega), bmod_small hw hw0]
  have hm : (n * len, ((n * len : Nat) : Int)) ∈ spans grain (indexBits n) n len (n * len + 2) 0 := by
    rw [spans, he]
    refine List.mem_cons_of_mem _ ?_
    rw [if_neg (by unfold grain; omega), Int.toNat_natCast, spans, he]
    exact List.mem_cons_self
  refine mapM_none hm (empty_range _ _ ?_ (by omega))
  have : n ≠ 0 := by rintro rfl; omega
  unfold tables grain
  omega

/-- The pieces of the numbers are all there. -/
theorem spans_piece {G w n : Nat} (hG : 2 ≤ G) (hw : n < 2 ^ (w - 1)) (hw0 : 0 < w) :
    ∀ (k fuel c : Nat), (c + k) * G < n → k < fuel → ((c + k) * G, ((min n ((c + k + 1) * G) : Nat) : Int)) ∈ spans G w n 1 fuel (c * G)
  | _, 0, c, _, hf => by omega
  | 0, fuel + 1, c, hc, _ => by
    have he : spanEnd G w n 1 (c * G) = ((min n ((c + 1) * G) : Nat) : Int) := by
      unfold spanEnd
      rw [Nat.div_one, Nat.mul_one, Nat.mul_one, Nat.succ_mul]
      rw [Nat.add_zero] at hc
      split
      · rw [bmod_small hw hw0]; congr 1; omega
      · rw [bmod_small (by omega) hw0]; congr 1; omega
    rw [spans, he]
    exact List.mem_cons_self
  | k + 1, fuel + 1, c, hc, hf => by
    have hle : (c + 1) * G ≤ (c + (k + 1)) * G := Nat.mul_le_mul_right _ (by omega)
    have he : spanEnd G w n 1 (c * G) = (((c + 1) * G : Nat) : Int) := by
      unfold spanEnd
      rw [Nat.div_one, Nat.mul_one, Nat.mul_one, Nat.succ_mul]
      rw [Nat.succ_mul] at hle
      rw [if_neg (by omega), bmod_small (by omega) hw0]
    rw [spans, he]
    refine List.mem_cons_of_mem _ ?_
    rw [if_neg (by rw [Nat.succ_mul]; omega), Int.toNat_natCast]
    have := spans_piece hG hw hw0 k fuel (c + 1) (by rw [show c + 1 + k = c + (k + 1) by omega]; exact hc) (by omega)
    rw [show c + 1 + k = c + (k + 1) by omega] at this
    exact this

/-- A piece of numbers without one for some table: a null pointer is read. -/
theorem missing_table {α : Type} {G : Nat} (hG : 2 ≤ G) (data : List α) (bucket : α → Option Nat) (hn : data.length < 2 ^ 63) {c j : Nat} (hc : c * G < data.length)
    (hj : j < tables G data.length)
    (hm : ∀ i x, c * G ≤ i → i < (c + 1) * G → data[i]? = some x → bucket x ≠ some j) :
    splitAll G data.length 1 (numKey data) bucket = none := by
  have hsp := spans_piece (G := G) (w := indexBits data.length) (n := data.length) hG (bits_enough hn) (bits_pos _) c (data.length * 1 + 2) 0
    (by rw [Nat.zero_add]; exact hc) (by have := Nat.le_mul_of_pos_right c (show 0 < G by omega); omega)
  rw [Nat.zero_mul, Nat.zero_add] at hsp
  refine mapM_none hsp ?_
  cases hs : split (indexBits data.length) 1 (tables G data.length) (numKey data) bucket (c * G, ((min data.length ((c + 1) * G) : Nat) : Int)) with
  | none => rfl
  | some s =>
    exfalso
    have hpos := positions_numbers (w := indexBits data.length) (a := c * G) (b := min data.length ((c + 1) * G)) (bits_pos _)
      (by rw [Nat.succ_mul]; omega)
    unfold split at hs
    rw [if_neg (by intro h; have h1 := congrArg Prod.fst h; have h2 := congrArg Prod.snd h; dsimp only at h1 h2; rw [Nat.succ_mul] at h2; omega), hpos] at hs
    dsimp only at hs
    cases he : (List.range' (c * G) (min data.length ((c + 1) * G) - c * G)).mapM (fun i => (numKey data i).map (fun k => (k, i))) with
    | none => rw [he] at hs; cases hs
    | some es =>
      rw [he] at hs
      dsimp only at hs
      split at hs
      · obtain ⟨y, _, hy⟩ := (mapM_inv hs).2 j (List.mem_range.mpr hj)
        split at hy
        · cases hy
        · rename_i hne
          refine hne (List.filter_eq_nil_iff.mpr ?_)
          intro e hes
          obtain ⟨i, hi, hk⟩ := (mapM_inv he).1 e hes
          rw [List.mem_range'_1] at hi
          unfold numKey at hk
          cases hd : data[i]? with
          | none => rw [hd] at hk; cases hk
          | some x =>
            rw [hd] at hk
            cases hk
            have := hm i x (by omega) (by omega) hd
            simpa using this
      · cases hs

/-- More than a million even numbers: there are two tables, and the one of the odd numbers gets nothing. -/
theorem even_numbers (data : List Nat) (h1 : 1000000 < data.length) (h2 : data.length ≤ 2000000) (he : ∀ x ∈ data, x % 2 = 0) :
    tables grain data.length = 2 ∧ splitAll grain data.length 1 (numKey data) (numBucket some 2) = none := by
  have ht : tables grain data.length = 2 := by
    unfold tables grain
    omega
  refine ⟨ht, missing_table (G := grain) (by decide) data (numBucket some 2) (by omega) (c := 0) (j := 1) (by omega) (by omega) ?_⟩
  intro i x _ _ hx
  have := he x (List.mem_of_getElem? hx)
  unfold numBucket
  rw [if_neg (by omega), if_neg (by omega), Option.map_some, this]
  simp

/-! ### The order of the tasks -/

theorem interleaved_nil {α : Type} : ∀ (a : List α), Interleaved [a, []] a ∧ Interleaved [[], a] a
  | [] => ⟨.nil _ (by simp), .nil _ (by simp)⟩
  | x :: a => ⟨.cons _ 0 x a a rfl (interleaved_nil a).1, .cons _ 1 x a a rfl (interleaved_nil a).2⟩

/-- One sender may be all before the other. -/
theorem interleaved_append {α : Type} (b : List α) : ∀ (a : List α), Interleaved [a, b] (a ++ b) ∧ Interleaved [b, a] (a ++ b)
  | [] => ⟨(interleaved_nil b).2, (interleaved_nil b).1⟩
  | x :: a => ⟨.cons _ 0 x a _ rfl (interleaved_append b a).1, .cons _ 1 x a _ rfl (interleaved_append b a).2⟩

theorem two_spans {G w n : Nat} (hw : n < 2 ^ (w - 1)) (hw0 : 0 < w) (h1 : G < n) (h2 : n + 2 ≤ 2 * G) (fuel : Nat) :
    spans G w n 1 (fuel + 2) 0 = [(0, (G : Int)), (G, (n : Int))] := by
  have e1 : spanEnd G w n 1 0 = G := by
    unfold spanEnd
    rw [Nat.div_one, Nat.mul_one, Nat.mul_one, if_neg (by omega), bmod_small (by omega) hw0, Nat.zero_add]
  have e2 : spanEnd G w n 1 G = n := by
    unfold spanEnd
    rw [Nat.div_one, Nat.mul_one, Nat.mul_one, if_pos (by omega), bmod_small hw hw0]
  rw [spans, e1]
  rw [if_neg (by omega), Int.toNat_natCast, spans, e2]
  rw [if_pos (by omega)]

/-- A number which is in both of two pieces is found in the first or in the second, as the order of the tasks will have it. -/
theorem order_decides {α : Type} {G : Nat} (hG : 2 ≤ G) (eq : α → α → Bool) (data : List α) (bucket : α → Option Nat) (hn : data.length < 2 ^ 63)
    (h1 : G < data.length) (h2 : data.length + 2 ≤ 2 * G) (heq : ∀ x v, eq x v = true → bucket x = bucket v)
    {S : List (List (List (List (α × Nat))))} (hS : splitAll G data.length 1 (numKey data) bucket = some S) {v x y : α} {i k j : Nat}
    (hi : data[i]? = some x) (hk : data[k]? = some y) (hiG : i < G) (hkG : G ≤ k) (hx : eq x v = true) (hy : eq y v = true) (hv : bucket v = some j)
    (hj : j < tables G data.length) :
    (∃ maps a, Tables S (tables G data.length) maps ∧ answer eq maps (bucket v) v = some (some a) ∧ a < G) ∧
      ∃ maps a, Tables S (tables G data.length) maps ∧ answer eq maps (bucket v) v = some (some a) ∧ G ≤ a := by
  have hw0 := bits_pos data.length
  unfold splitAll at hS
  rw [two_spans (bits_enough hn) hw0 h1 h2 (data.length * 1)] at hS
  have hkn : k < data.length := (List.getElem?_eq_some_iff.mp hk).1
  cases q1 : split (indexBits data.length) 1 (tables G data.length) (numKey data) bucket (0, (G : Int)) with
  | none => rw [List.mapM_cons, q1] at hS; cases hS
  | some s0 =>
    cases q2 : split (indexBits data.length) 1 (tables G data.length) (numKey data) bucket (G, (data.length : Int)) with
    | none => rw [List.mapM_cons, q1, List.mapM_cons, q2] at hS; cases hS
    | some s1 =>
      rw [List.mapM_cons, q1, List.mapM_cons, q2] at hS
      cases hS
      have p1 := positions_numbers (w := indexBits data.length) (a := 0) (b := G) hw0 (by omega)
      have p2 := positions_numbers (w := indexBits data.length) (a := G) (b := data.length) hw0 (by omega)
      have m1 : ∀ e : α × Nat, e ∈ (s0.getD j []).flatten → e.2 < G := by
        intro e he
        obtain ⟨_, ps, hps, hm, _⟩ := (split_items q1 hj e).mp he
        have := hps.symm.trans p1
        cases this
        rw [List.mem_range'_1] at hm
        omega
      have m2 : ∀ e : α × Nat, e ∈ (s1.getD j []).flatten → G ≤ e.2 := by
        intro e he
        obtain ⟨_, ps, hps, hm, _⟩ := (split_items q2 hj e).mp he
        have := hps.symm.trans p2
        cases this
        rw [List.mem_range'_1] at hm
        omega
      have n1 : (x, i) ∈ (s0.getD j []).flatten :=
        (split_items q1 hj _).mpr ⟨by intro h; have := congrArg Prod.snd h; dsimp only at this; omega, _, p1,
          List.mem_range'_1.mpr ⟨Nat.zero_le _, by omega⟩, hi, by rw [heq x v hx, hv]⟩
      have n2 : (y, k) ∈ (s1.getD j []).flatten :=
        (split_items q2 hj _).mpr ⟨by intro h; have := congrArg Prod.fst h; dsimp only at this; omega, _, p2,
          List.mem_range'_1.mpr ⟨hkG, by omega⟩, hk, by rw [heq y v hy, hv]⟩
      have hf : ∀ (l t : List (α × Nat)) (e : α × Nat), e ∈ l → eq e.1 v = true → ∃ e' ∈ l, find eq (l ++ t) v = some e'.2 := by
        intro l t e he hq
        unfold find
        rw [List.find?_append]
        cases h : l.find? (fun e => eq e.1 v) with
        | none => exact absurd hq (List.find?_eq_none.mp h e he)
        | some e' => exact ⟨e', List.mem_of_find?_eq_some h, rfl⟩
      refine ⟨?_, ?_⟩
      · obtain ⟨e, he, hfe⟩ := hf _ (s1.getD j []).flatten _ n1 hx
        refine ⟨(List.range (tables G data.length)).map fun j => (s0.getD j [] ++ s1.getD j []).flatten, e.2, ⟨by simp, ?_⟩, ?_, m1 e he⟩
        · intro j' m hm
          rw [List.getElem?_map] at hm
          by_cases hj' : j' < tables G data.length
          · rw [List.getElem?_range hj'] at hm
            cases hm
            exact ⟨_, (interleaved_append _ _).1, rfl⟩
          · rw [List.getElem?_eq_none (by simp; omega)] at hm
            cases hm
        · rw [hv]
          unfold answer
          dsimp only
          rw [List.getElem?_map, List.getElem?_range hj]
          simp only [Option.map_some, List.flatten_append]
          rw [hfe]
      · obtain ⟨e, he, hfe⟩ := hf _ (s0.getD j []).flatten _ n2 hy
        refine ⟨(List.range (tables G data.length)).map fun j => (s1.getD j [] ++ s0.getD j []).flatten, e.2, ⟨by simp, ?_⟩, ?_, m2 e he⟩
        · intro j' m hm
          rw [List.getElem?_map] at hm
          by_cases hj' : j' < tables G data.length
          · rw [List.getElem?_range hj'] at hm
            cases hm
            exact ⟨_, (interleaved_append _ _).2, rfl⟩
          · rw [List.getElem?_eq_none (by simp; omega)] at hm
            cases hm
        · rw [hv]
          unfold answer
          dsimp only
          rw [List.getElem?_map, List.getElem?_range hj]
          simp only [Option.map_some, List.flatten_append]
          rw [hfe]

/-- Pieces of four: six numbers, and two tables. -/
def sixNumbers : List Nat := [10, 11, 12, 13, 10, 15]

example : splitAll 4 6 1 (numKey sixNumbers) (numBucket some 2) =
    some [[[[(10, 0), (12, 2)]], [[(11, 1), (13, 3)]]], [[[(10, 4)]], [[(15, 5)]]]] := by decide +kernel
example := numbers_member_partial (G := 4) (· == ·) sixNumbers (numBucket some 2) (by decide) (by decide) (by decide) (by decide)
  (by intro x hx; exact ⟨x % 2, rfl, Nat.mod_lt _ (by decide)⟩)
  (by
    have h : ∀ c < 2, ∀ j < 2, ∃ i < 6, c * 4 ≤ i ∧ i < (c + 1) * 4 ∧ (sixNumbers[i]?).any (fun x => x % 2 == j) := by decide
    intro c hc j hj
    have hl : sixNumbers.length = 6 := rfl
    rw [hl] at hc
    have ht : tables 4 sixNumbers.length = 2 := rfl
    rw [ht] at hj
    obtain ⟨i, _, h1, h2, h3⟩ := h c (by omega) j hj
    cases hx : sixNumbers[i]? with
    | none => rw [hx] at h3; cases h3
    | some x =>
      rw [hx] at h3
      refine ⟨i, x, h1, h2, hx, ?_⟩
      have : x % 2 = j := by simpa using h3
      simp [numBucket, this])
  (by intro x v h; rw [eq_of_beq h])
example := order_decides (G := 4) (by decide) (· == ·) sixNumbers (numBucket some 2) (by decide) (by decide) (by decide)
  (by intro x v h; rw [eq_of_beq h]) (S := [[[[(10, 0), (12, 2)]], [[(11, 1), (13, 3)]]], [[[(10, 4)]], [[(15, 5)]]]]) (by decide +kernel) (v := 10)
  (x := 10) (y := 10) (i := 0) (k := 4) (j := 0) rfl rfl (by decide) (by decide) rfl rfl rfl (by decide)
example := few_numbers_partial (· == ·) (fun _ : Int => none) [3, -5, 3] (by decide) (by decide)
example := few_strings_partial (fun _ => 7) 3 2 [97, 98, 0, 99, 0, 0] rfl (by decide) (by decide) (by decide) (by decide)
example : splitAll grain 2 3 (strKey 3 [97, 98, 0, 99, 0, 0]) (strBucket (fun _ => 7) 1) = some [[[[([97, 98], 0), ([99], 1)]]]] := by rfl
example : answer (· == ·) [[([97, 98], 0), ([99], 1)]] (some 0) [99] = some (some 1) := by decide
example (data : List Nat) (h : data.length = 1000000) := whole_pieces data (numBucket some 1) (by omega) (by omega) (by omega)
example (data : List Nat) (h : data.length = 1000002) (he : ∀ x ∈ data, x % 2 = 0) := even_numbers data (by omega) (by omega) he
example (key : Nat → Option (List Nat)) := many_characters key (fun _ => some 0) (n := 400000) (len := 3) (by decide) (by decide) (by decide)
/-- Strings of three letters, of which the ninetieth is different. -/
def ninety : List Nat := List.replicate 267 97 ++ [98, 98, 98]
example : (splitAll grain 90 3 (strKey 3 ninety) (strBucket (fun _ => 7) 1)).map (fun S => S.map (·.map (·.map List.length))) = some [[[5]]] := by decide +kernel
example : (texts 3 90 ninety)[89]? = some [98, 98, 98] := by decide +kernel

/-! ### No table -/

/-- Nothing to look in: the number of tables is 0, and the remainder by it is undefined. -/
theorem empty_haystack {α : Type} (cast : α → Option Nat) (v : α) : tables grain 0 = 0 ∧ numBucket cast (tables grain 0) v = none := by
  have h : tables grain 0 = 0 := by decide
  exact ⟨h, by rw [h]; rfl⟩

/-! ### Strings -/

/-- 90 strings of 3 characters: the number of characters, 270, is cast to 14, and only 5 strings are looked at. -/
theorem strings_lost {α : Type} {key : Nat → Option α} {bucket : α → Option Nat} {S : List (List (List (List (α × Nat))))}
    (h : splitAll grain 90 3 key bucket = some S) {maps : List (List (α × Nat))} (hm : Tables S (tables grain 90) maps) (eq : α → α → Bool)
    {b : Option Nat} {v : α} {i : Nat} (ha : answer eq maps b v = some (some i)) : i < 5 := by
  obtain ⟨_, r, hr, ps, hp, hi⟩ := found_is_equal h hm eq ha
  have hs : spans grain (indexBits 90) 90 3 (90 * 3 + 2) 0 = [(0, 14)] := by decide +kernel
  rw [hs, List.mem_singleton] at hr
  subst hr
  have : positions (indexBits 90) 3 (0, 14) = some [0, 1, 2, 3, 4] := by decide +kernel
  rw [this] at hp
  cases hp
  simp at hi
  omega

/-- 50 strings of 3 characters: the number of characters, 150, is cast to -106, and the loop does not end in the array. -/
theorem strings_overread {α : Type} (key : Nat → Option α) (bucket : α → Option Nat) : splitAll grain 50 3 key bucket = none := by
  have hs : spans grain (indexBits 50) 50 3 (50 * 3 + 2) 0 = [(0, -106)] := by decide +kernel
  refine mapM_none (x := (0, -106)) (by rw [hs]; simp) ?_
  have : positions (indexBits 50) 3 (0, -106) = none := by decide +kernel
  unfold split
  rw [if_neg (by decide), this]

/-- Two strings of 3 wide characters: the width is 12 bytes, and the characters are looked for 12 characters apart. -/
theorem wide_strings (chars : List Nat) (hc : chars.length = 6) (bucket : List Nat → Option Nat) : splitAll grain 2 12 (strKey 12 chars) bucket = none := by
  have hs : spans grain (indexBits 2) 2 12 (2 * 12 + 2) 0 = [(0, 24)] := by decide +kernel
  refine mapM_none (x := (0, 24)) (by rw [hs]; simp) ?_
  have hp : positions (indexBits 2) 12 (0, 24) = some [0, 1] := by decide +kernel
  unfold split
  rw [if_neg (by decide), hp]
  dsimp only
  have hk : strKey 12 chars 1 = none := by
    unfold strKey
    rw [List.drop_eq_nil_of_le (by omega)]
    rfl
  rw [mapM_none (x := 1) (by simp) (by rw [hk]; rfl)]

/-- More than 999996 strings of 6 characters: the first range is not a million characters long, so it is taken for the last, and only 166666 strings are
looked at. -/
theorem strings_of_six {α : Type} {n : Nat} (h1 : 999996 < n) (h2 : n < 2 ^ 63) {key : Nat → Option α} {bucket : α → Option Nat}
    {S : List (List (List (List (α × Nat))))} (h : splitAll grain n 6 key bucket = some S) {maps : List (List (α × Nat))}
    (hm : Tables S (tables grain n) maps) (eq : α → α → Bool) {b : Option Nat} {v : α} {i : Nat} (ha : answer eq maps b v = some (some i)) :
    i < 166666 := by
  obtain ⟨_, r, hr, ps, hp, hi⟩ := found_is_equal h hm eq ha
  have hb := bits_enough h2
  have hs : spans grain (indexBits n) n 6 (n * 6 + 2) 0 = [(0, 999996)] := by
    have he : spanEnd grain (indexBits n) n 6 0 = 999996 := by
      unfold spanEnd grain
      rw [if_neg (by omega)]
      exact bmod_small (x := 999996) (by omega) (bits_pos n)
    rw [spans, he, if_pos (by decide)]
  rw [hs, List.mem_singleton] at hr
  subst hr
  unfold positions at hp
  dsimp only at hp
  rw [if_neg (by decide)] at hp
  split at hp
  · cases hp
  · cases hp
    obtain ⟨k, hk, rfl⟩ := List.mem_map.mp hi
    have := List.mem_range'_1.mp (List.mem_filter.mp hk).1
    have h9 : (999996 : Int).toNat = 999996 := rfl
    rw [h9] at this
    omega

/-- The answer is not what it should be: the last of the 90 strings is not found. -/
theorem ninetieth_string (S : List (List (List (List (List Nat × Nat))))) (h : splitAll grain 90 3 (strKey 3 ninety) (strBucket (fun _ => 7) 1) = some S)
    (maps : List (List (List Nat × Nat))) (hm : Tables S (tables grain 90) maps) :
    answer (· == ·) maps (some 0) [98, 98, 98] = some none ∧ [98, 98, 98] ∈ texts 3 90 ninety := by
  refine ⟨?_, by decide +kernel⟩
  have hl : maps.length = 1 := hm.1
  cases ha : answer (· == ·) maps (some 0) [98, 98, 98] with
  | none =>
    unfold answer at ha
    dsimp only at ha
    rw [List.getElem?_eq_getElem (by omega)] at ha
    cases ha
  | some a =>
    cases a with
    | none => rfl
    | some i =>
      exfalso
      have hi := strings_lost h hm (· == ·) ha
      obtain ⟨⟨x, hx, hq⟩, _⟩ := found_is_equal h hm (· == ·) ha
      have : ∀ i < 5, strKey 3 ninety i = some [97, 97, 97] := by decide +kernel
      rw [this i hi] at hx
      cases hx
      exact absurd hq (by decide)

example := strings_overread (strKey 3 (List.replicate 150 97)) (strBucket (fun _ => 7) 1)
example := wide_strings [97, 98, 99, 100, 101, 102] rfl (strBucket (fun _ => 7) 1)

/-- More than one table, and a string with a hash that is not less than their number: the hash is not reduced, and the table is looked for outside of
memory, both for strings to look for and for strings to look in. -/
theorem hash_unreduced (hash : List Nat → Nat) {B : Nat} (hB : B ≠ 1) (eq : List Nat → List Nat → Bool) (maps : List (List (List Nat × Nat)))
    (hm : maps.length = B) (padded v : List Nat) (hh : B ≤ hash padded) : answer eq maps (strBucket hash B padded) v = none := by
  unfold strBucket answer
  rw [if_neg hB]
  dsimp only
  rw [List.getElem?_eq_none (by omega)]

example := hash_unreduced (fun _ => 7) (B := 2) (by decide) (· == ·) [[], []] rfl [97] [97] (by decide)

end Riptide.Member
