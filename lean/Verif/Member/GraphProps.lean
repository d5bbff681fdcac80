import Verif.Member.Graph
import Verif.Member.GraphSpec
/-! # Membership by a graph of tasks finds equal items -/
namespace Riptide.Member

/-! ### Messages -/

theorem interleaved_mem {α : Type} {ls : List (List α)} {r : List α} (h : Interleaved ls r) : ∀ x, x ∈ r ↔ ∃ l ∈ ls, x ∈ l := by
  induction h with
  | nil ls h =>
    intro x
    constructor
    · intro hx; cases hx
    · rintro ⟨l, hl, hx⟩
      rw [h l hl] at hx
      cases hx
  | cons ls i y l r hi hr ih =>
    intro x
    have hlt : i < ls.length := (List.getElem?_eq_some_iff.mp hi).1
    rw [List.mem_cons, ih x]
    constructor
    · rintro (rfl | ⟨l', hl', hx⟩)
      · exact ⟨_, List.mem_of_getElem? hi, by simp⟩
      · rcases List.mem_or_eq_of_mem_set hl' with h | h
        · exact ⟨l', h, hx⟩
        · exact ⟨_, List.mem_of_getElem? hi, by rw [← h]; simp [hx]⟩
    · rintro ⟨l', hl', hx⟩
      obtain ⟨k, hk⟩ := List.getElem?_of_mem hl'
      by_cases hki : k = i
      · subst hki
        rw [hi] at hk
        cases hk
        rw [List.mem_cons] at hx
        rcases hx with hx | hx
        · exact .inl hx
        · exact .inr ⟨l, List.mem_set hlt l, hx⟩
      · refine .inr ⟨l', ?_, hx⟩
        have : (ls.set i l)[k]? = some l' := by rw [List.getElem?_set_ne (fun h => hki h.symm)]; exact hk
        exact List.mem_of_getElem? this

theorem interleaved_one {α : Type} {l r : List α} (h : Interleaved [l] r) : r = l := by
  generalize hls : [l] = ls at h
  induction h generalizing l with
  | nil ls h =>
    subst hls
    exact (h l (by simp)).symm
  | cons ls i y l' r hi hr ih =>
    subst hls
    match i, hi with
    | 0, hi =>
      have hl : l = y :: l' := by simpa using hi
      rw [hl, ih (l := l') (by simp)]

theorem interleaved_exists {α : Type} : ∀ (ls : List (List α)), ∃ r, Interleaved ls r := by
  intro ls
  generalize hn : (ls.map List.length).sum = n
  induction n using Nat.strongRecOn generalizing ls with
  | _ n ih =>
    rcases Classical.em (∀ l ∈ ls, l = []) with h | h
    · exact ⟨[], .nil ls h⟩
    · have : ∃ l ∈ ls, l ≠ [] := by
        rcases Classical.em (∃ l ∈ ls, l ≠ []) with h' | h'
        · exact h'
        · exact absurd (fun l hl => Classical.byContradiction fun hne => h' ⟨l, hl, hne⟩) h
      obtain ⟨l, hl, hne⟩ := this
      obtain ⟨i, hi⟩ := List.getElem?_of_mem hl
      match l, hne, hi with
      | x :: l, _, hi =>
        have key : ∀ (ls : List (List α)) (i : Nat), ls[i]? = some (x :: l) → ((ls.set i l).map List.length).sum < (ls.map List.length).sum := by
          intro ls
          induction ls with
          | nil => intro i hi; simp at hi
          | cons a ls ihl =>
            intro i hi
            cases i with
            | zero =>
              have : a = x :: l := by simpa using hi
              subst this
              simp
            | succ i =>
              have := ihl i (by simpa using hi)
              simp only [List.set_cons_succ, List.map_cons, List.sum_cons]
              omega
        obtain ⟨r, hr⟩ := ih _ (by rw [← hn]; exact key ls i hi) (ls.set i l) rfl
        exact ⟨_, .cons ls i x l r hi hr⟩

theorem chunks_flatten {α : Type} {k : Nat} (hk : 0 < k) : ∀ (fuel : Nat) (l : List α), l.length ≤ fuel → (chunks k fuel l).flatten = l
  | 0, l, h => by
    have : l = [] := List.eq_nil_of_length_eq_zero (by omega)
    subst this
    rfl
  | fuel + 1, l, h => by
    rw [chunks]
    split
    · rename_i hl; rw [hl]; rfl
    · rename_i hl
      have hpos : 0 < l.length := List.length_pos_iff.mpr hl
      rw [List.flatten_cons, chunks_flatten hk fuel _ (by rw [List.length_drop]; omega), List.take_append_drop]

theorem mapM_some {α β : Type} {f : α → Option β} {g : α → β} : ∀ (l : List α), (∀ x ∈ l, f x = some (g x)) → l.mapM f = some (l.map g)
  | [], _ => rfl
  | x :: l, h => by
    rw [List.mapM_cons, h x (by simp), mapM_some l (fun y hy => h y (by simp [hy]))]
    rfl

/-! ### Ranges of numbers -/

theorem bmod_small {w x : Nat} (h : x < 2 ^ (w - 1)) (hw : 0 < w) : Int.bmod x (2 ^ w) = x := by
  have h2 : 2 ^ w = 2 * 2 ^ (w - 1) := by
    rw [← Nat.pow_succ']
    congr 1
    omega
  generalize hg : 2 ^ (w - 1) = g at h h2
  rw [h2]
  refine Int.bmod_eq_of_le ?_ ?_ <;> omega

/-- The ranges of numbers are the pieces of `G` numbers. -/
theorem spans_numbers {G w n : Nat} (hG : 2 ≤ G) (hw : n < 2 ^ (w - 1)) (hw0 : 0 < w) (h0 : n % G ≠ 0) (h1 : n % G ≠ G - 1) :
    ∀ (fuel c : Nat), c * G < n → n - c * G < fuel →
      (∀ r ∈ spans G w n 1 fuel (c * G), ∃ d, c ≤ d ∧ d * G < n ∧ r = (d * G, ((min n ((d + 1) * G) : Nat) : Int))) ∧
      (spans G w n 1 fuel (c * G)).flatMap (fun r => List.range' r.1 (r.2.toNat - r.1)) = List.range' (c * G) (n - c * G)
  | 0, c, _, h => by omega
  | fuel + 1, c, hc, hf => by
    have he : spanEnd G w n 1 (c * G) = ((min n ((c + 1) * G) : Nat) : Int) := by
      unfold spanEnd
      rw [Nat.div_one, Nat.mul_one, Nat.mul_one, Nat.succ_mul]
      split
      · rw [bmod_small hw hw0]; congr 1; omega
      · rw [bmod_small (by omega) hw0]; congr 1; omega
    rw [spans, he]
    by_cases hl : (c + 1) * G ≤ n
    · rw [Nat.min_eq_right hl]
      have hne : (c + 1) * G ≠ n := by
        intro h
        rw [← h, Nat.mul_mod_left] at h0
        omega
      rw [if_neg (by rw [Nat.succ_mul]; omega), Int.toNat_natCast]
      obtain ⟨i1, i2⟩ := spans_numbers hG hw hw0 h0 h1 fuel (c + 1) (by omega) (by rw [Nat.succ_mul]; rw [Nat.succ_mul] at hl; omega)
      refine ⟨?_, ?_⟩
      · intro r hr
        rw [List.mem_cons] at hr
        rcases hr with rfl | hr
        · exact ⟨c, Nat.le_refl _, hc, by rw [Nat.min_eq_right hl]⟩
        · obtain ⟨d, d1, d2, d3⟩ := i1 r hr
          exact ⟨d, by omega, d2, d3⟩
      · rw [List.flatMap_cons, i2]
        rw [Nat.succ_mul] at hl ⊢
        rw [Int.toNat_natCast, show c * G + G - c * G = G by omega, show n - c * G = G + (n - (c * G + G)) by omega, ← List.range'_append_1]
    · rw [Nat.min_eq_left (by omega)]
      have hmod : n % G = n - c * G := by
        have : n = n - c * G + c * G := by omega
        rw [this, Nat.add_mul_mod_self_right, Nat.mod_eq_of_lt (by rw [Nat.succ_mul] at hl; omega)]
        omega
      rw [if_pos (by rw [hmod] at h1; rw [Nat.succ_mul] at hl; omega)]
      refine ⟨?_, ?_⟩
      · intro r hr
        rw [List.mem_singleton] at hr
        subst hr
        exact ⟨c, Nat.le_refl _, hc, by rw [Nat.min_eq_left (by omega)]⟩
      · simp

/-! ### What is sent -/

/-- The items of a range which go to a table. -/
theorem split_ok {α : Type} {w len B : Nat} {key : Nat → Option α} {kf : Nat → α} {bucket : α → Option Nat} {r : Nat × Int} {ps : List Nat}
    (hr : r ≠ (0, 0)) (hp : positions w len r = some ps) (hk : ∀ i ∈ ps, key i = some (kf i))
    (hb : ∀ i ∈ ps, ∃ j, bucket (kf i) = some j ∧ j < B) (hf : ∀ j < B, ∃ i ∈ ps, bucket (kf i) = some j) :
    split w len B key bucket r = some ((List.range B).map fun j =>
      chunks 1024 ((ps.map fun i => (kf i, i)).filter (fun e => bucket e.1 == some j)).length ((ps.map fun i => (kf i, i)).filter (fun e => bucket e.1 == some j))) := by
  unfold split
  rw [if_neg hr, hp]
  dsimp only
  rw [mapM_some (g := fun i => (kf i, i)) ps (fun i hi => by rw [hk i hi]; rfl)]
  dsimp only
  rw [if_pos]
  · refine mapM_some _ fun j hj => ?_
    rw [if_neg]
    rw [List.mem_range] at hj
    obtain ⟨i, hi, h⟩ := hf j hj
    intro he
    have : (kf i, i) ∈ (ps.map fun i => (kf i, i)).filter (fun e => bucket e.1 == some j) := by
      rw [List.mem_filter]
      exact ⟨List.mem_map.mpr ⟨i, hi, rfl⟩, by simp [h]⟩
    rw [he] at this
    cases this
  · rw [List.all_eq_true]
    intro e he
    obtain ⟨i, hi, rfl⟩ := List.mem_map.mp he
    obtain ⟨j, h1, h2⟩ := hb i hi
    simp [h1, h2]

theorem stored_exists {α : Type} (S : List (List (List (List (α × Nat))))) (B : Nat) : ∃ maps, Tables S B maps := by
  have h : ∀ j, ∃ m, Stored S j m := fun j =>
    let ⟨r, hr⟩ := interleaved_exists (S.map (fun s => s.getD j []))
    ⟨r.flatten, r, hr, rfl⟩
  refine ⟨(List.range B).map fun j => Classical.choose (h j), by simp, ?_⟩
  intro j m hm
  rw [List.getElem?_map] at hm
  by_cases hj : j < B
  · rw [List.getElem?_range hj] at hm
    cases hm
    exact Classical.choose_spec (h j)
  · rw [List.getElem?_eq_none (by simp; omega)] at hm
    cases hm

/-- The numbers of a piece. -/
theorem positions_numbers {w a b : Nat} (hw : 0 < w) (h : a ≤ b) : positions w 1 (a, (b : Int)) = some (List.range' a (b - a)) := by
  unfold positions
  have h1 : (1 : Nat) % 2 ^ w ≠ 0 := by
    rw [Nat.mod_eq_of_lt (Nat.one_lt_two_pow (by omega))]
    omega
  dsimp only
  rw [if_neg (by omega), if_neg (by rintro ⟨_, h⟩; exact h1 h), Int.toNat_natCast]
  congr 1
  have : (List.range' a (b - a)).filter (fun i => decide (i % 1 = 0)) = List.range' a (b - a) :=
    List.filter_eq_self.mpr (fun i _ => by simp [Nat.mod_one])
  rw [this]
  simp

theorem bits_pos (n : Nat) : 0 < indexBits n := by
  unfold indexBits
  split
  · omega
  · split
    · omega
    · split <;> omega

theorem bits_enough {n : Nat} (h : n < 2 ^ 63) : n < 2 ^ (indexBits n - 1) := by
  unfold indexBits
  split
  · simp; omega
  · split
    · simp; omega
    · split
      · simp; omega
      · simpa using h

/-- Whatever the order of the tasks: each number that is in the array is found at some place, and no other is, as long as every piece of `G` numbers has
one for each table and the last piece has neither none nor `G - 1` numbers. -/
theorem numbers_member_partial {α : Type} [Inhabited α] {G : Nat} (eq : α → α → Bool) (data : List α) (bucket : α → Option Nat) (hG : 2 ≤ G)
    (hn : data.length < 2 ^ 63) (h0 : data.length % G ≠ 0) (h1 : data.length % G ≠ G - 1)
    (hin : ∀ x ∈ data, ∃ j, bucket x = some j ∧ j < tables G data.length)
    (hfull : ∀ c, c * G < data.length → ∀ j < tables G data.length, ∃ i x, c * G ≤ i ∧ i < (c + 1) * G ∧ data[i]? = some x ∧ bucket x = some j)
    (heq : ∀ x v, eq x v = true → bucket x = bucket v) :
    ∃ S, splitAll G data.length 1 (numKey data) bucket = some S ∧ (∃ maps, Tables S (tables G data.length) maps) ∧
      ∀ maps, Tables S (tables G data.length) maps → ∀ v j, bucket v = some j → j < tables G data.length →
        ∃ a, answer eq maps (bucket v) v = some a ∧ IsSome eq data v a := by
  have hw0 := bits_pos data.length
  have hpos : 0 < data.length := by
    rcases Nat.eq_zero_or_pos data.length with h | h
    · rw [h, Nat.zero_mod] at h0; omega
    · exact h
  obtain ⟨s1, s2⟩ := spans_numbers hG (bits_enough hn) hw0 h0 h1 (data.length * 1 + 2) 0 (by omega) (by omega)
  rw [Nat.zero_mul] at s1 s2
  generalize hB : tables G data.length = B at *
  let items (r : Nat × Int) (j : Nat) : List (α × Nat) :=
    ((List.range' r.1 (r.2.toNat - r.1)).map fun i => (data.getD i default, i)).filter (fun e => bucket e.1 == some j)
  have hget : ∀ i, i < data.length → data[i]? = some (data.getD i default) := by
    intro i hi
    simp [List.getD, hi]
  have hS : splitAll G data.length 1 (numKey data) bucket =
      some ((spans G (indexBits data.length) data.length 1 (data.length * 1 + 2) 0).map fun r =>
        (List.range B).map fun j => chunks 1024 (items r j).length (items r j)) := by
    unfold splitAll
    rw [hB]
    refine mapM_some _ fun r hr => ?_
    obtain ⟨d, _, d2, rfl⟩ := s1 r hr
    have hle : d * G ≤ min data.length ((d + 1) * G) := by rw [Nat.succ_mul]; omega
    have hlt : d * G < min data.length ((d + 1) * G) := by rw [Nat.succ_mul]; omega
    have hmem : ∀ i ∈ List.range' (d * G) (min data.length ((d + 1) * G) - d * G), i < data.length := by
      intro i hi
      rw [List.mem_range'_1] at hi
      omega
    refine split_ok (kf := fun i => data.getD i default) ?_ (positions_numbers hw0 hle) ?_ ?_ ?_
    · intro h
      have := congrArg Prod.snd h
      have h' := congrArg Prod.fst h
      dsimp only at this h'
      omega
    · intro i hi
      exact hget i (hmem i hi)
    · intro i hi
      exact hin _ (List.mem_of_getElem? (hget i (hmem i hi)))
    · intro j hj
      obtain ⟨i, x, i1, i2, i3, i4⟩ := hfull d d2 j hj
      have hi : i < data.length := (List.getElem?_eq_some_iff.mp i3).1
      refine ⟨i, by rw [List.mem_range'_1]; omega, ?_⟩
      rw [hget i hi] at i3
      cases i3
      exact i4
  refine ⟨_, hS, stored_exists _ B, ?_⟩
  intro maps hmaps v j hv hj
  obtain ⟨hlen, hst⟩ := hmaps
  have hm : maps[j]? = some maps[j] := List.getElem?_eq_getElem (by omega)
  obtain ⟨r, hr, hm'⟩ := hst j _ hm
  have hmem : ∀ e, e ∈ maps[j] ↔ e.2 < data.length ∧ e.1 = data.getD e.2 default ∧ bucket e.1 = some j := by
    intro e
    rw [hm', List.mem_flatten]
    constructor
    · rintro ⟨msg, h, he⟩
      obtain ⟨l, hl, hml⟩ := (interleaved_mem hr msg).mp h
      rw [List.map_map] at hl
      obtain ⟨sp, hsp, rfl⟩ := List.mem_map.mp hl
      have : e ∈ items sp j := by
        rw [← chunks_flatten (k := 1024) (by omega) _ (items sp j) (Nat.le_refl _), List.mem_flatten]
        refine ⟨msg, ?_, he⟩
        simpa [List.getD, hj] using hml
      obtain ⟨e1, e2⟩ := List.mem_filter.mp this
      obtain ⟨i, hi, rfl⟩ := List.mem_map.mp e1
      have hi' : i ∈ List.range' 0 (data.length - 0) := by
        rw [← s2, List.mem_flatMap]
        exact ⟨sp, hsp, hi⟩
      rw [List.mem_range'_1] at hi'
      exact ⟨by simpa using hi'.2, rfl, by simpa using e2⟩
    · rintro ⟨e1, e2, e3⟩
      have hi' : e.2 ∈ List.range' 0 (data.length - 0) := by rw [List.mem_range'_1]; omega
      rw [← s2, List.mem_flatMap] at hi'
      obtain ⟨sp, hsp, hi⟩ := hi'
      have : e ∈ items sp j := by
        refine List.mem_filter.mpr ⟨List.mem_map.mpr ⟨e.2, hi, ?_⟩, by simp [e3]⟩
        rw [← e2]
      rw [← chunks_flatten (k := 1024) (by omega) _ (items sp j) (Nat.le_refl _), List.mem_flatten] at this
      obtain ⟨msg, h1, h2⟩ := this
      refine ⟨msg, (interleaved_mem hr msg).mpr ⟨_, ?_, h1⟩, h2⟩
      rw [List.map_map]
      refine List.mem_map.mpr ⟨sp, hsp, ?_⟩
      simp [List.getD, hj]
  refine ⟨find eq maps[j] v, by rw [hv]; unfold answer; dsimp only; rw [hm], ?_⟩
  unfold find
  cases hfind : maps[j].find? (fun e => eq e.1 v) with
  | none =>
    intro x hx
    obtain ⟨i, hi⟩ := List.getElem?_of_mem hx
    have hlt := (List.getElem?_eq_some_iff.mp hi).1
    cases hc : eq x v with
    | false => rfl
    | true =>
      rw [List.find?_eq_none] at hfind
      have hx' : x = data.getD i default := by rw [hget i hlt] at hi; exact (Option.some.inj hi).symm
      exact absurd hc (hfind (x, i) ((hmem _).mpr ⟨hlt, hx', by rw [heq x v hc, hv]⟩))
  | some e =>
    have he := (hmem e).mp (List.mem_of_find?_eq_some hfind)
    have hq := List.find?_some hfind
    dsimp only [Option.map_some, IsSome]
    exact ⟨e.1, by rw [hget e.2 he.1, ← he.2.1], by simpa using hq⟩

/-! ### One range -/

theorem one_span {G w n len fuel : Nat} (hl : 1 ≤ len) (hG : n * len + 1 < G) (hw : n * len < 2 ^ (w - 1)) (hw0 : 0 < w) :
    spans G w n len (fuel + 1) 0 = [(0, ((n * len : Nat) : Int))] := by
  have he : spanEnd G w n len 0 = ((n * len : Nat) : Int) := by
    unfold spanEnd
    have h1 : n ≤ G / len := (Nat.le_div_iff_mul_le (by omega)).mpr (by omega)
    have h2 : n * len ≤ G / len * len := Nat.mul_le_mul_right _ h1
    have h3 : n ≤ n * len := Nat.le_mul_of_pos_right _ hl
    rw [if_pos (by omega), bmod_small hw hw0]
  rw [spans, he]
  rw [if_pos (by omega)]

theorem multiples {len : Nat} (hl : 1 ≤ len) : ∀ n, ((List.range (n * len)).filter (fun i => decide (i % len = 0))).map (· / len) = List.range n
  | 0 => by simp
  | n + 1 => by
    rw [Nat.succ_mul, List.range_add, List.filter_append, List.map_append, multiples hl n, List.range_succ, List.filter_map, List.map_map]
    congr 1
    obtain ⟨k, rfl⟩ : ∃ k, len = k + 1 := ⟨len - 1, by omega⟩
    rw [List.range_succ_eq_map, List.filter_cons, if_pos (by simp), List.map_cons, List.filter_map, List.filter_eq_nil_iff.mpr]
    · simp
    · intro a ha
      rw [List.mem_range] at ha
      simp only [Function.comp_apply, Nat.succ_eq_add_one, decide_eq_true_eq]
      rw [Nat.add_comm, Nat.add_mul_mod_self_right, Nat.mod_eq_of_lt (by omega)]
      omega

theorem positions_one {w n len : Nat} (hn : 1 ≤ n) (hl : 1 ≤ len) (hw : n * len < 2 ^ (w - 1)) (hw0 : 0 < w) :
    positions w len (0, ((n * len : Nat) : Int)) = some (List.range n) := by
  unfold positions
  have h3 : len ≤ n * len := Nat.le_mul_of_pos_left _ hn
  have h2 : 2 ^ w = 2 * 2 ^ (w - 1) := by
    rw [← Nat.pow_succ']
    congr 1
    omega
  have h1 : len % 2 ^ w ≠ 0 := by
    rw [Nat.mod_eq_of_lt (by omega)]
    omega
  dsimp only
  rw [if_neg (by omega), if_neg (by rintro ⟨_, h⟩; exact h1 h), Int.toNat_natCast, Nat.sub_zero, ← List.range_eq_range', multiples hl n]

theorem first_of_list {α : Type} {eq : α → α → Bool} {data : List α} {v : α} [Inhabited α] :
    IsFirst eq data v (find eq ((List.range data.length).map fun i => (data.getD i default, i)) v) := by
  have hget : ∀ i, i < data.length → data[i]? = some (data.getD i default) := by
    intro i hi
    simp [List.getD, hi]
  unfold find
  rw [List.find?_map]
  cases h : (List.range data.length).find? ((fun e : α × Nat => eq e.1 v) ∘ fun i => (data.getD i default, i)) with
  | none =>
    intro x hx
    obtain ⟨i, hi⟩ := List.getElem?_of_mem hx
    have hlt := (List.getElem?_eq_some_iff.mp hi).1
    rw [List.find?_eq_none] at h
    have := h i (List.mem_range.mpr hlt)
    rw [hget i hlt] at hi
    cases hi
    simpa using this
  | some i =>
    have hi := List.mem_range.mp (List.mem_of_find?_eq_some h)
    have hq := List.find?_some h
    refine ⟨⟨_, hget i hi, by simpa using hq⟩, ?_⟩
    intro k x hk hx
    replace hk : k < i := hk
    rw [hget k (by omega)] at hx
    cases hx
    rw [List.find?_range_eq_some] at h
    simpa using h.2.2 k hk

/-- One range, and so one table: the answer is the place of the first equal item. -/
theorem one_range {α : Type} [Inhabited α] {G len : Nat} (eq : α → α → Bool) (data : List α) (key : Nat → Option α) (hn : 1 ≤ data.length)
    (hl : 1 ≤ len) (hG : data.length * len + 1 < G) (hw : data.length * len < 2 ^ (indexBits data.length - 1))
    (hk : ∀ i < data.length, key i = data[i]?) (bucket : α → Option Nat) (hb : ∀ x ∈ data, bucket x = some 0) :
    tables G data.length = 1 ∧ ∃ S, splitAll G data.length len key bucket = some S ∧ (∃ maps, Tables S 1 maps) ∧
      ∀ maps, Tables S 1 maps → ∀ v, ∃ a, answer eq maps (some 0) v = some a ∧ IsFirst eq data v a := by
  have hw0 := bits_pos data.length
  have hlen : data.length ≤ data.length * len := Nat.le_mul_of_pos_right _ hl
  have hB : tables G data.length = 1 := by
    unfold tables
    rw [Nat.div_eq_iff (by omega)]
    omega
  have hget : ∀ i, i < data.length → data[i]? = some (data.getD i default) := by
    intro i hi
    simp [List.getD, hi]
  refine ⟨hB, ?_⟩
  have hS : splitAll G data.length len key bucket = some [[chunks 1024 data.length ((List.range data.length).map fun i => (data.getD i default, i))]] := by
    unfold splitAll
    rw [hB, one_span hl hG hw hw0]
    have hs := split_ok (w := indexBits data.length) (len := len) (B := 1) (key := key) (kf := fun i => data.getD i default) (bucket := bucket)
      (r := (0, ((data.length * len : Nat) : Int))) (ps := List.range data.length)
      (by intro h; have := congrArg Prod.snd h; dsimp only at this; omega)
      (positions_one hn hl hw hw0)
      (by intro i hi; rw [List.mem_range] at hi; rw [hk i hi, hget i hi])
      (by intro i hi; rw [List.mem_range] at hi; exact ⟨0, hb _ (List.mem_of_getElem? (hget i hi)), by omega⟩)
      (by
        intro j hj
        refine ⟨0, List.mem_range.mpr (by omega), ?_⟩
        rw [show j = 0 by omega]
        exact hb _ (List.mem_of_getElem? (hget 0 (by omega))))
    have hf : ((List.range data.length).map fun i => (data.getD i default, i)).filter (fun e => bucket e.1 == some 0) =
        (List.range data.length).map fun i => (data.getD i default, i) := by
      refine List.filter_eq_self.mpr fun e he => ?_
      obtain ⟨i, hi, rfl⟩ := List.mem_map.mp he
      rw [List.mem_range] at hi
      rw [hb _ (List.mem_of_getElem? (hget i hi))]
      rfl
    rw [List.mapM_cons, hs]
    simp only [List.range_one, List.map_cons, List.map_nil, hf, List.length_map, List.length_range]
    rfl
  refine ⟨_, hS, stored_exists _ 1, ?_⟩
  intro maps hmaps v
  obtain ⟨hlen', hst⟩ := hmaps
  have hm : maps[0]? = some maps[0] := List.getElem?_eq_getElem (by omega)
  obtain ⟨r, hr, hm'⟩ := hst 0 _ hm
  have hr' := interleaved_one hr
  refine ⟨find eq maps[0] v, by unfold answer; dsimp only; rw [hm], ?_⟩
  have hfl : maps[0] = (List.range data.length).map fun i => (data.getD i default, i) := by
    rw [hm', hr']
    exact chunks_flatten (by omega) _ _ (by simp)
  rw [hfl]
  exact first_of_list

/-- Up to 999998 numbers: the answer is the first place of an equal number, whatever the order of the tasks. -/
theorem few_numbers_partial {α : Type} [Inhabited α] (eq : α → α → Bool) (cast : α → Option Nat) (data : List α) (hn : 1 ≤ data.length)
    (hG : data.length < 999999) :
    ∃ S, splitAll grain data.length 1 (numKey data) (numBucket cast (tables grain data.length)) = some S ∧
      (∃ maps, Tables S (tables grain data.length) maps) ∧
      ∀ maps, Tables S (tables grain data.length) maps → ∀ v, ∃ a,
        answer eq maps (numBucket cast (tables grain data.length) v) v = some a ∧ IsFirst eq data v a := by
  have hb : tables grain data.length = 1 := by
    unfold tables grain
    rw [Nat.div_eq_iff (by omega)]
    omega
  rw [hb]
  exact (one_range (G := grain) (len := 1) eq data (numKey data) hn (by omega) (by unfold grain; omega)
    (by rw [Nat.mul_one]; exact bits_enough (by omega)) (fun i _ => rfl) (numBucket cast 1) (fun x _ => rfl)).2

/-! ### Strings -/

theorem cstring_text : ∀ (len : Nat) (l : List Nat), len ≤ l.length → cstring len l = some (text (l.take len))
  | 0, l, _ => by simp [cstring, text]
  | len + 1, [], h => by simp at h
  | len + 1, c :: l, h => by
    rw [cstring, cstring_text len l (by simpa using h), List.take_succ_cons]
    by_cases hc : c = 0
    · simp [hc, text]
    · simp [hc, text]

/-- Strings whose characters are few enough to be counted by the indices: the answer is the first place of a string with the same text, whatever the
widths and the order of the tasks. -/
theorem few_strings_partial (hash : List Nat → Nat) (len n : Nat) (chars : List Nat) (hc : chars.length = n * len) (hn : 1 ≤ n) (hl : 1 ≤ len)
    (hG : n * len < 999999) (hw : n * len < 2 ^ (indexBits n - 1)) :
    ∃ S, splitAll grain n len (strKey len chars) (strBucket hash (tables grain n)) = some S ∧ (∃ maps, Tables S (tables grain n) maps) ∧
      ∀ maps, Tables S (tables grain n) maps → ∀ padded v : List Nat, ∃ a,
        answer (· == ·) maps (strBucket hash (tables grain n) padded) v = some a ∧ IsFirst (· == ·) (texts len n chars) v a := by
  have hlen : (texts len n chars).length = n := by simp [texts]
  have hle : n ≤ n * len := Nat.le_mul_of_pos_right _ hl
  have hb : tables grain n = 1 := by
    unfold tables grain
    rw [Nat.div_eq_iff (by omega)]
    omega
  rw [hb]
  have h := one_range (G := grain) (len := len) (· == ·) (texts len n chars) (strKey len chars) (by omega) hl (by rw [hlen]; unfold grain; omega)
    (by rw [hlen]; exact hw) (by
      intro i hi
      rw [hlen] at hi
      have h1 : (i + 1) * len ≤ n * len := Nat.mul_le_mul_right _ hi
      rw [Nat.succ_mul] at h1
      unfold strKey texts
      rw [cstring_text len _ (by rw [List.length_drop]; omega)]
      simp [hi]) (strBucket hash 1) (fun x _ => rfl)
  rw [hlen] at h
  obtain ⟨S, h1, h2, h3⟩ := h.2
  exact ⟨S, h1, h2, fun maps hm _ v => h3 maps hm v⟩

end Riptide.Member
