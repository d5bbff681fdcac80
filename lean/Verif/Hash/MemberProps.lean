import Verif.Hash.MemberLemmas
/-! # ismember (C09, C10) and table sizing (C11) -/
namespace Riptide.Hash
open Spec Riptide.Work

/-- Positions of an array always fit the index type chosen for it, and are never the invalid index. -/
theorem index_fits {n i : Nat} (hn : n ≤ 2 ^ 63) (hi : i < n) :
    (indexType n).wrap (i : Int) = (i : Int) ∧ (indexType n).inv < 0 := by
  constructor
  · apply IT.wrap_of_inRange
    · unfold indexType; repeat' split
      all_goals decide
    · unfold indexType; repeat' split
      all_goals (simp only [IT.InRange, IT.lo, IT.hi, IT.i8, IT.i16, IT.i32, IT.i64]; simp; omega)
  · unfold indexType; repeat' split
    all_goals decide

theorem isMember_exact {K : Type} {P : K → Prop} (ins : K → Bool) (hash : K → Nat) (eq : K → K → Bool)
    (size : Nat) (L : Laws P hash eq size) (a b : List K) (ha : ∀ x ∈ a, ins x = true → P x)
    (hb : ∀ x ∈ b, ins x = true → P x) (hroom : distinct eq (b.filter ins) < size)
    (hlen : b.length ≤ 2 ^ 63) {workers : Nat} {nt : Bool} {par : Option (List Nat)}
    (hs : ChunkSched workers a.length nt par) :
    ∃ out : List (Bool × Int), isMember ins hash eq size a b par = some (out.map some) ∧ out.length = a.length ∧
      ∀ (i : Nat) x r, a[i]? = some x → out[i]? = some r →
        IsAnswer (fun y => ins x = true ∧ ins y = true ∧ eq y x = true) b (indexType b.length).inv r.1 r.2 := by
  obtain ⟨t, e, B⟩ := insertAll_spec (val := fun i : Nat => (indexType b.length).wrap (i : Int)) L b []
    (fresh K Int size) (built_fresh P ins hash eq _ size) (by simpa using hb) (by simpa using hroom)
  have e' : makeLocation ins hash eq size b = .ok t := e
  have hone : ∀ x ∈ a, memberOne ins hash eq (indexType b.length).inv t x =
      some (if ins x then
        match b.findIdx? (fun y => ins y && eq y x) with
        | some j => (true, (j : Int))
        | none => (false, (indexType b.length).inv)
      else (false, (indexType b.length).inv)) := by
    intro x hx
    unfold memberOne
    by_cases hi : ins x = true
    · rw [if_pos hi, if_pos hi, built_find L B (by simpa using hroom) x (ha x hx hi)]
      simp only [List.nil_append]
      cases hf : b.findIdx? (fun y => ins y && eq y x) with
      | none => rfl
      | some j =>
        simp only [Option.map_some]
        have hj := (List.findIdx?_eq_some_iff_getElem.mp hf).1
        rw [(index_fits hlen hj).1]
    · rw [if_neg hi, if_neg hi]
  let ans : K → Bool × Int := fun x => if ins x then
        match b.findIdx? (fun y => ins y && eq y x) with
        | some j => (true, (j : Int))
        | none => (false, (indexType b.length).inv)
      else (false, (indexType b.length).inv)
  refine ⟨a.map ans, ?_, by simp, ?_⟩
  · unfold isMember
    rw [e']
    dsimp only
    cases a with
    | nil =>
      have := elemWork_exact (n := 0) (fun i => (([] : List K)[i]?).bind
        (memberOne ins hash eq (indexType b.length).inv t)) (fun _ => (false, 0))
        (fun i hi => absurd hi (by omega)) hs
      exact this
    | cons a0 as =>
      generalize hA : a0 :: as = A at *
      have := elemWork_exact (n := A.length) (fun i => (A[i]?).bind
        (memberOne ins hash eq (indexType b.length).inv t)) (fun i => ans (A.getD i a0))
        (fun i hi => by
          rw [List.getElem?_eq_getElem hi, Option.bind_some, hone _ (List.getElem_mem hi)]
          simp [hi, ans]) hs
      rw [this]
      congr 2
      apply List.ext_getElem?
      intro i
      by_cases hi : i < A.length
      · simp [hi]
      · rw [List.getElem?_eq_none (by simp; omega), List.getElem?_eq_none (by simp; omega)]
  · intro i x r hx hr
    rw [List.getElem?_map, hx] at hr
    simp only [Option.map_some, Option.some.injEq] at hr
    subst hr
    have hsame : ins x = true → ∀ y ∈ b, (ins y && eq y x) = true ↔
        (ins x = true ∧ ins y = true ∧ eq y x = true) := by
      intro hi y _; simp [hi]
    simp only [ans]
    by_cases hi : ins x = true
    · rw [if_pos hi]
      cases hf : b.findIdx? (fun y => ins y && eq y x) with
      | none => exact .inr ⟨rfl, rfl, findIdx?_none (hsame hi) hf⟩
      | some j => exact .inl ⟨rfl, j, rfl, findIdx?_firstAt (hsame hi) hf⟩
    · rw [if_neg hi]
      exact .inr ⟨rfl, rfl, fun y _ h => hi h.1⟩

theorem laws_decEq {K : Type} [DecidableEq K] (hash : K → Nat) (size : Nat) (h : ∀ k, hash k < size) :
    Laws (fun _ => True) hash (fun x y : K => decide (x = y)) size where
  refl := by simp
  symm := by intro a b _ _ h; simpa using (by simpa using h : a = b).symm
  trans := by
    intro a b c _ _ _ h1 h2
    have h1 : a = b := by simpa using h1
    have h2 : b = c := by simpa using h2
    simp [h1, h2]
  hashEq := by intro a b _ _ h; have h : a = b := by simpa using h
               rw [h]
  range := fun a _ => h a

/-- **C09.** `ismember` on integer keys: for every hash function, every table size above the number of
distinct keys and every schedule, each element gets the *first* position of its key, or False and the
invalid index. -/
theorem ismember_first_match (hash : Nat → Nat) (size : Nat) (hrange : ∀ k, hash k < size)
    (a b : List Nat) (hroom : distinct (fun x y => decide (x = y)) b < size) (hlen : b.length ≤ 2 ^ 63)
    {workers : Nat} {nt : Bool} {par : Option (List Nat)} (hs : ChunkSched workers a.length nt par) :
    ∃ out : List (Bool × Int), isMember (fun _ => true) hash (fun x y => decide (x = y)) size a b par = some (out.map some) ∧
      out.length = a.length ∧
      ∀ (i : Nat) x r, a[i]? = some x → out[i]? = some r →
        IsAnswer (fun y => y = x) b (indexType b.length).inv r.1 r.2 := by
  have hf : b.filter (fun _ => true) = b := by simp
  obtain ⟨out, h1, h2, h3⟩ := isMember_exact (P := fun _ => True) (fun _ => true) hash _ size
    (laws_decEq hash size hrange) a b (by simp) (by simp) (by rw [hf]; exact hroom) hlen hs
  refine ⟨out, h1, h2, fun i x r hx hr => ?_⟩
  have := h3 i x r hx hr
  simpa using this

/-- Three keys that all collide, one of them repeated, and a missing key. -/
example : isMember (fun _ => true) (fun k => k % 4) (fun x y => decide (x = y)) 4 [5, 9, 1, 13] [1, 5, 1, 9] none
    = some [some (true, 1), some (true, 3), some (true, 0), some (false, -128)] := by decide +kernel

example : distinct (fun x y => decide (x = y)) [1, 5, 1, 9] < 4 := by decide

/-- A table that is exactly full of other keys makes the lookup of a missing key fail: why the size must
exceed the number of distinct keys. -/
theorem full_table_fails :
    isMember (fun _ => true) (fun k => k % 3) (fun x y => decide (x = y)) 3 [4] [0, 1, 2] none = none := by
  decide +kernel

/-! ## 1- and 2-byte keys -/

/-- The table of small keys: slot `p` belongs to key `p` and holds its first position. -/
def SmallBuilt {V : Type} (val : Nat → V) (size : Nat) (pre : List Nat) (t : Slots Nat V) : Prop :=
  t.length = size ∧
  ∀ p, p < size → t[p]? = some ((pre.findIdx? (fun y => decide (y = p))).map fun j => (p, val j))

theorem smallBuilt_insert {V : Type} {val : Nat → V} {size : Nat} (ks : List Nat) :
    ∀ (pre : List Nat) (t : Slots Nat V), SmallBuilt val size pre t → (∀ k ∈ ks, k < size) →
    ∃ t', insertAll (fun _ => true) (fun k : Nat => k) (fun x y => decide (x = y)) val pre.length ks t = .ok t' ∧
      SmallBuilt val size (pre ++ ks) t' := by
  induction ks with
  | nil => intro pre t h _; exact ⟨t, rfl, by simpa using h⟩
  | cons k ks ih =>
    intro pre t h hk
    have hks : k < size := hk k (by simp)
    obtain ⟨fuel, hf⟩ : ∃ fuel, t.length = fuel + 1 := ⟨t.length - 1, by have := h.1; omega⟩
    have step : ∃ r, upsert t (fun x => decide (x = k)) k k (val pre.length) id = .ok r ∧
        SmallBuilt val size (pre ++ [k]) r.1 := by
      have hat := h.2 k hks
      have hidx : ∀ p, (pre ++ [k]).findIdx? (fun y => decide (y = p)) =
          match pre.findIdx? (fun y => decide (y = p)) with
          | some j => some j
          | none => if k = p then some pre.length else none := by
        intro p
        rw [List.findIdx?_append]
        cases pre.findIdx? (fun y => decide (y = p)) with
        | some j => simp
        | none => by_cases hp : k = p <;> simp [hp]
      unfold upsert
      rw [show probe t t.length (fun x => decide (x = k)) k t.length k =
        probe t t.length (fun x => decide (x = k)) k (fuel + 1) k by rw [← hf]]
      unfold probe
      cases hi : pre.findIdx? (fun y => decide (y = k)) with
      | none =>
        rw [hi] at hat
        rw [hat]
        refine ⟨_, rfl, by simpa using h.1, fun p hp => ?_⟩
        simp only
        rw [List.getElem?_set, hidx p]
        by_cases hkp : k = p
        · subst hkp
          rw [hi]
          simp [h.1, hks]
        · rw [if_neg hkp, h.2 p hp]
          cases pre.findIdx? (fun y => decide (y = p)) <;> simp [hkp]
      | some j =>
        rw [hi] at hat
        rw [hat]
        simp only [Option.map_some, decide_true, if_true]
        refine ⟨_, rfl, by simpa using h.1, fun p hp => ?_⟩
        simp only [id]
        rw [List.getElem?_set, hidx p]
        by_cases hkp : k = p
        · subst hkp
          rw [hi]
          simp [h.1, hks]
        · rw [if_neg hkp, h.2 p hp]
          cases pre.findIdx? (fun y => decide (y = p)) <;> simp [hkp]
    obtain ⟨r, hr, hb⟩ := step
    obtain ⟨t', h1, h2⟩ := ih (pre ++ [k]) r.1 hb fun x hx => hk x (by simp [hx])
    refine ⟨t', ?_, by simpa using h2⟩
    unfold insertAll
    simp only [if_true]
    rw [hr]
    simpa using h1

/-- **C09**, 1- and 2-byte keys (as unsigned bit patterns): the lookup compares no keys, yet is exact
for any number of keys (the table may even be full), as long as every key is a slot number. -/
theorem ismember_small_first_match (size : Nat) (a b : List Nat) (ha : ∀ x ∈ a, x < size)
    (hb : ∀ x ∈ b, x < size) (hlen : b.length ≤ 2 ^ 63)
    {workers : Nat} {nt : Bool} {par : Option (List Nat)} (hs : ChunkSched workers a.length nt par) :
    ∃ out : List (Bool × Int), isMemberSmall size a b par = some (out.map some) ∧ out.length = a.length ∧
      ∀ (i : Nat) x r, a[i]? = some x → out[i]? = some r →
        IsAnswer (fun y => y = x) b (indexType b.length).inv r.1 r.2 := by
  obtain ⟨t, e, B⟩ := smallBuilt_insert (val := fun i : Nat => (indexType b.length).wrap (i : Int))
    (size := size) b [] (fresh Nat Int size)
    ⟨by simp [fresh], fun p hp => by simp [fresh, hp]⟩ hb
  have e' : makeLocation (fun _ => true) (fun k : Nat => k) (fun x y => decide (x = y)) size b = .ok t := e
  let ans : Nat → Bool × Int := fun x =>
        match b.findIdx? (fun y => decide (y = x)) with
        | some j => (true, (j : Int))
        | none => (false, (indexType b.length).inv)
  have hone : ∀ x ∈ a, memberPerfect (indexType b.length).inv t x = some (ans x) := by
    intro x hx
    unfold memberPerfect
    rw [B.2 x (ha x hx)]
    simp only [List.nil_append, ans]
    cases hf : b.findIdx? (fun y => decide (y = x)) with
    | none => rfl
    | some j =>
      have hj := (List.findIdx?_eq_some_iff_getElem.mp hf).1
      simp only [Option.map_some]
      rw [(index_fits hlen hj).1]
  refine ⟨a.map ans, ?_, by simp, ?_⟩
  · unfold isMemberSmall
    rw [e']
    dsimp only
    have := elemWork_exact (n := a.length) (fun i => (a[i]?).bind
        (memberPerfect (indexType b.length).inv t)) (fun i => ans (a.getD i 0))
        (fun i hi => by
          rw [List.getElem?_eq_getElem hi, Option.bind_some, hone _ (List.getElem_mem hi)]
          simp [hi]) hs
    rw [this]
    congr 2
    apply List.ext_getElem?
    intro i
    by_cases hi : i < a.length
    · simp [hi]
    · rw [List.getElem?_eq_none (by simp; omega), List.getElem?_eq_none (by simp; omega)]
  · intro i x r hx hr
    rw [List.getElem?_map, hx] at hr
    simp only [Option.map_some, Option.some.injEq] at hr
    subst hr
    simp only [ans]
    cases hf : b.findIdx? (fun y => decide (y = x)) with
    | none => exact .inr ⟨rfl, rfl, findIdx?_none (fun y _ => by simp) hf⟩
    | some j => exact .inl ⟨rfl, j, rfl, findIdx?_firstAt (fun y _ => by simp) hf⟩

example : isMemberSmall 8 [7, 3, 1] [3, 7, 3] none =
    some [some (true, 1), some (true, 0), some (false, -128)] := by decide +kernel

/-- The size chosen for 1- and 2-byte keys (hints 128 and 32768, mask mode) covers every key. -/
theorem small_size : allocSize .mask 128 false = some 65536 ∧ allocSize .mask 32768 false = some 65536 := by
  decide +kernel

/-- With a prime-mode table, as `IsMemberHashCategorical` (`src/HashLinear.cpp:4533-4600`) allows, the
same code leaves the table: key 200 of a single-byte array and a table of 53 slots. -/
theorem small_keys_prime_mode_out_of_bounds :
    allocSize .prime (hintOr 0 3) false = some 53 ∧ isMemberSmall 53 [200] [1, 2, 3] none = none := by
  decide +kernel

/-! ## Sizing -/

theorem primeAbove_mem (n : Nat) (ps : List Nat) (h : ∃ p ∈ ps, n < p) :
    n < primeAbove n ps ∧ primeAbove n ps ∈ ps := by
  induction ps with
  | nil => simp at h
  | cons p ps ih =>
    unfold primeAbove
    split
    · exact ⟨by omega, by simp⟩
    · obtain ⟨q, hq, hlt⟩ := h
      rcases List.mem_cons.mp hq with rfl | hq
      · omega
      · have := ih ⟨q, hq, hlt⟩
        exact ⟨this.1, by simp [this.2]⟩

theorem powAbove_spec (n : Nat) (hn : n ≤ 2 ^ 62) (fuel i : Nat) (hf : fuel + i = 64) (hi : i ≤ 62)
    (hprev : ∀ j, j < i → 2 ^ j < n) :
    ∃ k, powAbove n fuel i = some (2 ^ k) ∧ k ≤ 62 ∧ n ≤ 2 ^ k ∧ ∀ j, j < k → 2 ^ j < n := by
  induction fuel generalizing i with
  | zero => omega
  | succ fuel ih =>
    unfold powAbove
    rw [if_pos (by omega)]
    split
    · rename_i hlt
      have : i < 62 := by
        rcases Nat.lt_or_ge i 62 with h | h
        · exact h
        · have : i = 62 := by omega
          subst this; omega
      exact ih (i + 1) (by omega) (by omega) fun j hj => by
        rcases Nat.lt_or_ge j i with h | h
        · exact hprev j h
        · have : j = i := by omega
          subst this; exact hlt
    · exact ⟨i, rfl, hi, by omega, hprev⟩

/-- **C11**, prime mode: below 68719476731 keys the table is larger than the number of keys, and its
size is a prime of the list. -/
theorem prime_size_partial (n : Nat) (isFloat : Bool) (hn : n < 68719476731) :
    ∃ s, allocSize .prime n isFloat = some s ∧ n < s ∧ s ∈ primes := by
  have := primeAbove_mem n primes ⟨68719476731, by decide, hn⟩
  exact ⟨_, rfl, this.1, this.2⟩

/-- **C11** fails in prime mode above that: the table gets no slots at all. -/
theorem prime_size_too_large : allocSize .prime 68719476731 false = some 0 := by decide +kernel

/-- **C11**, mask mode: the size is a power of two, at least 65536 and at least twice the number of
keys (eight times for floats). -/
theorem mask_size (n : Nat) (isFloat : Bool) (hn : n ≤ 2 ^ 59) :
    ∃ s k, allocSize .mask n isFloat = some s ∧ s = 2 ^ k ∧ 65536 ≤ s ∧ n < s ∧
      (if isFloat then 8 * n else 2 * n) ≤ s ∧ (65536 < s → s < 2 * (if isFloat then 8 * n else 2 * n)) := by
  obtain ⟨k, h1, h2, h3, h4⟩ := powAbove_spec (if isFloat then n * 8 else n * 2)
    (by split <;> omega) 64 0 (by omega) (by omega) (by intro j hj; omega)
  have hm : (if isFloat then 8 * n else 2 * n) = if isFloat then n * 8 else n * 2 := by
    cases isFloat <;> simp <;> omega
  rw [hm]
  unfold allocSize hashSize
  simp only [h1, Option.map_some]
  have hbound : n * 2 ≤ (if isFloat then n * 8 else n * 2) := by cases isFloat <;> simp <;> omega
  by_cases hs : 2 ^ k < 65536
  · rw [if_pos hs]
    exact ⟨_, 16, rfl, rfl, by omega, by omega, by omega, by omega⟩
  · rw [if_neg hs]
    have hpos : 0 < 2 ^ k := by omega
    refine ⟨_, k, rfl, rfl, by omega, by omega, h3, fun hbig => ?_⟩
    cases k with
    | zero => simp at hbig
    | succ k =>
      have := h4 k (by omega)
      rw [Nat.pow_succ]; omega

/-- **C11**: with a power-of-two size the mask is the remainder, so the hash is a slot number. -/
theorem mask_is_remainder (k h : Nat) : h &&& (2 ^ k - 1) = h % 2 ^ k ∧ h &&& (2 ^ k - 1) < 2 ^ k := by
  rw [Nat.and_two_pow_sub_one_eq_mod]
  exact ⟨rfl, Nat.mod_lt _ (Nat.two_pow_pos k)⟩

example : ∃ s, allocSize .mask 100000 true = some s ∧ s = 2 ^ 20 := ⟨_, by decide +kernel, rfl⟩
example : ∃ s, allocSize .prime 53 true = some s ∧ s = 97 := ⟨_, by decide +kernel, rfl⟩

/-- **C11**, the consequence: a table sized for the whole array (hint 0) accepts every key of it and
still answers every lookup, for any hash that yields slot numbers. -/
theorem sized_table_never_full {K : Type} {P : K → Prop} (mode : Mode) (isFloat : Bool) (ins : K → Bool)
    (hash : K → Nat) (eq : K → K → Bool) (a b : List K) (hn : b.length < 68719476731)
    (size : Nat) (hsize : allocSize mode (hintOr 0 b.length) isFloat = some size)
    (L : Laws P hash eq size) (ha : ∀ x ∈ a, ins x = true → P x) (hb : ∀ x ∈ b, ins x = true → P x) :
    ∃ t, makeLocation ins hash eq size b = .ok t ∧ used t ≤ b.length ∧ used t < size ∧
      ∀ x ∈ a, ∃ r, memberOne ins hash eq (indexType b.length).inv t x = some r := by
  have hlt : b.length < size := by
    cases mode with
    | prime =>
      obtain ⟨s, h1, h2, _⟩ := prime_size_partial b.length isFloat hn
      rw [show hintOr 0 b.length = b.length by simp [hintOr]] at hsize
      rw [h1] at hsize; injection hsize with h; omega
    | mask =>
      obtain ⟨s, k, h1, _, _, h2, _⟩ := mask_size b.length isFloat (by omega)
      rw [show hintOr 0 b.length = b.length by simp [hintOr]] at hsize
      rw [h1] at hsize; injection hsize with h; omega
  have hd : distinct eq (b.filter ins) ≤ b.length :=
    Nat.le_trans (distinct_le eq _) (List.length_filter_le _ _)
  obtain ⟨t, e, B⟩ := insertAll_spec (val := fun i : Nat => (indexType b.length).wrap (i : Int)) L b []
    (fresh K Int size) (built_fresh P ins hash eq _ size) (by simpa using hb) (by simp; omega)
  refine ⟨t, e, ?_, ?_, ?_⟩
  · have := B.used; simp at this; omega
  · have := B.used; simp at this; omega
  · intro x hx
    unfold memberOne
    by_cases hi : ins x = true
    · rw [if_pos hi, built_find L B (by simp; omega) x (ha x hx hi)]
      cases (([] ++ b).findIdx? (fun y => ins y && eq y x)) <;> exact ⟨_, rfl⟩
    · rw [if_neg hi]; exact ⟨_, rfl⟩

/-- A hint below the number of distinct keys is taken at face value: the build stops with an error. -/
theorem small_hint_fails :
    allocSize .prime (hintOr 10 54) false = some 53 ∧
    isMember (fun _ => true) (hashInt1 53) (fun x y => decide (x = y)) 53 [1] (List.range 54) none = none := by
  decide +kernel

end Riptide.Hash
