import Verif.Hash.Table
/-! # Linear probing implements a finite map -/
namespace Riptide.Hash

/-- The slot `d` steps after `h`. -/
def cyc (size h d : Nat) : Nat := if h + d < size then h + d else h + d - size

/-- What is needed of hash and comparison on the keys in use (`P`). -/
structure Laws {K : Type} (P : K → Prop) (hash : K → Nat) (eq : K → K → Bool) (size : Nat) : Prop where
  refl : ∀ a, P a → eq a a = true
  symm : ∀ a b, P a → P b → eq a b = true → eq b a = true
  trans : ∀ a b c, P a → P b → P c → eq a b = true → eq b c = true → eq a c = true
  hashEq : ∀ a b, P a → P b → eq a b = true → hash a = hash b
  range : ∀ a, P a → hash a < size

/-- Slot `p` holds the entry. -/
def At {K V : Type} (tbl : Slots K V) (p : Nat) (k : K) (v : V) : Prop := tbl[p]? = some (some (k, v))

/-- Slot `p` is taken. -/
def Taken {K V : Type} (tbl : Slots K V) (p : Nat) : Prop := ∃ k v, At tbl p k v

/-- The probing invariant: every entry can be reached from its hash over taken slots, and no two
entries have equal keys. -/
structure Inv {K V : Type} (P : K → Prop) (hash : K → Nat) (eq : K → K → Bool) (tbl : Slots K V) :
    Prop where
  valid : ∀ p k v, At tbl p k v → P k
  path : ∀ p k v, At tbl p k v → ∃ d, d < tbl.length ∧ cyc tbl.length (hash k) d = p ∧
    ∀ e, e < d → Taken tbl (cyc tbl.length (hash k) e)
  uniq : ∀ p q k v k' v', At tbl p k v → At tbl q k' v' → eq k k' = true → p = q

/-- The finite map a table stands for. -/
def Holds {K V : Type} (eq : K → K → Bool) (tbl : Slots K V) (k : K) (v : V) : Prop :=
  ∃ p k', At tbl p k' v ∧ eq k' k = true

theorem fresh_not_at {K V : Type} {size p : Nat} {k : K} {v : V} : ¬ At (fresh K V size) p k v := by
  unfold At fresh
  rw [List.getElem?_replicate]
  split <;> simp

theorem inv_fresh {K V : Type} (P : K → Prop) (hash : K → Nat) (eq : K → K → Bool) (size : Nat) :
    Inv P hash eq (fresh K V size) :=
  ⟨fun _ _ _ h => absurd h fresh_not_at, fun _ _ _ h => absurd h fresh_not_at,
    fun _ _ _ _ _ _ h => absurd h fresh_not_at⟩

theorem cyc_lt {size h d : Nat} (hh : h < size) (hd : d < size) : cyc size h d < size := by
  unfold cyc; split <;> omega

theorem cyc_zero {size h : Nat} (hh : h < size) : cyc size h 0 = h := by
  unfold cyc; rw [if_pos (by omega)]; omega

theorem cyc_next {size h d : Nat} (_hh : h < size) (hd : d + 1 < size) :
    (if cyc size h d + 1 ≥ size then 0 else cyc size h d + 1) = cyc size h (d + 1) := by
  unfold cyc; repeat' split
  all_goals omega

theorem cyc_next_last {size h d : Nat} (hh : h < size) (hd : d + 1 = size) :
    (if cyc size h d + 1 ≥ size then 0 else cyc size h d + 1) = h := by
  unfold cyc; repeat' split
  all_goals omega

theorem cyc_ne {size h d : Nat} (_hh : h < size) (hd : d + 1 < size) : cyc size h (d + 1) ≠ h := by
  unfold cyc; split <;> omega

theorem cyc_surj {size h p : Nat} (hh : h < size) (hp : p < size) : ∃ d, d < size ∧ cyc size h d = p := by
  by_cases hle : h ≤ p
  · exact ⟨p - h, by omega, by unfold cyc; rw [if_pos (by omega)]; omega⟩
  · exact ⟨p + size - h, by omega, by unfold cyc; rw [if_neg (by omega)]; omega⟩

theorem cyc_inj {size h d e : Nat} (_hh : h < size) (hd : d < size) (he : e < size)
    (h1 : cyc size h d = cyc size h e) : d = e := by
  unfold cyc at h1; repeat' split at h1
  all_goals omega

/-- Slots are taken or free. -/
theorem taken_or_free {K V : Type} (tbl : Slots K V) (p : Nat) (hp : p < tbl.length) :
    Taken tbl p ∨ tbl[p]? = some none := by
  rw [List.getElem?_eq_getElem hp]
  cases h : tbl[p] with
  | none => exact .inr rfl
  | some e => exact .inl ⟨e.1, e.2, by unfold At; rw [List.getElem?_eq_getElem hp, h]⟩

/-- What the probing loop does, from `d` steps after the start. -/
theorem probe_from {K V : Type} (tbl : Slots K V) (m : K → Bool) (h : Nat) (hh : h < tbl.length)
    (fuel d : Nat) (hf : fuel + d = tbl.length) (hd : d < tbl.length)
    (hprev : ∀ e, e < d → ∃ k v, At tbl (cyc tbl.length h e) k v ∧ m k = false) :
    (∃ d' k v, d ≤ d' ∧ d' < tbl.length ∧
      probe tbl tbl.length m h fuel (cyc tbl.length h d) = .hit (cyc tbl.length h d') k v ∧
      At tbl (cyc tbl.length h d') k v ∧ m k = true ∧
      ∀ e, e < d' → ∃ k v, At tbl (cyc tbl.length h e) k v ∧ m k = false) ∨
    (∃ d', d ≤ d' ∧ d' < tbl.length ∧
      probe tbl tbl.length m h fuel (cyc tbl.length h d) = .empty (cyc tbl.length h d') ∧
      tbl[cyc tbl.length h d']? = some none ∧
      ∀ e, e < d' → ∃ k v, At tbl (cyc tbl.length h e) k v ∧ m k = false) ∨
    (probe tbl tbl.length m h fuel (cyc tbl.length h d) = .full ∧
      ∀ e, e < tbl.length → ∃ k v, At tbl (cyc tbl.length h e) k v ∧ m k = false) := by
  induction fuel generalizing d with
  | zero => omega
  | succ fuel ih =>
    have hlt := cyc_lt hh hd
    rcases taken_or_free tbl _ hlt with ⟨k, v, hat⟩ | hfree
    · unfold probe
      have hat' := hat
      unfold At at hat'
      rw [hat']
      dsimp only
      by_cases hm : m k = true
      · left
        rw [if_pos hm]
        exact ⟨d, k, v, Nat.le_refl _, hd, rfl, hat, hm, hprev⟩
      · rw [if_neg hm]
        have hm : m k = false := by simpa using hm
        have hprev' : ∀ e, e < d + 1 → ∃ k v, At tbl (cyc tbl.length h e) k v ∧ m k = false := by
          intro e he
          by_cases hed : e = d
          · subst hed; exact ⟨k, v, hat, hm⟩
          · exact hprev e (by omega)
        by_cases hlast : d + 1 = tbl.length
        · rw [cyc_next_last hh hlast, if_pos rfl]
          exact .inr (.inr ⟨rfl, fun e he => hprev' e (by omega)⟩)
        · rw [cyc_next hh (by omega), if_neg (cyc_ne hh (by omega))]
          rcases ih (d + 1) (by omega) (by omega) hprev' with
            ⟨d', k', v', h1, h2⟩ | ⟨d', h1, h2⟩ | h2
          · exact .inl ⟨d', k', v', by omega, h2⟩
          · exact .inr (.inl ⟨d', by omega, h2⟩)
          · exact .inr (.inr h2)
    · right; left
      unfold probe
      rw [hfree]
      exact ⟨d, Nat.le_refl _, hd, rfl, hfree, hprev⟩

/-- The three outcomes of a complete probe for key `k`. -/
inductive Outcome {K V : Type} (hash : K → Nat) (eq : K → K → Bool) (tbl : Slots K V) (k : K) :
    Probe K V → Prop
  | hit {p : Nat} {k' : K} {v : V} (hat : At tbl p k' v) (hm : eq k' k = true) :
      Outcome hash eq tbl k (.hit p k' v)
  | empty {d : Nat} (hd : d < tbl.length) (hfree : tbl[cyc tbl.length (hash k) d]? = some none)
      (hpath : ∀ e, e < d → Taken tbl (cyc tbl.length (hash k) e))
      (hno : ∀ p k' v, At tbl p k' v → eq k' k = false) :
      Outcome hash eq tbl k (.empty (cyc tbl.length (hash k) d))
  | full (hall : ∀ p, p < tbl.length → Taken tbl p)
      (hno : ∀ p k' v, At tbl p k' v → eq k' k = false) : Outcome hash eq tbl k .full

theorem probe_spec {K V : Type} {P : K → Prop} {hash : K → Nat} {eq : K → K → Bool} {tbl : Slots K V}
    (L : Laws P hash eq tbl.length) (I : Inv P hash eq tbl) (k : K) (hk : P k) :
    Outcome hash eq tbl k
      (probe tbl tbl.length (fun x => eq x k) (hash k) tbl.length (hash k)) := by
  have hh := L.range k hk
  have := probe_from tbl (fun x => eq x k) (hash k) hh tbl.length 0 (by omega) (by omega)
    (fun e he => absurd he (by omega))
  rw [cyc_zero hh] at this
  rcases this with ⟨d, k', v, _, _, e, hat, hm, _⟩ | ⟨d, _, hd, e, hfree, hpre⟩ | ⟨e, hall⟩
  · rw [e]; exact .hit hat hm
  · rw [e]
    refine .empty hd hfree (fun e he => ?_) ?_
    · obtain ⟨k', v, h1, _⟩ := hpre e he; exact ⟨k', v, h1⟩
    · intro p k' v hat
      cases hm : eq k' k with
      | false => rfl
      | true =>
        exfalso
        obtain ⟨d', hd', rfl, hpath⟩ := I.path p k' v hat
        rw [L.hashEq k' k (I.valid _ _ _ hat) hk hm] at hat hpath
        by_cases hlt : d' < d
        · obtain ⟨k2, v2, h1, h2⟩ := hpre d' hlt
          unfold At at hat h1
          rw [hat] at h1
          injection h1 with h1; injection h1 with h1; injection h1 with h1 _
          subst h1; rw [hm] at h2; exact absurd h2 (by simp)
        · by_cases heq : d' = d
          · subst heq; unfold At at hat; rw [hat] at hfree; simp at hfree
          · obtain ⟨k2, v2, h1⟩ := hpath d (by omega)
            unfold At at h1; rw [h1] at hfree; simp at hfree
  · rw [e]
    refine .full ?_ ?_
    · intro p hp
      obtain ⟨d, hd, rfl⟩ := cyc_surj hh hp
      obtain ⟨k', v, h1, _⟩ := hall d hd; exact ⟨k', v, h1⟩
    · intro p k' v hat
      have hp : p < tbl.length := by
        unfold At at hat
        exact (List.getElem?_eq_some_iff.mp hat).1
      obtain ⟨d, hd, rfl⟩ := cyc_surj hh hp
      obtain ⟨k2, v2, h1, h2⟩ := hall d hd
      unfold At at hat h1
      rw [hat] at h1
      injection h1 with h1; injection h1 with h1; injection h1 with h1 _
      subst h1; exact h2

/-- Number of taken slots. -/
def used {K V : Type} (tbl : Slots K V) : Nat := tbl.countP Option.isSome

theorem used_fresh (K V : Type) (size : Nat) : used (fresh K V size) = 0 := by
  unfold used fresh
  rw [List.countP_replicate]; simp

theorem used_of_all_taken {K V : Type} {tbl : Slots K V} (h : ∀ p, p < tbl.length → Taken tbl p) :
    used tbl = tbl.length := by
  unfold used
  rw [List.countP_eq_length]
  intro e he
  obtain ⟨i, hi, rfl⟩ := List.getElem_of_mem he
  obtain ⟨k, v, h1⟩ := h i hi
  unfold At at h1
  rw [List.getElem?_eq_getElem hi] at h1
  injection h1 with h1; rw [h1]; rfl

theorem countP_set_some {α : Type} (l : List (Option α)) (p : Nat) (x : α) :
    (l[p]? = some none → (l.set p (some x)).countP Option.isSome = l.countP Option.isSome + 1) ∧
    (∀ y, l[p]? = some (some y) →
      (l.set p (some x)).countP Option.isSome = l.countP Option.isSome) := by
  induction l generalizing p with
  | nil => simp
  | cons a l ih =>
    cases p with
    | zero => cases a <;> simp
    | succ p =>
      have := ih p
      constructor
      · intro h
        have := this.1 (by simpa using h)
        simp only [List.set_cons_succ, List.countP_cons, this]; omega
      · intro y h
        have := this.2 y (by simpa using h)
        simp only [List.set_cons_succ, List.countP_cons, this]

theorem at_set {K V : Type} {tbl : Slots K V} {p q : Nat} {k k0 : K} {v v0 : V} (hp : p < tbl.length) :
    At (tbl.set p (some (k0, v0))) q k v ↔ (q = p ∧ k = k0 ∧ v = v0) ∨ (q ≠ p ∧ At tbl q k v) := by
  unfold At
  rw [List.getElem?_set]
  by_cases h : p = q
  · subst h
    rw [if_pos rfl, if_pos hp]
    simp only [ne_eq, not_true_eq_false, false_and, or_false, true_and, Option.some.injEq, Prod.mk.injEq]
    exact ⟨fun ⟨a, b⟩ => ⟨a.symm, b.symm⟩, fun ⟨a, b⟩ => ⟨a.symm, b.symm⟩⟩
  · rw [if_neg h]
    simp [Ne.symm h]

theorem at_lt {K V : Type} {tbl : Slots K V} {p : Nat} {k : K} {v : V} (h : At tbl p k v) :
    p < tbl.length := by
  unfold At at h
  exact (List.getElem?_eq_some_iff.mp h).1

/-- A table in which a key occurs at most once is a function. -/
theorem holds_unique {K V : Type} {P : K → Prop} {hash : K → Nat} {eq : K → K → Bool} {tbl : Slots K V}
    (L : Laws P hash eq tbl.length) (I : Inv P hash eq tbl) {k : K} (hk : P k) {v v' : V}
    (h : Holds eq tbl k v) (h' : Holds eq tbl k v') : v = v' := by
  obtain ⟨p, k1, h1, e1⟩ := h
  obtain ⟨q, k2, h2, e2⟩ := h'
  have p1 := I.valid _ _ _ h1
  have p2 := I.valid _ _ _ h2
  have := I.uniq p q k1 v k2 v' h1 h2 (L.trans _ _ _ p1 hk p2 e1 (L.symm _ _ p2 hk e2))
  subst this
  unfold At at h1 h2
  rw [h1] at h2
  injection h2 with h2; injection h2 with h2; injection h2

/-- **Lookup**: with a free slot left, or for a key that is present, `find` is the finite map. -/
theorem find_spec {K V : Type} {P : K → Prop} {hash : K → Nat} {eq : K → K → Bool} {tbl : Slots K V}
    (L : Laws P hash eq tbl.length) (I : Inv P hash eq tbl) (k : K) (hk : P k)
    (hroom : used tbl < tbl.length) :
    ∃ r, find tbl (fun x => eq x k) (hash k) = .ok r ∧ ∀ v, r = some v ↔ Holds eq tbl k v := by
  have := probe_spec L I k hk
  unfold find
  generalize probe tbl tbl.length (fun x => eq x k) (hash k) tbl.length (hash k) = o at this
  cases this with
  | hit hat hm =>
    refine ⟨_, rfl, fun v => ⟨?_, ?_⟩⟩
    · intro e; injection e with e; subst e; exact ⟨_, _, hat, hm⟩
    · intro h; rw [holds_unique L I hk ⟨_, _, hat, hm⟩ h]
  | empty hd hfree hpath hno =>
    refine ⟨_, rfl, fun v => ⟨by simp, ?_⟩⟩
    rintro ⟨p, k', hat, hm⟩
    rw [hno p k' v hat] at hm; exact absurd hm (by simp)
  | full hall hno =>
    have := used_of_all_taken hall
    omega

/-- **Insertion**: the map is updated at `k` only, the invariant survives, and one more slot is taken
exactly when the key is new. -/
theorem upsert_spec {K V : Type} {P : K → Prop} {hash : K → Nat} {eq : K → K → Bool} {tbl : Slots K V}
    (L : Laws P hash eq tbl.length) (I : Inv P hash eq tbl) (k : K) (hk : P k) (v0 : V) (f : V → V)
    (hroom : used tbl < tbl.length) :
    ∃ tbl' old, upsert tbl (fun x => eq x k) (hash k) k v0 f = .ok (tbl', old) ∧
      Inv P hash eq tbl' ∧ tbl'.length = tbl.length ∧
      (∀ v, old = some v ↔ Holds eq tbl k v) ∧
      used tbl' = used tbl + (if old = none then 1 else 0) ∧
      (∀ k' v, P k' → (Holds eq tbl' k' v ↔
        if eq k k' = true then v = (old.map f).getD v0 else Holds eq tbl k' v)) := by
  have hpr := probe_spec L I k hk
  unfold upsert
  generalize probe tbl tbl.length (fun x => eq x k) (hash k) tbl.length (hash k) = o at hpr
  cases hpr with
  | @hit p k1 v1 hat hm =>
    have hp := at_lt hat
    have pk1 := I.valid _ _ _ hat
    have taken_iff : ∀ q, Taken tbl q → Taken (tbl.set p (some (k1, f v1))) q := by
      rintro q ⟨k2, v2, h2⟩
      by_cases h : q = p
      · exact ⟨k1, f v1, (at_set hp).mpr (.inl ⟨h, rfl, rfl⟩)⟩
      · exact ⟨k2, v2, (at_set hp).mpr (.inr ⟨h, h2⟩)⟩
    have back : ∀ q k2 v2, At (tbl.set p (some (k1, f v1))) q k2 v2 → ∃ v3, At tbl q k2 v3 := by
      intro q k2 v2 h2
      rcases (at_set hp).mp h2 with ⟨rfl, rfl, _⟩ | ⟨_, h3⟩
      · exact ⟨v1, hat⟩
      · exact ⟨v2, h3⟩
    refine ⟨_, _, rfl, ⟨?_, ?_, ?_⟩, by simp, ?_, ?_, ?_⟩
    · intro q k2 v2 h2
      obtain ⟨v3, h3⟩ := back _ _ _ h2
      exact I.valid _ _ _ h3
    · intro q k2 v2 h2
      obtain ⟨v3, h3⟩ := back _ _ _ h2
      obtain ⟨d, hd, e, hpath⟩ := I.path _ _ _ h3
      rw [List.length_set]
      exact ⟨d, hd, e, fun e he => taken_iff _ (hpath e he)⟩
    · intro q r k2 v2 k3 v3 h2 h3 he
      obtain ⟨v4, h4⟩ := back _ _ _ h2
      obtain ⟨v5, h5⟩ := back _ _ _ h3
      exact I.uniq _ _ _ _ _ _ h4 h5 he
    · intro v
      constructor
      · intro e; injection e with e; subst e; exact ⟨_, _, hat, hm⟩
      · intro h; rw [holds_unique L I hk ⟨_, _, hat, hm⟩ h]
    · simp only [used, reduceCtorEq, if_false, Nat.add_zero]
      exact (countP_set_some tbl p (k1, f v1)).2 _ hat
    · intro k' v pk'
      have hiff : eq k1 k' = true ↔ eq k k' = true :=
        ⟨fun h => L.trans _ _ _ hk pk1 pk' (L.symm _ _ pk1 hk hm) h, fun h => L.trans _ _ _ pk1 hk pk' hm h⟩
      by_cases he : eq k k' = true
      · rw [if_pos he]
        simp only [Option.map_some, Option.getD_some]
        constructor
        · rintro ⟨q, k2, h2, e2⟩
          rcases (at_set hp).mp h2 with ⟨_, _, rfl⟩ | ⟨hne, h3⟩
          · rfl
          · exfalso
            have pk2 := I.valid _ _ _ h3
            apply hne
            exact I.uniq _ _ _ _ _ _ h3 hat
              (L.trans _ _ _ pk2 pk' pk1 e2 (L.symm _ _ pk1 pk' (hiff.mpr he)))
        · rintro rfl
          exact ⟨p, k1, (at_set hp).mpr (.inl ⟨rfl, rfl, rfl⟩), hiff.mpr he⟩
      · rw [if_neg he]
        constructor
        · rintro ⟨q, k2, h2, e2⟩
          rcases (at_set hp).mp h2 with ⟨_, rfl, _⟩ | ⟨hne, h3⟩
          · exact absurd (hiff.mp e2) he
          · exact ⟨q, k2, h3, e2⟩
        · rintro ⟨q, k2, h2, e2⟩
          refine ⟨q, k2, (at_set hp).mpr (.inr ⟨?_, h2⟩), e2⟩
          rintro rfl
          unfold At at hat h2
          rw [hat] at h2
          injection h2 with h2; injection h2 with h2; injection h2 with h2 _
          subst h2; exact he (hiff.mp e2)
  | @empty d hd hfree hpath hno =>
    have hp := cyc_lt (L.range k hk) hd
    have nat : ∀ k2 v2, ¬ At tbl (cyc tbl.length (hash k) d) k2 v2 := by
      intro k2 v2 h; unfold At at h; rw [hfree] at h; simp at h
    have taken_iff : ∀ q, Taken tbl q → Taken (tbl.set (cyc tbl.length (hash k) d) (some (k, v0))) q := by
      rintro q ⟨k2, v2, h2⟩
      refine ⟨k2, v2, (at_set hp).mpr (.inr ⟨?_, h2⟩)⟩
      rintro rfl; exact nat _ _ h2
    refine ⟨_, _, rfl, ⟨?_, ?_, ?_⟩, by simp, ?_, ?_, ?_⟩
    · intro q k2 v2 h2
      rcases (at_set hp).mp h2 with ⟨_, rfl, _⟩ | ⟨_, h3⟩
      · exact hk
      · exact I.valid _ _ _ h3
    · intro q k2 v2 h2
      rw [List.length_set]
      rcases (at_set hp).mp h2 with ⟨rfl, rfl, _⟩ | ⟨_, h3⟩
      · exact ⟨d, hd, rfl, fun e he => taken_iff _ (hpath e he)⟩
      · obtain ⟨d', hd', e, hp'⟩ := I.path _ _ _ h3
        exact ⟨d', hd', e, fun e he => taken_iff _ (hp' e he)⟩
    · intro q r k2 v2 k3 v3 h2 h3 he
      rcases (at_set hp).mp h2 with ⟨rfl, rfl, rfl⟩ | ⟨_, h4⟩ <;>
      rcases (at_set hp).mp h3 with ⟨rfl, rfl, rfl⟩ | ⟨_, h5⟩
      · rfl
      · have := hno _ _ _ h5
        rw [L.symm _ _ hk (I.valid _ _ _ h5) he] at this; exact absurd this (by simp)
      · have := hno _ _ _ h4
        rw [he] at this; exact absurd this (by simp)
      · exact I.uniq _ _ _ _ _ _ h4 h5 he
    · intro v
      refine ⟨by simp, ?_⟩
      rintro ⟨q, k2, h2, e2⟩
      rw [hno _ _ _ h2] at e2; exact absurd e2 (by simp)
    · simp only [used, if_true]
      exact (countP_set_some tbl _ (k, v0)).1 hfree
    · intro k' v pk'
      by_cases he : eq k k' = true
      · rw [if_pos he]
        simp only [Option.map_none, Option.getD_none]
        constructor
        · rintro ⟨q, k2, h2, e2⟩
          rcases (at_set hp).mp h2 with ⟨_, _, rfl⟩ | ⟨hne, h3⟩
          · rfl
          · exfalso
            have pk2 := I.valid _ _ _ h3
            have := hno _ _ _ h3
            rw [L.trans _ _ _ pk2 pk' hk e2 (L.symm _ _ hk pk' he)] at this
            exact absurd this (by simp)
        · rintro rfl
          exact ⟨_, k, (at_set hp).mpr (.inl ⟨rfl, rfl, rfl⟩), he⟩
      · rw [if_neg he]
        constructor
        · rintro ⟨q, k2, h2, e2⟩
          rcases (at_set hp).mp h2 with ⟨_, rfl, _⟩ | ⟨hne, h3⟩
          · exact absurd e2 he
          · exact ⟨q, k2, h3, e2⟩
        · rintro ⟨q, k2, h2, e2⟩
          refine ⟨q, k2, (at_set hp).mpr (.inr ⟨?_, h2⟩), e2⟩
          rintro rfl; exact nat _ _ h2
  | full hall hno =>
    have := used_of_all_taken hall
    omega

end Riptide.Hash
