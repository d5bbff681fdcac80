import Verif.Hash.Loop
import Verif.Hash.TableLemmas
/-! # The table is a finite map

A loop over the hash table computes the same as the loop over a finite map. -/
namespace Riptide.Hash

/-- The map updated at `k`. -/
def mapPut {K V : Type} [DecidableEq K] (m : K → Option V) (k : K) (v0 : V) (f : V → V) : K → Option V :=
  fun k' => if k' = k then some (((m k).map f).getD v0) else m k'

/-- The loop over a finite map. -/
def mapLoop {K V R S : Type} [DecidableEq K] (plan : S → R → Op K V) (next : S → R → Option V → S) :
    (K → Option V) → S → List R → (K → Option V) × S
  | m, s, [] => (m, s)
  | m, s, r :: rs =>
    match plan s r with
    | .skip => mapLoop plan next m (next s r none) rs
    | .look k => mapLoop plan next m (next s r (m k)) rs
    | .put k v0 f => mapLoop plan next (mapPut m k v0 f) (next s r (m k)) rs

/-- The empty map. -/
def noKeys {K V : Type} : K → Option V := fun _ => none

theorem mapLoop_append {K V R S : Type} [DecidableEq K] (plan : S → R → Op K V)
    (next : S → R → Option V → S) (m : K → Option V) (s : S) (rs qs : List R) :
    mapLoop plan next m s (rs ++ qs) =
      mapLoop plan next (mapLoop plan next m s rs).1 (mapLoop plan next m s rs).2 qs := by
  induction rs generalizing m s with
  | nil => rfl
  | cons r rs ih =>
    simp only [List.cons_append, mapLoop]
    cases plan s r <;> exact ih _ _

/-- What a set of table functions must do to be a finite map: for looking up keys `Ql` and storing keys `Q`. -/
structure IsMap {K V : Type} [DecidableEq K] (ops : Ops K V) (Ql Q : K → Prop)
    (Rel : Slots K V → (K → Option V) → Prop) : Prop where
  find : ∀ t m k, Rel t m → Ql k → ops.find t k = .ok (m k)
  put : ∀ t m k v0 f, Rel t m → Q k → ∃ t', ops.put t k v0 f = .ok (t', m k) ∧ Rel t' (mapPut m k v0 f)

theorem loop_eq_map {K V R S : Type} [DecidableEq K] {ops : Ops K V} {Ql Q : K → Prop}
    {Rel : Slots K V → (K → Option V) → Prop} (M : IsMap ops Ql Q Rel) (plan : S → R → Op K V)
    (next : S → R → Option V → S) (rs : List R)
    (hq : ∀ s, ∀ r ∈ rs, match plan s r with
      | .skip => True
      | .look k => Ql k
      | .put k _ _ => Q k)
    (t : Slots K V) (m : K → Option V) (s : S) (hr : Rel t m) :
    ∃ t', tableLoop ops plan next t s rs = .ok (t', (mapLoop plan next m s rs).2) ∧
      Rel t' (mapLoop plan next m s rs).1 := by
  induction rs generalizing t m s with
  | nil => exact ⟨t, rfl, hr⟩
  | cons r rs ih =>
    have hq' : ∀ s, ∀ r ∈ rs, match plan s r with
      | .skip => True
      | .look k => Ql k
      | .put k _ _ => Q k := fun s r hr => hq s r (by simp [hr])
    have h0 := hq s r (by simp)
    unfold tableLoop mapLoop
    cases hp : plan s r with
    | skip => exact ih hq' t m _ hr
    | look k =>
      rw [hp] at h0
      simp only
      rw [M.find t m k hr h0]
      exact ih hq' t m _ hr
    | put k v0 f =>
      rw [hp] at h0
      simp only
      obtain ⟨t', e, hr'⟩ := M.put t m k v0 f hr h0
      rw [e]
      exact ih hq' t' _ _ hr'

/-! ## Linear probing -/

theorem nodup_subset_length {α : Type} [DecidableEq α] : ∀ {l u : List α}, l.Nodup → (∀ x ∈ l, x ∈ u) →
    l.length ≤ u.length
  | [], _, _, _ => by simp
  | a :: l, u, hn, hs => by
    have ha : a ∈ u := hs a (by simp)
    have := nodup_subset_length (l := l) (u := u.erase a) (List.nodup_cons.mp hn).2 (by
      intro x hx
      have hne : x ≠ a := fun e => (List.nodup_cons.mp hn).1 (e ▸ hx)
      exact (List.mem_erase_of_ne hne).mpr (hs x (by simp [hx])))
    rw [List.length_erase_of_mem ha] at this
    have hpos : 0 < u.length := List.length_pos_of_mem ha
    simp only [List.length_cons]
    omega

theorem laws_id {K : Type} [DecidableEq K] (hash : K → Nat) (size : Nat) (h : ∀ k, hash k < size) :
    Laws (fun _ => True) hash (fun x y : K => decide (x = y)) size where
  refl := by simp
  symm := by intro a b _ _ h; simpa using (by simpa using h : a = b).symm
  trans := by
    intro a b c _ _ _ h1 h2
    have h1 : a = b := by simpa using h1
    have h2 : b = c := by simpa using h2
    simp [h1, h2]
  hashEq := by intro a b _ _ h; have h : a = b := by simpa using h
               rw [h]
  range := fun a _ => h a

/-- The table represents the map, and its keys come from `U`. -/
structure Represents {K V : Type} [DecidableEq K] (hash : K → Nat) (size : Nat) (U : List K)
    (t : Slots K V) (m : K → Option V) : Prop where
  inv : Inv (fun _ => True) hash (fun x y : K => decide (x = y)) t
  len : t.length = size
  holds : ∀ k v, m k = some v ↔ Holds (fun x y : K => decide (x = y)) t k v
  keys : ∀ k v, m k = some v → k ∈ U

theorem represents_room {K V : Type} [DecidableEq K] {hash : K → Nat} {size : Nat} {U : List K}
    {t : Slots K V} {m : K → Option V} (h : Represents hash size U t m) : used t ≤ U.length := by
  have hcount : used t = (t.filterMap fun o => o.map Prod.fst).length := by
    unfold used
    generalize t = l
    induction l with
    | nil => rfl
    | cons o l ih => cases o <;> simp [ih]
  rw [hcount]
  apply nodup_subset_length
  · have : ∀ (l : Slots K V), (∀ (p q : Nat) k v k' v', l[p]? = some (some (k, v)) → l[q]? = some (some (k', v')) →
        k = k' → p = q) → (l.filterMap fun o => o.map Prod.fst).Nodup := by
      intro l
      induction l with
      | nil => simp
      | cons o l ih =>
        intro hu
        have ih := ih fun p q k v k' v' h1 h2 e => by
          have := hu (p + 1) (q + 1) k v k' v' (by simpa using h1) (by simpa using h2) e
          omega
        cases o with
        | none => simpa using ih
        | some e =>
          simp only [List.filterMap_cons, Option.map_some]
          refine List.nodup_cons.mpr ⟨?_, ih⟩
          intro hm
          rw [List.mem_filterMap] at hm
          obtain ⟨o, ho, he⟩ := hm
          cases o with
          | none => simp at he
          | some e' =>
            simp only [Option.map_some, Option.some.injEq] at he
            obtain ⟨q, hq⟩ := List.mem_iff_getElem?.mp ho
            have := hu 0 (q + 1) e.1 e.2 e'.1 e'.2 (by simp) (by simpa using hq) he.symm
            omega
    apply this
    intro p q k v k' v' h1 h2 e
    exact h.inv.uniq p q k v k' v' h1 h2 (by simpa using e)
  · intro x hx
    rw [List.mem_filterMap] at hx
    obtain ⟨o, ho, he⟩ := hx
    cases o with
    | none => simp at he
    | some e =>
      simp only [Option.map_some, Option.some.injEq] at he
      obtain ⟨q, hq⟩ := List.mem_iff_getElem?.mp ho
      exact h.keys x e.2 ((h.holds x e.2).mpr ⟨q, e.1, hq, by simpa using he⟩)

/-- **Linear probing is a finite map**, for every hash function with values below the size, as long as
all keys come from fewer values than there are slots. -/
theorem probing_isMap {K V : Type} [DecidableEq K] (hash : K → Nat) (size : Nat) (U : List K)
    (hr : ∀ k, hash k < size) (hU : U.length < size) :
    IsMap (probing (V := V) hash) (fun _ => True) (fun k => k ∈ U) (Represents hash size U) where
  find := by
    intro t m k h _
    have L : Laws (fun _ => True) hash (fun x y : K => decide (x = y)) t.length := h.len ▸ laws_id hash size hr
    have hroom : used t < t.length := by have := represents_room h; rw [h.len]; omega
    obtain ⟨r, e, hv⟩ := find_spec L h.inv k trivial hroom
    show Hash.find t (fun x => decide (x = k)) (hash k) = _
    rw [e]
    congr 1
    cases hm : m k with
    | none =>
      cases hr' : r with
      | none => rfl
      | some v => have := (h.holds k v).mpr ((hv v).mp hr'); rw [hm] at this; simp at this
    | some v => exact (hv v).mpr ((h.holds k v).mp hm)
  put := by
    intro t m k v0 f h hk
    have L : Laws (fun _ => True) hash (fun x y : K => decide (x = y)) t.length := h.len ▸ laws_id hash size hr
    have hroom : used t < t.length := by have := represents_room h; rw [h.len]; omega
    obtain ⟨t', old, e, hinv, hlen, hold, _, hmap⟩ := upsert_spec L h.inv k trivial v0 f hroom
    have ho : old = m k := by
      cases hm : m k with
      | none =>
        cases ho : old with
        | none => rfl
        | some v => have := (h.holds k v).mpr ((hold v).mp ho); rw [hm] at this; simp at this
      | some v => exact (hold v).mpr ((h.holds k v).mp hm)
    subst ho
    refine ⟨t', e, ⟨hinv, hlen.trans h.len, ?_, ?_⟩⟩
    · intro k' v
      rw [hmap k' v trivial]
      unfold mapPut
      by_cases hk' : k' = k
      · subst hk'; simp [eq_comm]
      · rw [if_neg hk', if_neg (by simpa using Ne.symm hk')]
        exact h.holds k' v
    · intro k' v hv
      unfold mapPut at hv
      by_cases hk' : k' = k
      · exact hk' ▸ hk
      · rw [if_neg hk'] at hv; exact h.keys k' v hv

theorem represents_fresh {K V : Type} [DecidableEq K] (hash : K → Nat) (size : Nat) (U : List K) :
    Represents hash size U (fresh K V size) noKeys where
  inv := inv_fresh _ _ _ _
  len := by simp [fresh]
  holds := by
    intro k v
    constructor
    · intro h; simp [noKeys] at h
    · rintro ⟨p, k', h, _⟩; exact absurd h fresh_not_at
  keys := by intro k v h; simp [noKeys] at h

/-! ## The perfect hash -/

/-- Slot `p` belongs to key `p`. -/
def Direct {V : Type} (size : Nat) (t : Slots Nat V) (m : Nat → Option V) : Prop :=
  t.length = size ∧ ∀ p, p < size → t[p]? = some ((m p).map fun v => (p, v))

/-- The masked lookup without comparison is a finite map when the size is a power of two and every key
is a slot number. -/
theorem perfect_isMap {V : Type} (e : Nat) :
    IsMap (perfect (V := V) (2 ^ e)) (fun k => k < 2 ^ e) (fun k => k < 2 ^ e) (Direct (2 ^ e)) := by
  have hmask : ∀ k, k < 2 ^ e → k &&& (2 ^ e - 1) = k := by
    intro k hk; rw [Nat.and_two_pow_sub_one_eq_mod, Nat.mod_eq_of_lt hk]
  have hprobe : ∀ (t : Slots Nat V) m k, Direct (2 ^ e) t m → k < 2 ^ e →
      probe t t.length (fun _ => true) k t.length k =
        match m k with
        | none => .empty k
        | some v => .hit k k v := by
    intro t m k h hk
    obtain ⟨fuel, hf⟩ : ∃ fuel, t.length = fuel + 1 := ⟨t.length - 1, by have := h.1; omega⟩
    rw [show probe t t.length (fun _ => true) k t.length k =
        probe t t.length (fun _ => true) k (fuel + 1) k by rw [← hf]]
    unfold probe
    rw [h.2 k hk]
    cases m k <;> rfl
  constructor
  · intro t m k h hk
    show Hash.find t (fun _ => true) (k &&& (2 ^ e - 1)) = _
    rw [hmask k hk]
    unfold Hash.find
    rw [hprobe t m k h hk]
    cases m k <;> rfl
  · intro t m k v0 f h hk
    show ∃ t', upsert t (fun _ => true) (k &&& (2 ^ e - 1)) k v0 f = _ ∧ _
    rw [hmask k hk]
    unfold upsert
    rw [hprobe t m k h hk]
    have hl : k < t.length := by rw [h.1]; exact hk
    cases hm : m k with
    | none =>
      refine ⟨_, rfl, by simpa using h.1, fun p hp => ?_⟩
      rw [List.getElem?_set]
      unfold mapPut
      by_cases hkp : k = p
      · subst hkp; rw [if_pos rfl, if_pos hl, if_pos rfl, hm]; rfl
      · rw [if_neg hkp, if_neg (Ne.symm hkp)]; exact h.2 p hp
    | some v =>
      refine ⟨_, rfl, by simpa using h.1, fun p hp => ?_⟩
      rw [List.getElem?_set]
      unfold mapPut
      by_cases hkp : k = p
      · subst hkp; rw [if_pos rfl, if_pos hl, if_pos rfl, hm]; rfl
      · rw [if_neg hkp, if_neg (Ne.symm hkp)]; exact h.2 p hp

theorem direct_fresh {V : Type} (size : Nat) : Direct size (fresh Nat V size) noKeys :=
  ⟨by simp [fresh], fun p hp => by simp [fresh, noKeys, hp]⟩

end Riptide.Hash
