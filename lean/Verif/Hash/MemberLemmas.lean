import Verif.Hash.TableLemmas
import Verif.Hash.Member
import Verif.Hash.Spec
/-! # Building the table stores first positions -/
namespace Riptide.Hash
open Spec

theorem findIdx?_congr {α : Type} {l : List α} {p q : α → Bool} (h : ∀ a ∈ l, p a = q a) :
    l.findIdx? p = l.findIdx? q := by
  induction l with
  | nil => rfl
  | cons a l ih =>
    rw [List.findIdx?_cons, List.findIdx?_cons, h a (by simp), ih fun b hb => h b (by simp [hb])]

theorem distinctFrom_snoc {K : Type} (eq : K → K → Bool) (seen l : List K) (k : K) :
    distinctFrom eq seen (l ++ [k]) =
      distinctFrom eq seen l + (if (seen ++ l).any (fun x => eq x k) then 0 else 1) := by
  induction l generalizing seen with
  | nil => simp [distinctFrom]
  | cons a l ih =>
    simp only [List.cons_append, distinctFrom, ih, List.append_assoc, List.nil_append]
    omega

theorem distinct_append_le {K : Type} (eq : K → K → Bool) (seen l r : List K) :
    distinctFrom eq seen l ≤ distinctFrom eq seen (l ++ r) := by
  induction l generalizing seen with
  | nil => simp [distinctFrom]
  | cons a l ih => simp only [List.cons_append, distinctFrom]; have := ih (seen ++ [a]); omega

theorem distinctFrom_le {K : Type} (eq : K → K → Bool) (seen l : List K) :
    distinctFrom eq seen l ≤ l.length := by
  induction l generalizing seen with
  | nil => simp [distinctFrom]
  | cons a l ih =>
    simp only [distinctFrom, List.length_cons]; have := ih (seen ++ [a]); split <;> omega

theorem distinct_le {K : Type} (eq : K → K → Bool) (l : List K) : distinct eq l ≤ l.length :=
  distinctFrom_le eq [] l

/-- The table after the elements `pre`. -/
structure Built {K V : Type} (P : K → Prop) (ins : K → Bool) (hash : K → Nat) (eq : K → K → Bool)
    (val : Nat → V) (size : Nat) (pre : List K) (t : Slots K V) : Prop where
  inv : Inv P hash eq t
  len : t.length = size
  map : ∀ k v, P k → (Holds eq t k v ↔
    ∃ j, pre.findIdx? (fun b => ins b && eq b k) = some j ∧ v = val j)
  used : used t = distinct eq (pre.filter ins)

theorem built_fresh {K V : Type} (P : K → Prop) (ins : K → Bool) (hash : K → Nat) (eq : K → K → Bool)
    (val : Nat → V) (size : Nat) : Built P ins hash eq val size [] (fresh K V size) where
  inv := inv_fresh P hash eq size
  len := by simp [fresh]
  map := by
    intro k v _
    constructor
    · rintro ⟨p, k', h, _⟩; exact absurd h fresh_not_at
    · rintro ⟨j, h, _⟩; simp at h
  used := by rw [used_fresh]; rfl

theorem built_step {K V : Type} {P : K → Prop} {ins : K → Bool} {hash : K → Nat} {eq : K → K → Bool}
    {val : Nat → V} {size : Nat} {pre : List K} {t : Slots K V} (L : Laws P hash eq size)
    (B : Built P ins hash eq val size pre t) (hP : ∀ b ∈ pre, ins b = true → P b) (k : K)
    (hi : ins k = true) (hk : P k) (hroom : distinct eq (pre.filter ins) < size) :
    ∃ t' old, upsert t (fun x => eq x k) (hash k) k (val pre.length) id = .ok (t', old) ∧
      Built P ins hash eq val size (pre ++ [k]) t' ∧
      (∀ v, old = some v ↔ ∃ j, pre.findIdx? (fun b => ins b && eq b k) = some j ∧ v = val j) := by
  have L' : Laws P hash eq t.length := B.len ▸ L
  obtain ⟨t', old, e, hinv, hlen, hold, hused, hmap⟩ :=
    upsert_spec L' B.inv k hk (val pre.length) id (by rw [B.used, B.len]; exact hroom)
  have hold' : ∀ v, old = some v ↔ ∃ j, pre.findIdx? (fun b => ins b && eq b k) = some j ∧ v = val j :=
    fun v => (hold v).trans (B.map k v hk)
  refine ⟨t', old, e, ⟨hinv, hlen.trans B.len, ?_, ?_⟩, hold'⟩
  · intro k' v pk'
    rw [hmap k' v pk', List.findIdx?_append]
    by_cases he : eq k k' = true
    · rw [if_pos he]
      have hcong : pre.findIdx? (fun b => ins b && eq b k') = pre.findIdx? (fun b => ins b && eq b k) := by
        apply findIdx?_congr
        intro b hb
        cases hib : ins b with
        | false => rfl
        | true =>
          have pb := hP b hb hib
          have : eq b k' = true ↔ eq b k = true :=
            ⟨fun h => L.trans _ _ _ pb pk' hk h (L.symm _ _ hk pk' he), fun h => L.trans _ _ _ pb hk pk' h he⟩
          simp only [Bool.true_and]
          cases h1 : eq b k' <;> cases h2 : eq b k <;> simp_all
      rw [hcong]
      cases hf : pre.findIdx? (fun b => ins b && eq b k) with
      | none =>
        have : old = none := by
          cases ho : old with
          | none => rfl
          | some v0 =>
            obtain ⟨j, hj, _⟩ := (hold' v0).mp ho
            rw [hf] at hj; simp at hj
        subst this
        simp [List.findIdx?_cons, hi, he]
      | some j =>
        have : old = some (val j) := (hold' _).mpr ⟨j, hf, rfl⟩
        subst this
        simp
    · rw [if_neg he, B.map k' v pk']
      have : [k].findIdx? (fun b => ins b && eq b k') = none := by
        simp [List.findIdx?_cons, he]
      rw [this]; simp
  · rw [hused, B.used, List.filter_append]
    have : [k].filter ins = [k] := by simp [hi]
    rw [this]
    unfold distinct
    rw [distinctFrom_snoc, List.nil_append]
    congr 1
    have hiff : (pre.filter ins).any (fun x => eq x k) = true ↔ old ≠ none := by
      rw [List.any_eq_true]
      constructor
      · rintro ⟨x, hx, hxe⟩ ho
        rw [List.mem_filter] at hx
        have : pre.findIdx? (fun b => ins b && eq b k) ≠ none := by
          rw [Ne, List.findIdx?_eq_none_iff]
          intro h
          have := h x hx.1
          simp [hx.2, hxe] at this
        cases hf : pre.findIdx? (fun b => ins b && eq b k) with
        | none => exact this hf
        | some j => have := (hold' _).mpr ⟨j, hf, rfl⟩; rw [ho] at this; simp at this
      · intro ho
        cases hoo : old with
        | none => exact absurd hoo ho
        | some v0 =>
          obtain ⟨j, hj, _⟩ := (hold' v0).mp hoo
          obtain ⟨hj1, hj2, _⟩ := List.findIdx?_eq_some_iff_getElem.mp hj
          simp only [Bool.and_eq_true] at hj2
          exact ⟨pre[j], List.mem_filter.mpr ⟨List.getElem_mem hj1, hj2.1⟩, hj2.2⟩
    by_cases ho : old = none
    · rw [if_pos ho, if_neg (fun h => hiff.mp h ho)]
    · rw [if_neg ho, if_pos (hiff.mpr ho)]

theorem built_skip {K V : Type} {P : K → Prop} {ins : K → Bool} {hash : K → Nat} {eq : K → K → Bool}
    {val : Nat → V} {size : Nat} {pre : List K} {t : Slots K V}
    (B : Built P ins hash eq val size pre t) (k : K) (hi : ins k = false) :
    Built P ins hash eq val size (pre ++ [k]) t where
  inv := B.inv
  len := B.len
  map := by
    intro k' v pk'
    rw [B.map k' v pk', List.findIdx?_append]
    have : [k].findIdx? (fun b => ins b && eq b k') = none := by simp [List.findIdx?_cons, hi]
    rw [this]; simp
  used := by
    rw [B.used, List.filter_append]
    have : [k].filter ins = [] := by simp [hi]
    rw [this, List.append_nil]

theorem insertAll_spec {K V : Type} {P : K → Prop} {ins : K → Bool} {hash : K → Nat} {eq : K → K → Bool}
    {val : Nat → V} {size : Nat} (L : Laws P hash eq size) (ks : List K) (pre : List K) (t : Slots K V)
    (B : Built P ins hash eq val size pre t) (hP : ∀ b ∈ pre ++ ks, ins b = true → P b)
    (hroom : distinct eq ((pre ++ ks).filter ins) < size) :
    ∃ t', insertAll ins hash eq val pre.length ks t = .ok t' ∧
      Built P ins hash eq val size (pre ++ ks) t' := by
  induction ks generalizing pre t with
  | nil => exact ⟨t, rfl, by rw [List.append_nil]; exact B⟩
  | cons k ks ih =>
    have hassoc : pre ++ k :: ks = (pre ++ [k]) ++ ks := by simp
    have hl : (pre ++ [k]).length = pre.length + 1 := by simp
    rw [hassoc] at hP hroom ⊢
    unfold insertAll
    by_cases hi : ins k = true
    · rw [if_pos hi]
      have hr : distinct eq (pre.filter ins) < size := by
        refine Nat.lt_of_le_of_lt ?_ hroom
        rw [List.filter_append, List.filter_append, List.append_assoc]
        exact distinct_append_le eq [] _ _
      obtain ⟨t1, old, e, B1, _⟩ := built_step L B (fun b hb h => hP b (by simp [hb]) h) k hi
        (hP k (by simp) hi) hr
      rw [e]
      dsimp only
      rw [← hl]
      exact ih (pre ++ [k]) t1 B1 hP hroom
    · rw [if_neg hi, ← hl]
      exact ih (pre ++ [k]) t (built_skip B k (by simpa using hi)) hP hroom

/-- Looking a key up in the finished table. -/
theorem built_find {K V : Type} {P : K → Prop} {ins : K → Bool} {hash : K → Nat} {eq : K → K → Bool}
    {val : Nat → V} {size : Nat} {pre : List K} {t : Slots K V} (L : Laws P hash eq size)
    (B : Built P ins hash eq val size pre t) (hroom : distinct eq (pre.filter ins) < size) (k : K)
    (hk : P k) :
    find t (fun x => eq x k) (hash k) =
      .ok ((pre.findIdx? (fun b => ins b && eq b k)).map val) := by
  have L' : Laws P hash eq t.length := B.len ▸ L
  obtain ⟨r, e, hr⟩ := find_spec L' B.inv k hk (by rw [B.used, B.len]; exact hroom)
  rw [e]
  congr 1
  cases hf : pre.findIdx? (fun b => ins b && eq b k) with
  | none =>
    cases hr' : r with
    | none => rfl
    | some v =>
      obtain ⟨j, hj, _⟩ := (B.map k v hk).mp ((hr v).mp hr')
      rw [hf] at hj; simp at hj
  | some j => exact (hr _).mpr ((B.map k _ hk).mpr ⟨j, hf, rfl⟩)

theorem findIdx?_firstAt {K : Type} {same : K → Prop} {p : K → Bool} {b : List K} {j : Nat}
    (hp : ∀ y ∈ b, p y = true ↔ same y) (h : b.findIdx? p = some j) : FirstAt same b j := by
  obtain ⟨h1, h2, h3⟩ := List.findIdx?_eq_some_iff_getElem.mp h
  refine ⟨⟨b[j], List.getElem?_eq_getElem h1, (hp _ (List.getElem_mem h1)).mp h2⟩, ?_⟩
  intro i y hi hy hs
  have hi' : i < b.length := by omega
  rw [List.getElem?_eq_getElem hi'] at hy
  injection hy with hy
  subst hy
  exact h3 i hi ((hp _ (List.getElem_mem hi')).mpr hs)

theorem findIdx?_none {K : Type} {same : K → Prop} {p : K → Bool} {b : List K}
    (hp : ∀ y ∈ b, p y = true ↔ same y) (h : b.findIdx? p = none) : ∀ y ∈ b, ¬ same y := by
  intro y hy hs
  have := List.findIdx?_eq_none_iff.mp h y hy
  rw [(hp y hy).mpr hs] at this; simp at this

end Riptide.Hash
