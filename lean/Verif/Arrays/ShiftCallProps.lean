import Verif.Arrays.ShiftCallLemmas
import Verif.Arrays.InfoProps
/-! # What `ShiftArrays` does (C155) -/
namespace Riptide.Nums.Shift
open Riptide.Nums Riptide.Binary Spec
open Riptide.Mask.Call.Spec (inC)

theorem separate_ne : ∀ {l : List Item}, Separate l → ∀ x ∈ l, ∀ y ∈ l, x ≠ y → ∀ a b s t, x = .array a s → y = .array b t → ∀ p, Inside a.lay s p →
    ¬ Inside b.lay t p
  | [], _, x, hx, _, _, _ => by simp at hx
  | z :: l, h, x, hx, y, hy, hne => by
    have h := List.pairwise_cons.1 h
    intro a b s t ea eb p hp hq
    rcases List.mem_cons.1 hx with e | hx'
    · rcases List.mem_cons.1 hy with e' | hy'
      · exact hne (e.trans e'.symm)
      · exact h.1 y hy' a b s t (e ▸ ea) eb p hp hq
    · rcases List.mem_cons.1 hy with e' | hy'
      · exact h.1 x hx' b a t s (e' ▸ eb) ea p hq hp
      · exact separate_ne h.2 x hx' y hy' hne a b s t ea eb p hp hq

/-- The call, for each array: what its moves do not write stays. -/
theorem shift_each (threads : Bool) (room : Nat → Bool) (M : Mem) (l : List Item) (k : Int) (order : List Nat) (hk : fits k = true)
    (hl : ∀ x ∈ l, x = .pyNone ∨ ∃ a base vs, x = .array a base ∧ (a.lay.cContig || a.lay.fContig) = true ∧ a.type ≤ 20 ∧
      (∃ s ss, a.lay.strides = s :: ss ∧ (a.lay.dims.length = 1 → s = a.lay.item)) ∧ plan a.lay k = some vs ∧ There M a.lay base)
    (hs : Separate l) (ho : order.Perm (List.range l.length)) :
    ∃ M', shift threads true room M (.items l) k order = .done M' ∧
      (∀ a base vs, .array a base ∈ l → plan a.lay k = some vs → ∀ p,
        (∀ v ∈ vs, Writes v p → M' (base + p) = M (base + (v.src + (p - v.dst)))) ∧
        (0 ≤ p → p < ((a.lay.len * a.lay.item : Nat) : Int) → (∀ v ∈ vs, ¬ Writes v p) → M' (base + p) = M (base + p))) ∧
      ∀ p, (∀ a base, .array a base ∈ l → ¬ Inside a.lay base p) → M' p = M p := by
  have hcont : ∀ a base, Item.array a base ∈ l → (a.lay.cContig || a.lay.fContig) = true := by
    intro a base hx
    rcases hl _ hx with h | ⟨b, c, vs, e, h, _⟩
    · cases h
    · cases e
      exact h
  have hmov : ∀ a base vs, Item.array a base ∈ l → plan a.lay k = some vs →
      moves M k (.array a base) = some (vs.map fun v => ⟨base + v.dst, base + v.src, v.n⟩) := by
    intro a base vs hx hp
    simp only [moves, taken_self (hcont a base hx), hp, Option.map_some]
    rfl
  obtain ⟨M', h1, h2, h3⟩ := shift_runs threads room M l k order hk
    (build_ok (by
      intro y hy r
      obtain ⟨x, hx, rfl⟩ := List.mem_map.1 hy
      rcases hl x hx with rfl | ⟨a, base, vs, rfl, hc, ht, hs, _, _⟩
      · exact ⟨_, rfl⟩
      · exact entry_ok hc ht hs))
    (by
      intro x hx
      rcases hl x hx with rfl | ⟨a, base, vs, rfl, _, _, _, hp, _⟩
      · exact ⟨[], rfl⟩
      · exact ⟨_, hmov a base vs hx hp⟩)
    (by
      intro a base hx _
      rcases hl _ hx with h | ⟨b, c, vs, e, _, _, _, _, h⟩
      · cases h
      · cases e
        exact h)
    hs ho
  refine ⟨M', h1, ?_, ?_⟩
  · intro a base vs hx hp p
    constructor
    · intro v hv hw
      have := h2 _ hx _ (hmov a base vs hx hp) ⟨base + v.dst, base + v.src, v.n⟩ (List.mem_map.2 ⟨v, hv, rfl⟩) (base + p)
        (by unfold Writes at hw ⊢; simp only; omega)
      rw [this]
      simp only
      congr 1
      omega
    · intro h0 hlt hn
      refine h3 (base + p) ?_
      intro y hy ws hws w hw hwp
      obtain ⟨b, t, rfl, _, hi⟩ := (moves_stays hws).2 w hw _ (.inl hwp)
      by_cases e : Item.array a base = .array b t
      · cases e
        rw [hmov a base vs hx hp] at hws
        rw [← Option.some.inj hws] at hw
        obtain ⟨v, hv, rfl⟩ := List.mem_map.1 hw
        exact hn v hv (by unfold Writes at hwp ⊢; simp only at hwp; omega)
      · exact separate_ne hs _ hx _ hy e a b base t rfl rfl (base + p) ⟨by omega, by omega⟩ hi
  · intro p hn
    refine h3 p ?_
    intro y hy ws hws w hw hwp
    obtain ⟨b, t, rfl, _, hi⟩ := (moves_stays hws).2 w hw _ (.inl hwp)
    exact hn b t hy hi

/-- The bytes of an item are inside. -/
theorem item_in {i n I b : Nat} (h : i < n) (hb : b < I) : i * I + b < n * I := by
  have := column_in (z := I) h
  omega

/-- Items moved in one piece. -/
theorem flat_items {n I : Nat} {k : Int} {vs : List Move} (h : flat n I k = some vs) (i b : Nat) (hi : i < n) (hb : b < I) (A B : Int → Option (BitVec 8))
    (h1 : ∀ v ∈ vs, ∀ p, Writes v p → A p = B (v.src + (p - v.dst))) (h2 : ∀ p : Int, 0 ≤ p → p < ((n * I : Nat) : Int) → (∀ v ∈ vs, ¬ Writes v p) → A p = B p) :
    A ((i * I + b : Nat) : Int) = if 0 ≤ i + k ∧ i + k < n then B (((i + k).toNat * I + b : Nat) : Int) else B ((i * I + b : Nat) : Int) := by
  have hin := item_in hi hb
  rcases flat_eq h with ⟨rfl, hm⟩ | ⟨r, hr, h0, rfl⟩
  · rw [if_neg (by unfold moved at hm; split at hm <;> omega)]
    exact h2 _ (by omega) (by omega) (by simp)
  · have e2 : n * I = r * I + k.natAbs * I := by rw [hr, Nat.add_mul]
    by_cases hk : k < 0
    · simp only [if_pos hk] at h1 h2
      by_cases hj : 0 ≤ i + k ∧ i + k < n
      · rw [if_pos hj]
        obtain ⟨q, hq⟩ : ∃ q : Nat, i = q + k.natAbs := ⟨i - k.natAbs, by omega⟩
        have e3 : i * I = q * I + k.natAbs * I := by rw [hq, Nat.add_mul]
        have e4 : ((i : Int) + k).toNat = q := by omega
        rw [h1 _ (List.mem_singleton.2 rfl) _ (by unfold Writes; simp only; omega), e4]
        simp only
        congr 1
        omega
      · rw [if_neg hj]
        have : i * I + b < k.natAbs * I := item_in (by omega) hb
        refine h2 _ (by omega) (by omega) ?_
        intro v hv
        rw [List.mem_singleton.1 hv]
        unfold Writes
        simp only
        omega
    · simp only [if_neg hk] at h1 h2
      by_cases hj : 0 ≤ i + k ∧ i + k < n
      · rw [if_pos hj]
        have : i * I + b < r * I := item_in (by omega) hb
        have e4 : ((i : Int) + k).toNat = i + k.natAbs := by omega
        have e3 : (i + k.natAbs) * I = i * I + k.natAbs * I := Nat.add_mul ..
        rw [h1 _ (List.mem_singleton.2 rfl) _ (by unfold Writes; simp only; omega), e4, e3]
        simp only
        congr 1
        omega
      · rw [if_neg hj]
        have : r * I ≤ i * I := Nat.mul_le_mul_right I (by omega)
        refine h2 _ (by omega) (by omega) ?_
        intro v hv
        rw [List.mem_singleton.1 hv]
        unfold Writes
        simp only
        omega

/-- Items moved in each column. -/
theorem column_items {n c I : Nat} {k : Int} {vs : List Move} (h : columns n c I k = some vs) (i j b : Nat) (hi : i < n) (hj : j < c) (hb : b < I)
    (A B : Int → Option (BitVec 8))
    (h1 : ∀ v ∈ vs, ∀ p, Writes v p → A p = B (v.src + (p - v.dst))) (h2 : ∀ p : Int, 0 ≤ p → p < ((c * (n * I) : Nat) : Int) → (∀ v ∈ vs, ¬ Writes v p) → A p = B p) :
    A ((i * I + j * (n * I) + b : Nat) : Int) =
      if 0 ≤ i + k ∧ i + k < n then B (((i + k).toNat * I + j * (n * I) + b : Nat) : Int) else B ((i * I + j * (n * I) + b : Nat) : Int) := by
  have hin := item_in hi hb
  have hcol := column_in (z := n * I) hj
  rcases columns_eq h with ⟨rfl, hm⟩ | ⟨r, hr, h0, rfl⟩
  · rw [if_neg (by unfold moved at hm; split at hm <;> omega)]
    exact h2 _ (by omega) (by omega) (by simp)
  · have e2 : n * I = r * I + k.natAbs * I := by rw [hr, Nat.add_mul]
    have hmem : ∀ (P : Move → Prop), (∀ v ∈ (List.range c).map (fun (i : Nat) => (⟨(((if k < 0 then k.natAbs * I else 0) + i * (n * I) : Nat) : Int),
        (((if k < 0 then 0 else k.natAbs * I) + i * (n * I) : Nat) : Int), r * I⟩ : Move)), P v) ↔ ∀ q : Nat, q < c → P ⟨(((if k < 0 then k.natAbs * I else 0) + q * (n * I) : Nat) : Int),
        (((if k < 0 then 0 else k.natAbs * I) + q * (n * I) : Nat) : Int), r * I⟩ := by
      intro P
      simp only [List.mem_map, List.mem_range]
      exact ⟨fun h q hq => h _ ⟨q, hq, rfl⟩, fun h v ⟨q, hq, e⟩ => e ▸ h q hq⟩
    have g1 := fun p => (hmem (fun v => Writes v p → A p = B (v.src + (p - v.dst)))).1 (fun v hv => h1 v hv p) j hj
    have g2 : ∀ p : Int, j * (n * I) ≤ p → p < j * (n * I) + n * I → ¬ Writes ⟨(((if k < 0 then k.natAbs * I else 0) + j * (n * I) : Nat) : Int),
        (((if k < 0 then 0 else k.natAbs * I) + j * (n * I) : Nat) : Int), r * I⟩ p → A p = B p := by
      intro p hp1 hp2 hw
      have hz : (0 : Int) ≤ j * (n * I) := by
        have : ((j * (n * I) : Nat) : Int) = (j : Int) * (n * I) := by simp
        omega
      have hz2 : (j : Int) * (n * I) = ((j * (n * I) : Nat) : Int) := by simp
      have hz3 : (n : Int) * I = ((n * I : Nat) : Int) := by simp
      rw [hz2] at hp1 hp2
      rw [hz3] at hp2
      refine h2 p (by omega) (by omega) ((hmem (fun v => ¬ Writes v p)).2 ?_)
      intro q hq hwq
      rcases Nat.lt_trichotomy q j with hqj | rfl | hqj
      · have := column_in (z := n * I) hqj
        unfold Writes at hwq
        simp only at hwq
        generalize q * (n * I) = y at *
        generalize j * (n * I) = z at *
        split at hwq <;> omega
      · exact hw hwq
      · have := column_in (z := n * I) hqj
        unfold Writes at hwq
        simp only at hwq
        generalize q * (n * I) = y at *
        generalize j * (n * I) = z at *
        split at hwq <;> omega
    have hz2 : (j : Int) * (n * I) = ((j * (n * I) : Nat) : Int) := by simp
    have hz3 : (n : Int) * I = ((n * I : Nat) : Int) := by simp
    rw [hz2, hz3] at g2
    generalize j * (n * I) = z at *
    unfold Writes at g1 g2
    by_cases hk : k < 0
    · simp only [if_pos hk] at g1 g2
      by_cases hjj : 0 ≤ i + k ∧ i + k < n
      · rw [if_pos hjj]
        obtain ⟨q, hq⟩ : ∃ q : Nat, i = q + k.natAbs := ⟨i - k.natAbs, by omega⟩
        have e3 : i * I = q * I + k.natAbs * I := by rw [hq, Nat.add_mul]
        have e4 : ((i : Int) + k).toNat = q := by omega
        rw [g1 _ (by omega), e4]
        congr 1
        omega
      · rw [if_neg hjj]
        have : i * I + b < k.natAbs * I := item_in (by omega) hb
        exact g2 _ (by omega) (by omega) (by omega)
    · simp only [if_neg hk] at g1 g2
      by_cases hjj : 0 ≤ i + k ∧ i + k < n
      · rw [if_pos hjj]
        have : i * I + b < r * I := item_in (by omega) hb
        have e4 : ((i : Int) + k).toNat = i + k.natAbs := by omega
        have e3 : (i + k.natAbs) * I = i * I + k.natAbs * I := Nat.add_mul ..
        rw [g1 _ (by omega), e4, e3]
        congr 1
        omega
      · rw [if_neg hjj]
        have : r * I ≤ i * I := Nat.mul_le_mul_right I (by omega)
        exact g2 _ (by omega) (by omega) (by omega)

theorem fits_iff (x : Int) : fits x = true ↔ -(2 ^ 63) ≤ x ∧ x < 2 ^ 63 := by
  unfold fits
  rw [decide_eq_true_eq]
  omega

/-- An array whose rows can be moved is taken as it is. -/
theorem rows_taken {a : Arr} {k : Int} (h : Rows a) (hs : Small a.lay k) : (a.lay.cContig || a.lay.fContig) = true ∧
    (∃ s ss, a.lay.strides = s :: ss ∧ (a.lay.dims.length = 1 → s = a.lay.item)) ∧ ∃ vs, plan a.lay k = some vs := by
  obtain ⟨hs1, hs2⟩ := hs
  have hmul : k.natAbs * a.lay.item < 2 ^ 63 → fits (k * a.lay.item) = true := by
    intro h
    rw [fits_iff]
    have e : (k * (a.lay.item : Int)).natAbs = k.natAbs * a.lay.item := by rw [Int.natAbs_mul]; rfl
    generalize k * (a.lay.item : Int) = x at *
    omega
  cases h with
  | one n hd hst =>
    refine ⟨?_, ⟨_, _, hst, fun _ => rfl⟩, ?_⟩
    · simp [Lay.cContig, hd, hst, cStrides, sameStrides, prod]
    · have hf : fits (((a.lay.len : Nat) : Int) - k) = true := by
        rw [fits_iff]
        simp only [Lay.len, hd, prod, List.headD] at hs1 ⊢
        omega
      unfold plan isFortran
      rw [hst]
      simp only [Bool.false_eq_true, if_false]
      unfold flat
      rw [if_pos hf]
      split <;> exact ⟨_, rfl⟩
  | two n c hn h0 hd hst =>
    refine ⟨?_, ⟨_, _, hst, by simp [hd]⟩, ?_⟩
    · rw [Bool.or_eq_true]
      right
      simp only [Lay.fContig, hd, hst, fStrides, sameStrides]
      simp [Nat.mul_comm]
    · have hf : fits ((n : Int) - k) = true := by
        rw [fits_iff]
        simp only [hd, List.headD] at hs1
        omega
      have hlt : (a.lay.item : Int) < ((n * a.lay.item : Nat) : Int) := by
        have := Nat.mul_le_mul_right a.lay.item hn
        omega
      unfold plan isFortran
      rw [hst]
      simp only [decide_eq_true hlt, if_true, hd]
      unfold columns
      rw [hmul hs2, hf]
      simp only [Bool.and_true, if_true]
      split <;> exact ⟨_, rfl⟩

/-- **C155, partial.** For arrays of one dimension without gaps, and arrays of two dimensions in Fortran order with two rows or more, of any type and any size of items,
which lie in different places, and with `None`s between them: every row gets what the row `k` further had, rows for which there is none stay, and no other byte changes,
in whatever order the threads run. Missing: arrays in C order with more dimensions (`flat_order`), arrays of one row in Fortran order (`one_row_moves`), Fortran order of three
dimensions (`three_dims_stay`), and arrays with gaps (`gaps_stay`), for all of which it is false. -/
theorem shift_rows_partial (threads : Bool) (room : Nat → Bool) (M : Mem) (l : List Item) (k : Int) (order : List Nat) (hk : -(2 ^ 63) ≤ k ∧ k < 2 ^ 63)
    (hl : ∀ x ∈ l, x = .pyNone ∨ ∃ a base, x = .array a base ∧ a.type ≤ 20 ∧ Rows a ∧ Small a.lay k ∧ There M a.lay base)
    (hs : Separate l) (ho : order.Perm (List.range l.length)) :
    ∃ M', shift threads true room M (.items l) k order = .done M' ∧ (∀ a base, .array a base ∈ l → RowsMoved a.lay base k M M') ∧
      ∀ p, (∀ a base, .array a base ∈ l → ¬ Inside a.lay base p) → M' p = M p := by
  obtain ⟨M', h1, h2, h3⟩ := shift_each threads room M l k order ((fits_iff k).2 hk)
    (by
      intro x hx
      rcases hl x hx with rfl | ⟨a, base, rfl, ht, hr, hsm, hth⟩
      · exact .inl rfl
      · obtain ⟨g1, g2, vs, g3⟩ := rows_taken hr hsm
        exact .inr ⟨a, base, vs, rfl, g1, ht, g2, g3, hth⟩)
    hs ho
  refine ⟨M', h1, ?_, h3⟩
  intro a base hx
  rcases hl _ hx with h | ⟨a', base', e, _, hr, hsm, _⟩
  · cases h
  cases e
  obtain ⟨_, _, vs, hp⟩ := rows_taken hr hsm
  have g := h2 a base vs hx hp
  cases hr with
  | one n hd hst =>
    have hf : flat n a.lay.item k = some vs := by
      unfold plan isFortran at hp
      rw [hst] at hp
      simp only [Bool.false_eq_true, if_false, Lay.len, hd, prod, Nat.mul_one] at hp
      exact hp
    unfold RowsMoved
    rw [hd, hst]
    simp only [inC, List.mem_singleton]
    intro i hi o ho b hb
    subst ho
    have key := flat_items hf i b hi hb (fun p => M' (base + p)) (fun p => M (base + p)) (fun v hv p hw => (g p).1 v hv hw)
      (fun p h0 hlt hn => (g p).2 h0 (by simpa [Lay.len, hd, prod] using hlt) hn)
    have e1 : base + (i : Int) * (a.lay.item : Int) + 0 + b = base + ((i * a.lay.item + b : Nat) : Int) := by
      simp only [Int.natCast_add, Int.natCast_mul]
      omega
    rw [e1, key]
    by_cases hj : 0 ≤ i + k ∧ i + k < n
    · rw [if_pos hj, if_pos hj]
      congr 1
      have : ((((i : Int) + k).toNat : Nat) : Int) = i + k := by omega
      simp only [Int.natCast_add, Int.natCast_mul, this]
      omega
    · rw [if_neg hj, if_neg hj]
  | two n c hn h0 hd hst =>
    have hlt : (a.lay.item : Int) < ((n * a.lay.item : Nat) : Int) := by
      have := Nat.mul_le_mul_right a.lay.item hn
      omega
    have hf : columns n c a.lay.item k = some vs := by
      unfold plan isFortran at hp
      rw [hst] at hp
      simp only [decide_eq_true hlt, if_true, hd] at hp
      exact hp
    unfold RowsMoved
    rw [hd, hst]
    simp only
    intro i hi o ho b hb
    rw [Info.inC_one] at ho
    obtain ⟨j, hj, rfl⟩ := List.mem_map.1 ho
    have hj := List.mem_range.1 hj
    have key := column_items hf i j b hi hj hb (fun p => M' (base + p)) (fun p => M (base + p)) (fun v hv p hw => (g p).1 v hv hw)
      (fun p h0 hlt hn => (g p).2 h0 (by
        have e : a.lay.len * a.lay.item = c * (n * a.lay.item) := by
          simp only [Lay.len, hd, prod, Nat.mul_one]
          rw [Nat.mul_comm n c, Nat.mul_assoc]
        rw [e]
        exact hlt) hn)
    have ez : (j : Int) * ((n * a.lay.item : Nat) : Int) = ((j * (n * a.lay.item) : Nat) : Int) := by simp
    rw [ez]
    have e1 : base + (i : Int) * (a.lay.item : Int) + ((j * (n * a.lay.item) : Nat) : Int) + b = base + ((i * a.lay.item + j * (n * a.lay.item) + b : Nat) : Int) := by
      have : (i : Int) * (a.lay.item : Int) = ((i * a.lay.item : Nat) : Int) := by simp
      rw [this]
      omega
    rw [e1, key]
    by_cases hj : 0 ≤ i + k ∧ i + k < n
    · rw [if_pos hj, if_pos hj]
      congr 1
      have e2 : ((i : Int) + k) * (a.lay.item : Int) = ((((i : Int) + k).toNat * a.lay.item : Nat) : Int) := by
        have : ((((i : Int) + k).toNat : Nat) : Int) = i + k := by omega
        rw [Int.natCast_mul, this]
      rw [e2]
      omega
    · rw [if_neg hj, if_neg hj]

/-- **C155.** What the code does with an array in C order with any number of dimensions: it moves items, not rows. For one dimension that is the same. -/
theorem flat_order (threads : Bool) (room : Nat → Bool) (M : Mem) (a : Arr) (base k : Int) (hk : -(2 ^ 63) ≤ k ∧ k < 2 ^ 63) (ht : a.type ≤ 20)
    (hc : a.lay.cContig = true) (hs : ∃ s ss, a.lay.strides = s :: ss ∧ (a.lay.dims.length = 1 → s = a.lay.item)) (hf : isFortran a.lay = false)
    (hsm : a.lay.len + k.natAbs < 2 ^ 63) (hth : There M a.lay base) :
    ∃ M', shift threads true room M (.one a base) k [0] = .done M' ∧ ItemsMoved a.lay base k M M' ∧ ∀ p, ¬ Inside a.lay base p → M' p = M p := by
  obtain ⟨vs, hvs⟩ : ∃ vs, flat a.lay.len a.lay.item k = some vs := by
    unfold flat
    rw [if_pos ((fits_iff _).2 (by omega))]
    split <;> exact ⟨_, rfl⟩
  have hp : plan a.lay k = some vs := by
    unfold plan
    rw [hf]
    exact hvs
  obtain ⟨M', h1, h2, h3⟩ := shift_each threads room M [.array a base] k [0] ((fits_iff k).2 hk)
    (by
      intro x hx
      rw [List.mem_singleton.1 hx]
      exact .inr ⟨a, base, vs, rfl, by simp [hc], ht, hs, hp, hth⟩)
    (by simp [Separate]) (by exact .refl _)
  refine ⟨M', h1, ?_, fun p hn => h3 p (by simp only [List.mem_singleton]; rintro b c e; cases e; exact hn)⟩
  have g := h2 a base vs (by simp) hp
  intro i hi b hb
  have key := flat_items hvs i b hi hb (fun p => M' (base + p)) (fun p => M (base + p)) (fun v hv p hw => (g p).1 v hv hw)
    (fun p h0 hlt hn => (g p).2 h0 hlt hn)
  have e1 : base + (i : Int) * (a.lay.item : Int) + b = base + ((i * a.lay.item + b : Nat) : Int) := by
    simp only [Int.natCast_add, Int.natCast_mul]
    omega
  rw [e1, key]
  by_cases hj : 0 ≤ i + k ∧ i + k < a.lay.len
  · rw [if_pos hj, if_pos hj]
    congr 1
    have : ((((i : Int) + k).toNat : Nat) : Int) = i + k := by omega
    simp only [Int.natCast_add, Int.natCast_mul, this]
    omega
  · rw [if_neg hj, if_neg hj]

/-- **C155.** Whatever is passed, and also when arrays overlap: only bytes of arrays of the list which are contiguous change. -/
theorem shift_frame (threads table : Bool) (room : Nat → Bool) (M M' : Mem) (g : Given) (k : Int) (order : List Nat)
    (h : shift threads table room M g k order = .done M') (p : Int)
    (hp : ∀ l a base, g.list = some l → .array a base ∈ l → (a.lay.cContig || a.lay.fContig) = true → ¬ Inside a.lay base p) : M' p = M p := by
  unfold shift at h
  split at h
  · split at h
    · cases h
    · rename_i l hl
      split at h
      · cases h
      · cases h
      · cases h
      · split at h
        · cases h
        · rename_i ls hls
          unfold runJobs at h
          split at h
          · cases h
          · split at h
            · cases h
            · rename_i N hN
              cases h
              refine moves_only _ M M' hN p ?_
              intro v hv hw
              obtain ⟨i, _, hv⟩ := List.mem_flatMap.1 hv
              have : ls.getD i [] ∈ ls := by
                rw [List.getD_eq_getElem?_getD] at hv ⊢
                cases e : ls[i]? with
                | none => rw [e] at hv; simp at hv
                | some r => exact List.mem_of_getElem? e
              obtain ⟨x, hx, e⟩ := mapM_mem hls _ this
              obtain ⟨a, base, rfl, hc, hi⟩ := (moves_stays e).2 v hv p (.inl hw)
              exact hp l a base hl hx hc hi
  · cases h

end Riptide.Nums.Shift
