import Verif.Quick.Part
/-! Heapsort. -/
namespace Riptide.Quick
open Riptide.Sort (wr)
open Riptide.Sort.Spec (Weak)

variable {α : Type} {P : α → Prop} {lt : α → α → Bool}

/-- The value of node `k`. -/
def nd (d : α) (base : Nat) (a : List α) (k : Nat) : α := a.getD (base + k - 1) d

/-- Every node from `2 * lo` on is not above its parent. -/
def HeapFrom (lt : α → α → Bool) (d : α) (base n lo : Nat) (a : List α) : Prop :=
  ∀ k, k ≤ n → lo ≤ k / 2 → lt (nd d base a (k / 2)) (nd d base a k) = false

theorem wr_some (a : List α) {p : Nat} (x : α) (h : p < a.length) : wr a p x = some (a.set p x) := by
  unfold wr; rw [if_pos h]

theorem nd_set (d : α) (base : Nat) (a : List α) {i : Nat} (x : α) (hi : 1 ≤ i) (h : base + i ≤ a.length) {k : Nat}
    (hk : 1 ≤ k) : nd d base (a.set (base + i - 1) x) k = if i = k then x else nd d base a k := by
  unfold nd
  rw [getD_set a d x (by omega)]
  by_cases e : i = k
  · rw [if_pos e, if_pos (by omega)]
  · rw [if_neg e, if_neg (by omega)]

theorem child_spec (W : Weak P lt) (d : α) (base n : Nat) (a : List α) (hP : AllP P a) (hn : base + n ≤ a.length)
    (i : Nat) (hi : 1 ≤ i) (hj : 2 * i ≤ n) :
    ∃ c, child lt base n a (2 * i) = some (c, nd d base a c) ∧ c ≤ n ∧ c / 2 = i ∧
      ∀ k, k ≤ n → k / 2 = i → lt (nd d base a c) (nd d base a k) = false := by
  have hPn : ∀ k, 1 ≤ k → k ≤ n → P (nd d base a k) := fun k h1 h2 => hP.getD d (by omega)
  unfold child
  rw [getD_some a d (show base + 2 * i - 1 < a.length by omega), Option.bind_some]
  change ∃ c, (if 2 * i < n then (a[base + (2 * i + 1) - 1]?.map fun y => if lt (nd d base a (2 * i)) y = true then (2 * i + 1, y) else (2 * i, nd d base a (2 * i))) else some (2 * i, nd d base a (2 * i))) = _ ∧ _
  by_cases h : 2 * i < n
  · rw [if_pos h, getD_some a d (show base + (2 * i + 1) - 1 < a.length by omega), Option.map_some]
    change ∃ c, some (if lt (nd d base a (2 * i)) (nd d base a (2 * i + 1)) = true then (2 * i + 1, nd d base a (2 * i + 1)) else (2 * i, nd d base a (2 * i))) = _ ∧ _
    have two : ∀ k, k / 2 = i → k = 2 * i ∨ k = 2 * i + 1 := fun k hk => by omega
    cases e : lt (nd d base a (2 * i)) (nd d base a (2 * i + 1)) with
    | true =>
      refine ⟨2 * i + 1, by rw [if_pos rfl], by omega, by omega, fun k k1 k2 => ?_⟩
      rcases two k k2 with hk | hk <;> rw [hk]
      · exact W.asymm _ _ (hPn _ (by omega) (by omega)) (hPn _ (by omega) (by omega)) e
      · exact irrefl W (hPn _ (by omega) (by omega))
    | false =>
      refine ⟨2 * i, by rw [if_neg (by simp)], by omega, by omega, fun k k1 k2 => ?_⟩
      rcases two k k2 with hk | hk <;> rw [hk]
      · exact irrefl W (hPn _ (by omega) (by omega))
      · exact e
  · rw [if_neg h]
    refine ⟨2 * i, rfl, by omega, by omega, fun k k1 k2 => ?_⟩
    rw [show k = 2 * i by omega]
    exact irrefl W (hPn _ (by omega) (by omega))

/-- Sifting down: `v`, the array with `tmp` at node `i`, is a heap from `lo` except that `tmp` may be below
its children. -/
theorem sift_spec (W : Weak P lt) (d : α) (base n lo : Nat) (tmp : α) (hlo : 1 ≤ lo) :
    ∀ (fuel i : Nat) (a : List α), AllP P (a.set (base + i - 1) tmp) → base + n ≤ a.length → lo ≤ i → i ≤ n →
      n + 1 - i ≤ fuel →
      (∀ k, k ≤ n → lo ≤ k / 2 → k / 2 ≠ i →
        lt (nd d base (a.set (base + i - 1) tmp) (k / 2)) (nd d base (a.set (base + i - 1) tmp) k) = false) →
      (lo ≤ i / 2 → ∀ c, c ≤ n → c / 2 = i →
        lt (nd d base (a.set (base + i - 1) tmp) (i / 2)) (nd d base (a.set (base + i - 1) tmp) c) = false) →
      ∃ b, sift lt base n tmp fuel i (2 * i) a = some b ∧ SegOp base (base + n) (a.set (base + i - 1) tmp) b ∧
        HeapFrom lt d base n lo b := by
  intro fuel
  induction fuel with
  | zero => intro i a _ _ _ h h'; omega
  | succ fuel ih =>
    intro i a hP hn h1 h2 h3 hA hB
    have hsame : ∀ k, 1 ≤ k → k ≠ i → nd d base (a.set (base + i - 1) tmp) k = nd d base a k := fun k k1 k2 => by
      rw [nd_set d base a tmp (by omega) (by omega) k1, if_neg (Ne.symm k2)]
    have htmp : nd d base (a.set (base + i - 1) tmp) i = tmp := by
      rw [nd_set d base a tmp (by omega) (by omega) (by omega), if_pos rfl]
    have hPn : ∀ k, 1 ≤ k → k ≤ n → P (nd d base (a.set (base + i - 1) tmp) k) := fun k k1 k2 =>
      hP.getD d (by rw [List.length_set]; omega)
    unfold sift
    by_cases hj : 2 * i ≤ n
    · rw [if_pos hj]
      have hch : child lt base n a (2 * i) = child lt base n (a.set (base + i - 1) tmp) (2 * i) := by
        unfold child
        rw [List.getElem?_set_ne (by omega)]
        congr 1
        funext x
        by_cases h : 2 * i < n
        · rw [if_pos h, if_pos h, List.getElem?_set_ne (by omega)]
        · rw [if_neg h, if_neg h]
      obtain ⟨c, c1, c2, c3, c4⟩ := child_spec W d base n (a.set (base + i - 1) tmp) hP
        (by rw [List.length_set]; exact hn) i (by omega) hj
      rw [hch, c1, Option.bind_some]
      dsimp only
      generalize hx : nd d base (a.set (base + i - 1) tmp) c = x at *
      have hPx : P x := by rw [← hx]; exact hPn c (by omega) c2
      have hPt : P tmp := by rw [← htmp]; exact hPn i (by omega) h2
      cases e : lt tmp x with
      | false =>
        rw [if_neg (by simp), wr_some a tmp (by omega)]
        refine ⟨_, rfl, SegOp.refl _ _ _, fun k k1 k2 => ?_⟩
        by_cases hk : k / 2 = i
        · rw [hk, htmp]
          exact W.trans _ x tmp (hPn k (by omega) k1) hPx hPt (c4 k k1 hk) e
        · exact hA k k1 k2 hk
      | true =>
        rw [if_pos rfl, wr_some a x (by omega), Option.bind_some, ← Nat.two_mul]
        have hac : nd d base a c = x := by rw [← hx]; exact (hsame c (by omega) (by omega)).symm
        have hv' : ∀ k, 1 ≤ k → nd d base ((a.set (base + i - 1) x).set (base + c - 1) tmp) k =
            if k = c then tmp else if k = i then x else nd d base (a.set (base + i - 1) tmp) k := by
          intro k k1
          rw [nd_set d base _ tmp (by omega) (by rw [List.length_set]; omega) k1,
            nd_set d base a x (by omega) (by omega) k1]
          by_cases e1 : k = c
          · rw [if_pos e1.symm, if_pos e1]
          · rw [if_neg (Ne.symm e1), if_neg e1]
            by_cases e2 : k = i
            · rw [if_pos e2.symm, if_pos e2]
            · rw [if_neg (Ne.symm e2), if_neg e2, hsame k k1 e2]
        have hso : SegOp base (base + n) (a.set (base + i - 1) tmp) ((a.set (base + i - 1) x).set (base + c - 1) tmp) := by
          refine ⟨by simp, fun p hp => ?_, ?_⟩
          · rw [List.getElem?_set_ne (by omega), List.getElem?_set_ne (by omega), List.getElem?_set_ne (by omega)]
          · have hh := set_swap_perm (a.set (base + i - 1) tmp) d (base + i - 1) (base + c - 1)
              (by rw [List.length_set]; omega) (by rw [List.length_set]; omega)
            have hx' : (a.set (base + i - 1) tmp).getD (base + c - 1) d = x := hx
            have ht' : (a.set (base + i - 1) tmp).getD (base + i - 1) d = tmp := htmp
            rw [hx', ht', List.set_set] at hh
            exact hh
        obtain ⟨b, b1, b2, b3⟩ := ih c (a.set (base + i - 1) x) (hP.perm hso.perm) (by rw [List.length_set]; omega)
          (by omega) c2 (by omega)
          (fun k k1 k2 k3 => by
            rw [hv' (k / 2) (by omega), hv' k (by omega), if_neg k3]
            by_cases ki : k = i
            · rw [if_neg (show ¬ k / 2 = i by omega), if_neg (show ¬ k = c by omega), if_pos ki, ki]
              rw [← hx]
              exact hB (by rw [ki] at k2; exact k2) c c2 c3
            · by_cases kc : k = c
              · rw [if_pos kc, if_pos (show k / 2 = i by omega)]
                exact W.asymm _ _ hPt hPx e
              · rw [if_neg kc, if_neg ki]
                by_cases kp : k / 2 = i
                · rw [if_pos kp]; exact c4 k k1 kp
                · rw [if_neg kp]; exact hA k k1 k2 kp)
          (fun _ c' e1 e2 => by
            rw [hv' (c / 2) (by omega), hv' c' (by omega), if_neg (show ¬ c / 2 = c by omega), if_pos c3,
              if_neg (show ¬ c' = c by omega), if_neg (show ¬ c' = i by omega), ← hx, ← e2]
            exact hA c' e1 (by omega) (by omega))
        exact ⟨b, b1, hso.trans b2, b3⟩
    · rw [if_neg hj, wr_some a tmp (by omega)]
      exact ⟨_, rfl, SegOp.refl _ _ _, fun k k1 k2 => hA k k1 k2 (by omega)⟩

theorem set_self (a : List α) (d : α) {i : Nat} (h : i < a.length) : a.set i (a.getD i d) = a := by
  apply List.ext_getElem?
  intro p
  rw [List.getElem?_set]
  by_cases e : i = p
  · rw [if_pos e, if_pos h, ← e, getD_some a d h]
  · rw [if_neg e]

theorem build_spec (W : Weak P lt) (d : α) (base n : Nat) :
    ∀ (l : Nat) (a : List α), AllP P a → base + n ≤ a.length → l ≤ n → HeapFrom lt d base n (l + 1) a →
      ∃ b, build lt base n l a = some b ∧ SegOp base (base + n) a b ∧ HeapFrom lt d base n 1 b := by
  intro l
  induction l with
  | zero => intro a _ _ _ h; exact ⟨a, rfl, SegOp.refl _ _ a, h⟩
  | succ l ih =>
    intro a hP hn hl h
    unfold build
    rw [getD_some a d (show base + (l + 1) - 1 < a.length by omega), Option.bind_some]
    have hs := set_self a d (show base + (l + 1) - 1 < a.length by omega)
    obtain ⟨b, b1, b2, b3⟩ := sift_spec W d base n (l + 1) (a.getD (base + (l + 1) - 1) d) (by omega) (n + 1) (l + 1) a
      (by rw [hs]; exact hP) hn (Nat.le_refl _) hl (by omega)
      (fun k k1 k2 k3 => by rw [hs]; exact h k k1 (by omega)) (fun k => by omega)
    rw [hs] at b2
    rw [b1, Option.bind_some]
    obtain ⟨c, c1, c2, c3⟩ := ih b (hP.perm b2.perm) (by rw [b2.len]; exact hn) (by omega) b3
    exact ⟨c, c1, b2.trans c2, c3⟩

/-- The root of a heap is its largest element. -/
theorem root_max (W : Weak P lt) (d : α) (base n : Nat) (a : List α) (hP : AllP P a) (hn : base + n ≤ a.length)
    (h : HeapFrom lt d base n 1 a) : ∀ k, 1 ≤ k → k ≤ n → lt (nd d base a 1) (nd d base a k) = false := by
  have hPn : ∀ k, 1 ≤ k → k ≤ n → P (nd d base a k) := fun k h1 h2 => hP.getD d (by omega)
  intro k
  induction k using Nat.strongRecOn with
  | ind k ih =>
    intro h1 h2
    by_cases e : k = 1
    · rw [e]; exact irrefl W (hPn 1 (by omega) (by omega))
    · exact W.trans _ _ _ (hPn k h1 h2) (hPn (k / 2) (by omega) (by omega)) (hPn 1 (by omega) (by omega))
        (h k h2 (by omega)) (ih (k / 2) (by omega) (by omega) (by omega))

/-- The draining loop: `n` elements are a heap, those behind are in order and not below them. -/
theorem drain_spec (W : Weak P lt) (d : α) (base N : Nat) :
    ∀ (n : Nat) (a : List α), AllP P a → base + N ≤ a.length → n ≤ N → HeapFrom lt d base n 1 a →
      (∀ p q, base ≤ p → p < q → q < base + N → base + n ≤ q → lt (a.getD q d) (a.getD p d) = false) →
      ∃ b, drain lt base n a = some b ∧ SegOp base (base + n) a b ∧
        ∀ p q, base ≤ p → p < q → q < base + N → lt (b.getD q d) (b.getD p d) = false := by
  intro n
  induction n with
  | zero => intro a _ _ _ _ h; exact ⟨a, rfl, SegOp.refl _ _ a, fun p q h1 h2 h3 => h p q h1 h2 h3 (by omega)⟩
  | succ n ih =>
    intro a hP hN hn hH hT
    unfold drain
    by_cases h1 : 1 < n + 1
    · rw [if_pos h1, getD_some a d (show base + (n + 1) - 1 < a.length by omega), Option.bind_some,
        getD_some a d (show base + 1 - 1 < a.length by omega), Option.bind_some,
        wr_some a _ (by omega), Option.bind_some]
      have hso : SegOp base (base + (n + 1)) a
          ((a.set (base + (n + 1) - 1) (a.getD (base + 1 - 1) d)).set (base + 1 - 1) (a.getD (base + (n + 1) - 1) d)) := by
        refine ⟨by simp, fun p hp => ?_, set_swap_perm a d _ _ (by omega) (by omega)⟩
        rw [List.getElem?_set_ne (by omega), List.getElem?_set_ne (by omega)]
      have hv : ∀ k, 1 ≤ k → nd d base ((a.set (base + (n + 1) - 1) (a.getD (base + 1 - 1) d)).set (base + 1 - 1)
          (a.getD (base + (n + 1) - 1) d)) k =
          if 1 = k then nd d base a (n + 1) else if n + 1 = k then nd d base a 1 else nd d base a k := by
        intro k k1
        rw [nd_set d base _ _ (Nat.le_refl 1) (by rw [List.length_set]; omega) k1,
          nd_set d base a _ (by omega) (by omega) k1]
        rfl
      obtain ⟨b, b1, b2, b3⟩ := sift_spec W d base n 1 (a.getD (base + (n + 1) - 1) d) (Nat.le_refl 1) (n + 1) 1
        (a.set (base + (n + 1) - 1) (a.getD (base + 1 - 1) d)) (hP.perm hso.perm) (by rw [List.length_set]; omega)
        (Nat.le_refl 1) (by omega) (by omega)
        (fun k k1 k2 k3 => by
          rw [hv _ (by omega), hv _ (by omega), if_neg (by omega), if_neg (by omega), if_neg (by omega), if_neg (by omega)]
          exact hH k (by omega) k2)
        (fun h => by omega)
      rw [show (2 : Nat) = 2 * 1 from rfl, b1, Option.bind_some]
      have hab : SegOp base (base + (n + 1)) a b := hso.trans (b2.mono (Nat.le_refl _) (by omega))
      have root := root_max W d base (n + 1) a hP (by omega) hH
      obtain ⟨c, c1, c2, c3⟩ := ih b (hP.perm hab.perm) (by rw [hab.len]; exact hN) (by omega) b3
        (fun p q p1 p2 p3 p4 => by
          by_cases hq : q = base + n
          · rw [hq, b2.getD_out d (.inr (Nat.le_refl _))]
            have e1 := hv (n + 1) (by omega)
            rw [if_neg (by omega), if_pos rfl] at e1
            unfold nd at e1
            rw [show base + (n + 1) - 1 = base + n by omega] at e1
            rw [show base + (n + 1) - 1 = base + n by omega, e1]
            obtain ⟨k, k1, k2, k3⟩ := hab.getD_in d (by omega) p1 (show p < base + (n + 1) by omega)
            rw [k3]
            have := root (k + 1 - base) (by omega) (by omega)
            unfold nd at this
            rw [show base + (k + 1 - base) - 1 = k by omega] at this
            exact this
          · rw [hab.getD_out d (.inr (show base + (n + 1) ≤ q by omega))]
            by_cases hp : base + (n + 1) ≤ p
            · rw [hab.getD_out d (.inr hp)]; exact hT p q p1 p2 p3 (by omega)
            · obtain ⟨k, k1, k2, k3⟩ := hab.getD_in d (by omega) p1 (show p < base + (n + 1) by omega)
              rw [k3]
              exact hT k q k1 (by omega) p3 (by omega))
      exact ⟨c, c1, hab.trans (c2.mono (Nat.le_refl _) (by omega)), c3⟩
    · rw [if_neg h1]
      exact ⟨a, rfl, SegOp.refl _ _ a, fun p q p1 p2 p3 => hT p q p1 p2 p3 (by omega)⟩

/-- Heapsort of a segment. -/
theorem heapsortAt_spec (W : Weak P lt) (d : α) (base n : Nat) (a : List α) (hP : AllP P a) (hn : base + n ≤ a.length) :
    ∃ b, heapsortAt lt base n a = some b ∧ SegOp base (base + n) a b ∧
      ∀ p q, base ≤ p → p < q → q < base + n → lt (b.getD q d) (b.getD p d) = false := by
  unfold heapsortAt
  obtain ⟨b, b1, b2, b3⟩ := build_spec W d base n (n / 2) a hP hn (by omega) (fun k k1 k2 => by omega)
  rw [b1, Option.bind_some]
  obtain ⟨c, c1, c2, c3⟩ := drain_spec W d base n n b (hP.perm b2.perm) (by rw [b2.len]; exact hn) (Nat.le_refl _) b3
    (fun p q _ _ h3 h4 => by omega)
  exact ⟨c, c1, b2.trans c2, c3⟩

end Riptide.Quick
