import Verif.Quick.Lemmas
/-! The partition step of quicksort. -/
namespace Riptide.Quick
open Riptide.Sort.Spec (Weak)

variable {α : Type} {P : α → Prop} {lt : α → α → Bool}

theorem irrefl (W : Weak P lt) {x : α} (h : P x) : lt x x = false := by
  cases e : lt x x with
  | false => rfl
  | true => rw [← e, W.asymm x x h h e]

/-- The upward scan stops at or before an element not below the pivot. -/
theorem up_spec (a : List α) (d vp : α) (q : Nat) (hq : q < a.length) (hs : lt (a.getD q d) vp = false) :
    ∀ (fuel p : Nat), p < q → q - p ≤ fuel →
      ∃ p', up lt vp a fuel p = some p' ∧ p < p' ∧ p' ≤ q ∧ lt (a.getD p' d) vp = false ∧
        ∀ k, p < k → k < p' → lt (a.getD k d) vp = true := by
  intro fuel
  induction fuel with
  | zero => intro p h1 h2; omega
  | succ fuel ih =>
    intro p h1 h2
    unfold up
    rw [getD_some a d (show p + 1 < a.length by omega), Option.bind_some]
    cases e : lt (a.getD (p + 1) d) vp with
    | false => exact ⟨p + 1, by rw [if_neg (by simp)], by omega, by omega, e, fun k _ _ => by omega⟩
    | true =>
      rw [if_pos rfl]
      have hne : p + 1 ≠ q := fun h => by rw [h, hs] at e; cases e
      obtain ⟨p', e1, e2, e3, e4, e5⟩ := ih (p + 1) (by omega) (by omega)
      refine ⟨p', e1, by omega, e3, e4, fun k k1 k2 => ?_⟩
      by_cases hk : k = p + 1
      · rw [hk, e]
      · exact e5 k (by omega) k2

/-- The downward scan stops at or after an element not above the pivot. -/
theorem down_spec (a : List α) (d vp : α) (q : Nat) (hs : lt vp (a.getD q d) = false) :
    ∀ p : Nat, q < p → p ≤ a.length →
      ∃ p', down lt vp a p = some p' ∧ p' < p ∧ q ≤ p' ∧ lt vp (a.getD p' d) = false ∧
        ∀ k, p' < k → k < p → lt vp (a.getD k d) = true := by
  intro p
  induction p with
  | zero => intro h; omega
  | succ p ih =>
    intro h1 h2
    unfold down
    rw [getD_some a d (show p < a.length by omega), Option.bind_some]
    cases e : lt vp (a.getD p d) with
    | false => exact ⟨p, by rw [if_neg (by simp)], by omega, by omega, e, fun k _ _ => by omega⟩
    | true =>
      rw [if_pos rfl]
      have hne : p ≠ q := fun h => by rw [h, hs] at e; cases e
      obtain ⟨p', e1, e2, e3, e4, e5⟩ := ih (by omega) (by omega)
      refine ⟨p', e1, by omega, e3, e4, fun k k1 k2 => ?_⟩
      by_cases hk : k = p
      · rw [hk, e]
      · exact e5 k k1 (by omega)

/-- The partition loop: from `pi < pj` with everything up to `pi` not above the pivot and everything from
`pj` on not below it. -/
theorem partLoop_spec (W : Weak P lt) (d vp : α) (hv : P vp) (l r : Nat) :
    ∀ (fuel : Nat) (a : List α) (pi pj : Nat), AllP P a → l ≤ pi → pi < pj → pj ≤ r → r < a.length →
      pj - pi ≤ fuel →
      (∀ k, l ≤ k → k ≤ pi → lt vp (a.getD k d) = false) →
      (∀ k, pj ≤ k → k ≤ r → lt (a.getD k d) vp = false) →
      ∃ b m, partLoop lt vp fuel a pi pj = some (b, m) ∧ SegOp (pi + 1) pj a b ∧ pi < m ∧ m ≤ pj ∧
        (∀ k, l ≤ k → k < m → lt vp (b.getD k d) = false) ∧
        (∀ k, m ≤ k → k ≤ r → lt (b.getD k d) vp = false) := by
  intro fuel
  induction fuel with
  | zero => intro a pi pj _ _ h _ _ h'; omega
  | succ fuel ih =>
    intro a pi pj hP h1 h2 h3 h4 h5 hL hR
    unfold partLoop
    obtain ⟨p', u1, u2, u3, u4, u5⟩ := up_spec a d vp pj (by omega) (hR pj (Nat.le_refl _) h3) a.length pi h2 (by omega)
    obtain ⟨q', d1, d2, d3, d4, d5⟩ := down_spec a d vp pi (hL pi h1 (Nat.le_refl _)) pj h2 (by omega)
    rw [u1, Option.bind_some, d1, Option.bind_some]
    by_cases hpq : q' ≤ p'
    · rw [if_pos hpq]
      refine ⟨a, p', rfl, SegOp.refl _ _ a, u2, u3, fun k k1 k2 => ?_, fun k k1 k2 => ?_⟩
      · by_cases hk : k ≤ pi
        · exact hL k k1 hk
        · exact W.asymm _ _ (hP.getD d (by omega)) hv (u5 k (by omega) k2)
      · by_cases hk : pj ≤ k
        · exact hR k hk k2
        · by_cases hk' : k = p'
          · rw [hk']; exact u4
          · exact W.asymm _ _ hv (hP.getD d (by omega)) (d5 k (by omega) (by omega))
    · rw [if_neg hpq]
      obtain ⟨b, s1, s2, s3, s4⟩ := swap_spec a d p' q' (by omega) (by omega)
      rw [s1, Option.bind_some]
      have so := s4 (pi + 1) pj (by omega) (by omega) (by omega) (by omega)
      obtain ⟨c, m, r1, r2, r3, r4, r5, r6⟩ := ih b p' q' (hP.perm so.perm) (by omega) (by omega) (by omega) (by omega) (by omega)
        (fun k k1 k2 => by
          rw [s3 k, if_neg (by omega)]
          by_cases hk : k = p'
          · rw [if_pos hk]; exact d4
          · rw [if_neg hk]
            by_cases hk' : k ≤ pi
            · exact hL k k1 hk'
            · exact W.asymm _ _ (hP.getD d (by omega)) hv (u5 k (by omega) (by omega)))
        (fun k k1 k2 => by
          rw [s3 k]
          by_cases hk : k = q'
          · rw [if_pos hk]; exact u4
          · rw [if_neg hk, if_neg (by omega)]
            by_cases hk' : pj ≤ k
            · exact hR k hk' k2
            · exact W.asymm _ _ hv (hP.getD d (by omega)) (d5 k (by omega) (by omega)))
      exact ⟨c, m, r1, so.trans (r2.mono (by omega) (by omega)), by omega, by omega, r5, r6⟩

/-- The partition of a segment of at least three elements. -/
theorem partition_spec (W : Weak P lt) (d : α) (a : List α) (hP : AllP P a) (l r : Nat) (h1 : l + 2 ≤ r)
    (h2 : r < a.length) :
    ∃ b m, partition lt a l r = some (b, m) ∧ SegOp l (r + 1) a b ∧ l < m ∧ m < r ∧
      (∀ k, l ≤ k → k < m → lt (b.getD m d) (b.getD k d) = false) ∧
      (∀ k, m < k → k ≤ r → lt (b.getD k d) (b.getD m d) = false) := by
  obtain ⟨b, e1, e2, e3, e4, e5⟩ := median_spec W a d hP l (l + (r - l) / 2) r (by omega) (by omega) h2
  have hPb := hP.perm e3.perm
  have hmid : l < l + (r - l) / 2 ∧ l + (r - l) / 2 ≤ r - 1 := by omega
  generalize hm : l + (r - l) / 2 = mid at *
  have hvp : P (b.getD mid d) := hPb.getD d (by omega)
  obtain ⟨c, s1, s2, s3, s4⟩ := swap_spec b d mid (r - 1) (by omega) (by omega)
  have so := s4 l (r + 1) (by omega) (by omega) (by omega) (by omega)
  have hPc := hPb.perm so.perm
  obtain ⟨f, m, r1, r2, r3, r4, r5, r6⟩ := partLoop_spec W d (b.getD mid d) hvp l r c.length c l (r - 1) hPc
    (Nat.le_refl _) (by omega) (by omega) (by omega) (by omega)
    (fun k k1 k2 => by
      rw [show k = l by omega, s3 l, if_neg (by omega), if_neg (by omega)]; exact e4)
    (fun k k1 k2 => by
      rw [s3 k]
      by_cases hk : k = r - 1
      · rw [if_pos hk]; exact irrefl W hvp
      · rw [if_neg hk, if_neg (by omega), show k = r by omega]; exact e5)
  have hvr : f.getD (r - 1) d = b.getD mid d := by
    rw [r2.getD_out d (.inr (Nat.le_refl _)), s3, if_pos rfl]
  have hlen : f.length = a.length := by rw [r2.len, s2, e2]
  obtain ⟨g, g1, g2, g3, g4⟩ := swap_spec f d m (r - 1) (by omega) (by omega)
  have gm : g.getD m d = b.getD mid d := by
    rw [g3 m]
    by_cases hk : m = r - 1
    · rw [if_pos hk, hk, hvr]
    · rw [if_neg hk, if_pos rfl, hvr]
  refine ⟨g, m, ?_, (e3.trans so).trans ((r2.mono (by omega) (by omega)).trans
    (g4 l (r + 1) (by omega) (by omega) (by omega) (by omega))), r3, by omega, fun k k1 k2 => ?_, fun k k1 k2 => ?_⟩
  · unfold partition
    rw [hm]
    have : ∀ {β : Type} (F : List α → Option β),
        ((order lt a mid l).bind fun a => (order lt a r mid).bind fun a => (order lt a mid l).bind F) = F b := by
      intro β F
      have := congrArg (fun o => Option.bind o F) e1
      simpa [Option.bind_assoc] using this
    rw [this, getD_some b d (by omega), Option.bind_some, s1, Option.bind_some, r1, Option.bind_some, g1]
    rfl
  · rw [gm, g3 k, if_neg (by omega), if_neg (by omega)]
    exact r5 k k1 k2
  · rw [gm, g3 k]
    by_cases hk : k = r - 1
    · rw [if_pos hk]; exact r6 m (Nat.le_refl _) (by omega)
    · rw [if_neg hk, if_neg (by omega)]; exact r6 k (by omega) k2

end Riptide.Quick
