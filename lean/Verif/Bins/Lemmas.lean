import Verif.Bins.Model
import Verif.Bins.Spec
/-! Lemmas about the two binary searches. -/
namespace Riptide.Bins
open Riptide.Work

/-- The sum of two positions does not overflow. -/
def NoOverflow (o : IT) (n : Nat) : Prop := ∀ f l : Int, 0 ≤ f → f ≤ l → l < n → midOf o f l = some ((f + l) / 2)

theorem noOverflow_outType {n : Nat} (h : n ≤ 2 ^ 30 ∨ (2000000000 < n ∧ n ≤ 2 ^ 62)) :
    NoOverflow (outType n) n := by
  intro f l h0 h1 h2
  unfold midOf
  have h32 : IT.i32.InRange (f + l) ↔ -2147483648 ≤ f + l ∧ f + l ≤ 2147483647 := Iff.rfl
  have h64 : IT.i64.InRange (f + l) ↔ -9223372036854775808 ≤ f + l ∧ f + l ≤ 9223372036854775807 := Iff.rfl
  rcases h with h | ⟨h, h'⟩
  · have hb : (outType n).bits ≤ 32 := by
      unfold outType
      repeat' split
      all_goals first | omega | decide
    rw [if_pos hb, if_pos (h32.2 (by omega))]
  · have hb : (outType n).bits = 64 := by
      unfold outType
      rw [if_pos (by omega), if_pos (by omega), if_pos h]; rfl
    rw [if_neg (show ¬ (outType n).bits ≤ 32 by omega), if_pos (h64.2 (by omega))]

/-- The loop of `searchsorted`: with `low` false on `[0, k)` and true on `[k, n)`, it returns `k`. -/
theorem searchLoop_run {o : IT} {n : Nat} (hov : NoOverflow o n) {low up : Int → Option Bool} {k : Nat}
    (hk : k ≤ n) (hlow : ∀ i : Nat, i < n → low i = some (decide (k ≤ i)))
    (hup : ∀ i : Nat, i < n → up i = some (decide (i < k))) :
    ∀ (fuel f l : Nat), f ≤ l → l < n → f ≤ k → k ≤ l + 1 → l - f < fuel →
      searchLoop o low up fuel f l = some (k : Int)
  | 0, _, _, _, _, _, _, h => absurd h (by omega)
  | fuel + 1, f, l, hfl, hln, hfk, hkl, hfu => by
    unfold searchLoop
    rw [hov f l (by omega) (by omega) (by omega)]
    have hm : ((f : Int) + l) / 2 = (((f + l) / 2 : Nat) : Int) := by omega
    have hmn : (f + l) / 2 < n := by omega
    simp only [Option.bind_some, hm, hlow _ hmn, hup _ hmn]
    by_cases hlt : k ≤ (f + l) / 2
    · simp only [hlt, decide_true, if_true]
      split
      · congr 1; omega
      · have e : (((f + l) / 2 : Nat) : Int) - 1 = (((f + l) / 2 - 1 : Nat) : Int) := by omega
        rw [e]
        exact searchLoop_run hov hk hlow hup fuel f ((f + l) / 2 - 1) (by omega) (by omega) hfk (by omega) (by omega)
    · have hlt' : (f + l) / 2 < k := by omega
      simp only [hlt, hlt', decide_true, decide_false, if_true, if_neg Bool.false_ne_true]
      split
      · congr 1; omega
      · have e : (((f + l) / 2 : Nat) : Int) + 1 = (((f + l) / 2 + 1 : Nat) : Int) := by omega
        rw [e]
        exact searchLoop_run hov hk hlow hup fuel ((f + l) / 2 + 1) l (by omega) hln (by omega) hkl (by omega)

/-- What is known at the end of the loop of the cuts. -/
def Found (n : Nat) (G L : Nat → Prop) (f : Nat) : Prop :=
  f < n ∧ (∀ i, i < f → L i) ∧ (∀ i, f < i → i < n → G i)

/-- The loop of the cuts. -/
theorem cutLoop_run {o : IT} {n : Nat} (hov : NoOverflow o n) {gt lt : Int → Option Bool}
    {G L : Nat → Prop} (hgt : ∀ i : Nat, i < n → ∃ b, gt i = some b ∧ (b = true ↔ G i))
    (hlt : ∀ i : Nat, i < n → ∃ b, lt i = some b ∧ (b = true ↔ L i))
    (hG : ∀ i j, i < j → j < n → ¬ L i → G j) (hL : ∀ i j, i < j → j < n → ¬ G j → L i)
    (hx : ∀ i, i < n → ¬ (G i ∧ L i)) (hlast : ¬ L (n - 1)) :
    ∀ (fuel f l : Nat), f ≤ l → l < n → (∀ i, i < f → L i) → (∀ i, l < i → i < n → G i) → l - f < fuel →
      ∃ r, cutLoop o gt lt fuel f l = some ((r : Nat) : Int) ∧ Found n G L r
  | 0, _, _, _, _, _, _, h => absurd h (by omega)
  | fuel + 1, f, l, hfl, hln, hbelow, habove, hfu => by
    unfold cutLoop
    rw [hov f l (by omega) (by omega) (by omega)]
    have hm : ((f : Int) + l) / 2 = (((f + l) / 2 : Nat) : Int) := by omega
    have hmn : (f + l) / 2 < n := by omega
    obtain ⟨bg, hg1, hg2⟩ := hgt _ hmn
    obtain ⟨bl, hl1, hl2⟩ := hlt _ hmn
    simp only [Option.bind_some, hm, hg1, hl1]
    by_cases hgm : G ((f + l) / 2)
    · have hb : bg = true := hg2.2 hgm
      have hnl : ¬ L ((f + l) / 2) := fun h => hx _ hmn ⟨hgm, h⟩
      simp only [hb, if_true]
      have habove' : ∀ i, (f + l) / 2 ≤ i → i < n → G i := by
        intro i h1 h2
        rcases Nat.lt_or_eq_of_le h1 with h1 | h1
        · exact hG _ _ h1 h2 hnl
        · rw [← h1]; exact hgm
      split
      · exact ⟨f, rfl, by omega, hbelow, fun i h1 h2 => habove' i (by omega) h2⟩
      · have e : (((f + l) / 2 : Nat) : Int) - 1 = (((f + l) / 2 - 1 : Nat) : Int) := by omega
        rw [e]
        exact cutLoop_run hov hgt hlt hG hL hx hlast fuel f ((f + l) / 2 - 1) (by omega) (by omega) hbelow
          (fun i h1 h2 => habove' i (by omega) h2) (by omega)
    · have hb : bg = false := by
        cases bg
        · rfl
        · exact absurd (hg2.1 rfl) hgm
      simp only [hb, if_neg Bool.false_ne_true]
      have hbelow' : ∀ i, i < (f + l) / 2 → L i := fun i hi => hL i _ hi hmn hgm
      by_cases hlm : L ((f + l) / 2)
      · have hb2 : bl = true := hl2.2 hlm
        have hne : (f + l) / 2 ≠ n - 1 := fun h => hlast (h ▸ hlm)
        simp only [hb2, if_true]
        have hbelow'' : ∀ i, i < (f + l) / 2 + 1 → L i := by
          intro i hi
          rcases Nat.lt_or_eq_of_le (Nat.le_of_lt_succ hi) with h | h
          · exact hbelow' i h
          · rw [h]; exact hlm
        have e : (((f + l) / 2 : Nat) : Int) + 1 = (((f + l) / 2 + 1 : Nat) : Int) := by omega
        rw [e]
        split
        · exact ⟨_, rfl, by omega, hbelow'', fun i h1 h2 => habove i (by omega) h2⟩
        · exact cutLoop_run hov hgt hlt hG hL hx hlast fuel ((f + l) / 2 + 1) l (by omega) hln hbelow''
            habove (by omega)
      · have hb2 : bl = false := by
          cases bl
          · rfl
          · exact absurd (hl2.1 rfl) hlm
        simp only [hb2, if_neg Bool.false_ne_true]
        exact ⟨_, rfl, hmn, hbelow', fun i h1 h2 => hG _ _ h1 h2 hlm⟩

/-- The bin made of the position found. -/
theorem cutEdge_run {n : Nat} {le : Int → Option Bool} {G L : Nat → Prop}
    (hle : ∀ i : Nat, i < n → ∃ b, le i = some b ∧ (b = true ↔ ¬ L i))
    (hx : ∀ i, i < n → ¬ (G i ∧ L i)) (hlast : ¬ L (n - 1)) {f : Nat} (h : Found n G L f) :
    ∃ r : Nat, cutEdge le f = some (r : Int) ∧ 0 < r ∧
      ((r = 1 ∧ ¬ L 0) ∨ (r < n ∧ L (r - 1) ∧ ¬ L r)) := by
  obtain ⟨h1, h2, h3⟩ := h
  unfold cutEdge
  by_cases hf : f = 0
  · subst hf
    rw [if_neg (by decide)]
    refine ⟨1, rfl, by omega, ?_⟩
    by_cases hL0 : L 0
    · right
      have hn : 1 < n := by
        rcases Nat.lt_or_ge 1 n with h | h
        · exact h
        · have : n - 1 = 0 := by omega
          rw [this] at hlast; exact absurd hL0 hlast
      exact ⟨hn, hL0, fun h => hx 1 hn ⟨h3 1 (by omega) hn, h⟩⟩
    · exact .inl ⟨rfl, hL0⟩
  · rw [if_pos (by omega)]
    obtain ⟨b, hb1, hb2⟩ := hle f h1
    rw [hb1]
    by_cases hLf : L f
    · have hbf : b = false := by
        cases b
        · rfl
        · exact absurd hLf (hb2.1 rfl)
      have hne : f ≠ n - 1 := fun h => hlast (h ▸ hLf)
      refine ⟨f + 1, by simp [hbf], by omega, .inr ⟨by omega, by simpa using hLf, fun h => ?_⟩⟩
      exact hx (f + 1) (by omega) ⟨h3 _ (by omega) (by omega), h⟩
    · have hbt : b = true := hb2.2 hLf
      exact ⟨f, by simp [hbt], by omega, .inr ⟨h1, h2 _ (by omega), hLf⟩⟩

/-- In a list on which `p` holds up to some position and not after it, the number of elements with `p` is
that position. -/
theorem filter_prefix {α : Type} (p : α → Bool) : ∀ (l : List α), l.Pairwise (fun a b => p b = true → p a = true) →
    ∀ (i : Nat) (x : α), l[i]? = some x → (i < (l.filter p).length ↔ p x = true)
  | [], _, _, _, h => by simp at h
  | a :: l, hp, i, x, h => by
    rw [List.pairwise_cons] at hp
    by_cases ha : p a = true
    · rw [List.filter_cons_of_pos ha, List.length_cons]
      cases i with
      | zero => simp only [List.getElem?_cons_zero, Option.some.injEq] at h; subst h; simp [ha]
      | succ i =>
        rw [List.getElem?_cons_succ] at h
        rw [← filter_prefix p l hp.2 i x h]; omega
    · have hnil : l.filter p = [] := by
        rw [List.filter_eq_nil_iff]
        intro b hb hpb
        exact ha (hp.1 b hb hpb)
      rw [List.filter_cons_of_neg ha, hnil]
      have hx : x ∈ a :: l := List.mem_of_getElem? h
      have : ¬ p x = true := by
        rcases List.mem_cons.1 hx with rfl | hx
        · exact ha
        · intro hpx; exact ha (hp.1 x hx hpx)
      simp [this]

theorem rd_nat {α : Type} (l : List α) (i : Nat) : rd l (i : Int) = l[i]? := by
  unfold rd; rw [if_pos (by omega)]; simp

end Riptide.Bins
