import Verif.Sort.Par
import Verif.Sort.Lemmas
/-! # Invariant of the parallel merge sort -/
namespace Riptide.Sort
open Spec

/-- Block boundary `i` of 8. -/
def bd (n i : Nat) : Nat := (0 :: endPositions n).getD i 0

theorem lt8 {j : Nat} (h : j < 8) : j = 0 ∨ j = 1 ∨ j = 2 ∨ j = 3 ∨ j = 4 ∨ j = 5 ∨ j = 6 ∨ j = 7 := by omega

theorem bd_step (n i : Nat) (h : i < 8) : bd n i ≤ bd n (i + 1) := by
  rcases lt8 h with rfl | rfl | rfl | rfl | rfl | rfl | rfl | rfl <;> simp [bd, endPositions] <;> omega

theorem bd_mono (n : Nat) {i j : Nat} (hij : i ≤ j) (h : j ≤ 8) : bd n i ≤ bd n j := by
  induction j with
  | zero => have : i = 0 := by omega
            rw [this]; exact Nat.le_refl _
  | succ j ih =>
    rcases Nat.lt_or_ge j i with h' | h'
    · have : i = j + 1 := by omega
      rw [this]; exact Nat.le_refl _
    · exact Nat.le_trans (ih h' (by omega)) (bd_step n j (by omega))

theorem bd_end (n : Nat) : bd n 8 = n := by simp [bd, endPositions]

theorem bd_zero (n : Nat) : bd n 0 = 0 := by simp [bd]

theorem segOf_eq (n l j : Nat) (hl : l ≤ 3) (hj : j < 8) :
    segOf (endPositions n) n l j = (bd n (j / 2 ^ l * 2 ^ l), bd n ((j / 2 ^ l + 1) * 2 ^ l)) := by
  have : l = 0 ∨ l = 1 ∨ l = 2 ∨ l = 3 := by omega
  rcases this with rfl | rfl | rfl | rfl <;>
    rcases lt8 hj with rfl | rfl | rfl | rfl | rfl | rfl | rfl | rfl <;> simp [segOf, bd, endPositions]

theorem bd_mid (n l j : Nat) (hl : l < 3) (hj : j < 8) :
    bd n (j / 2 ^ (l + 1) * 2 ^ (l + 1)) +
      (bd n ((j / 2 ^ (l + 1) + 1) * 2 ^ (l + 1)) - bd n (j / 2 ^ (l + 1) * 2 ^ (l + 1))) / 2 =
      bd n ((2 * (j / 2 ^ (l + 1)) + 1) * 2 ^ l) := by
  have : l = 0 ∨ l = 1 ∨ l = 2 := by omega
  rcases this with rfl | rfl | rfl <;>
    rcases lt8 hj with rfl | rfl | rfl | rfl | rfl | rfl | rfl | rfl <;> simp [bd, endPositions]

theorem bitOf_eq (l j : Nat) (hl : l < 3) (hj : j < 8) : bitOf l j = j / 2 ^ l := by
  have : l = 0 ∨ l = 1 ∨ l = 2 := by omega
  rcases this with rfl | rfl | rfl <;>
    rcases lt8 hj with rfl | rfl | rfl | rfl | rfl | rfl | rfl | rfl <;> simp [bitOf]

/-- The buddy of a node. -/
def buddy (k : Nat) : Nat := if k % 2 = 1 then k - 1 else k + 1

theorem buddy_half (k : Nat) : buddy k / 2 = k / 2 := by unfold buddy; split <;> omega

theorem buddy_or {c k : Nat} (h : c / 2 = k / 2) : c = k ∨ c = buddy k := by unfold buddy; split <;> omega

theorem buddyMask_iff (old k : Nat) : buddyMask k = (old &&& buddyMask k) ↔ old.testBit (buddy k) = true := by
  have hm : buddyMask k = 2 ^ buddy k := by
    unfold buddyMask buddy
    split <;> rw [Nat.one_shiftLeft]
  rw [hm]
  constructor
  · intro h
    have := congrArg (fun x => x.testBit (buddy k)) h
    simp only [Nat.testBit_and, Nat.testBit_two_pow_self, Bool.and_true] at this
    exact this.symm
  · intro h
    apply Nat.eq_of_testBit_eq
    intro i
    rw [Nat.testBit_and, Nat.testBit_two_pow]
    by_cases hi : buddy k = i
    · subst hi; simp [h]
    · simp [hi]

/-- Reached level `l` or higher. -/
def Pc.reached : Pc → Nat → Prop
  | .todo, _ => False
  | .work m, l => l ≤ m
  | .post m, l => l ≤ m
  | .done m, l => l ≤ m

/-- The work at level `l` is done. -/
def Pc.finished : Pc → Nat → Prop
  | .todo, _ => False
  | .work m, l => l < m
  | .post m, l => l ≤ m
  | .done m, l => l ≤ m

/-- The bit at level `l` is set. -/
def Pc.passed : Pc → Nat → Prop
  | .todo, _ => False
  | .work m, l => l < m
  | .post m, l => l < m
  | .done m, l => l ≤ m

/-- Levels stay within the tree. -/
def Pc.lvOk : Pc → Prop
  | .todo => True
  | .work l => l ≤ 3
  | .post l => l < 3
  | .done l => l ≤ 3

theorem Pc.finished_reached {p : Pc} {l : Nat} (h : p.finished l) : p.reached l := by
  cases p <;> simp only [Pc.finished, Pc.reached] at * <;> omega

theorem Pc.passed_finished {p : Pc} {l : Nat} (h : p.passed l) : p.finished l := by
  cases p <;> simp only [Pc.finished, Pc.passed] at * <;> omega

theorem Pc.reached_mono {p : Pc} {l m : Nat} (h : p.reached l) (hm : m ≤ l) : p.reached m := by
  cases p <;> simp only [Pc.reached] at * <;> omega

variable {α : Type} {P : α → Prop} {lt : α → α → Bool}

/-- Some job reached / finished / passed node `k` of level `l`. -/
def Reached (s : ParState α) (l k : Nat) : Prop := ∃ j, j < 8 ∧ j / 2 ^ l = k ∧ (s.pc j).reached l
def Fin' (s : ParState α) (l k : Nat) : Prop := ∃ j, j < 8 ∧ j / 2 ^ l = k ∧ (s.pc j).finished l
def Passed (s : ParState α) (l k : Nat) : Prop := ∃ j, j < 8 ∧ j / 2 ^ l = k ∧ (s.pc j).passed l

/-- The protocol part of the invariant. -/
structure Proto (s : ParState α) : Prop where
  levels : ∀ j, j < 8 → (s.pc j).lvOk
  uniq : ∀ l j j', j < 8 → j' < 8 → (s.pc j).reached l → (s.pc j').reached l → j / 2 ^ l = j' / 2 ^ l → j = j'
  bits : ∀ l k, l < 3 → ((s.level l).testBit k = true ↔ Passed s l k)
  kids : ∀ l k c, Reached s (l + 1) k → c / 2 = k → Passed s l c
  up : ∀ l k, l < 3 → Passed s l (2 * k) → Passed s l (2 * k + 1) → Reached s (l + 1) k

theorem div_succ (j l : Nat) : j / 2 ^ (l + 1) = j / 2 ^ l / 2 := by
  rw [Nat.pow_succ, Nat.div_div_eq_div_mul]

theorem proto_init (a w : List α) : Proto (parInit a w) where
  levels := fun j _ => trivial
  uniq := fun l j j' _ _ h => h.elim
  bits := by
    intro l k _
    constructor
    · intro h; simp [parInit] at h
    · rintro ⟨j, _, _, h⟩; exact h.elim
  kids := by rintro l k c ⟨j, _, _, h⟩; exact h.elim
  up := by rintro l k _ ⟨j, _, _, h⟩; exact h.elim

/-- Steps that change the pc of one job without posting. -/
theorem proto_move {s s' : ParState α} (I : Proto s) {j : Nat} {p : Pc} (hlev : s'.level = s.level)
    (hpc : ∀ i, s'.pc i = if i = j then p else s.pc i)
    (hlv : p.lvOk)
    (hr : ∀ l, 0 < l → (p.reached l ↔ (s.pc j).reached l))
    (hp : ∀ l, l < 3 → (p.passed l ↔ (s.pc j).passed l)) (h3 : ∀ l, 3 < l → ¬ p.reached l) : Proto s' := by
  have hpj : s'.pc j = p := by rw [hpc]; simp
  have hpi : ∀ i, i ≠ j → s'.pc i = s.pc i := fun i hi => by rw [hpc]; simp [hi]
  have hreach : ∀ i l, 0 < l → ((s'.pc i).reached l ↔ (s.pc i).reached l) := by
    intro i l hl
    by_cases hij : i = j
    · rw [hij, hpj]; exact hr l hl
    · rw [hpi i hij]
  have hpass : ∀ i l, l < 3 → ((s'.pc i).passed l ↔ (s.pc i).passed l) := by
    intro i l hl
    by_cases hij : i = j
    · rw [hij, hpj]; exact hp l hl
    · rw [hpi i hij]
  have hR : ∀ l k, 0 < l → (Reached s' l k ↔ Reached s l k) := fun l k hl =>
    ⟨fun ⟨i, h1, h2, h3⟩ => ⟨i, h1, h2, (hreach i l hl).mp h3⟩, fun ⟨i, h1, h2, h3⟩ => ⟨i, h1, h2, (hreach i l hl).mpr h3⟩⟩
  have hPa : ∀ l k, l < 3 → (Passed s' l k ↔ Passed s l k) := fun l k hl =>
    ⟨fun ⟨i, h1, h2, h3⟩ => ⟨i, h1, h2, (hpass i l hl).mp h3⟩, fun ⟨i, h1, h2, h3⟩ => ⟨i, h1, h2, (hpass i l hl).mpr h3⟩⟩
  have hno : ∀ i l, i < 8 → 3 < l → ¬ (s'.pc i).reached l := by
    intro i l hi hl
    by_cases hij : i = j
    · rw [hij, hpj]; exact h3 l hl
    · rw [hpi i hij]
      have := I.levels i hi
      intro hre
      cases hpi' : s.pc i <;> rw [hpi'] at this hre <;> simp only [Pc.reached, Pc.lvOk] at * <;> omega
  constructor
  · intro i hi
    by_cases hij : i = j
    · rw [hij, hpj]; exact hlv
    · rw [hpi i hij]; exact I.levels i hi
  · intro l i i' hi hi' h1 h2 he
    rcases Nat.eq_zero_or_pos l with rfl | hl
    · simpa using he
    · exact I.uniq l i i' hi hi' ((hreach i l hl).mp h1) ((hreach i' l hl).mp h2) he
  · intro l k hl
    rw [hlev, hPa l k hl]; exact I.bits l k hl
  · intro l k c hre hc
    rcases Nat.lt_or_ge l 3 with hl | hl
    · exact (hPa l c hl).mpr (I.kids l k c ((hR (l + 1) k (by omega)).mp hre) hc)
    · obtain ⟨i, hi, _, h⟩ := hre
      exact absurd h (hno i (l + 1) hi (by omega))
  · intro l k hl h1 h2
    exact (hR (l + 1) k (by omega)).mpr (I.up l k hl ((hPa l _ hl).mp h1) ((hPa l _ hl).mp h2))

theorem testBit_or_shift (a i k : Nat) : (a ||| 1 <<< i).testBit k = (a.testBit k || decide (i = k)) := by
  rw [Nat.testBit_or, Nat.one_shiftLeft, Nat.testBit_two_pow]

theorem proto_post {s : ParState α} (I : Proto s) {j l : Nat} (hj : j < 8) (hpc : s.pc j = .post l) :
    Proto (postBit s l j) := by
  have hl : l < 3 := by have := I.levels j hj; rw [hpc] at this; exact this
  have hbit : bitOf l j = j / 2 ^ l := bitOf_eq l j hl hj
  generalize hs' : postBit s l j = s'
  have hlev : ∀ k, s'.level k = if k = l then s.level l ||| 1 <<< (j / 2 ^ l) else s.level k := by
    intro k; rw [← hs', ← hbit]; rfl
  have hpj : s'.pc j = if (s.level l).testBit (buddy (j / 2 ^ l)) = true then .work (l + 1) else .done l := by
    rw [← hs']
    show (if j = j then (if buddyMask (bitOf l j) = _ then Pc.work (l + 1) else Pc.done l) else s.pc j) = _
    rw [if_pos rfl, hbit]
    by_cases hb : (s.level l).testBit (buddy (j / 2 ^ l)) = true
    · rw [if_pos hb, if_pos ((buddyMask_iff _ _).mpr hb)]
    · rw [if_neg hb, if_neg fun h => hb ((buddyMask_iff _ _).mp h)]
  have hpi : ∀ i, i ≠ j → s'.pc i = s.pc i := by
    intro i hi; rw [← hs']
    show (if i = j then _ else s.pc i) = _
    rw [if_neg hi]
  clear hs' hbit
  have hmono : ∀ i m, (s.pc i).passed m → (s'.pc i).passed m := by
    intro i m h
    by_cases hij : i = j
    · rw [hij, hpj]; rw [hij, hpc] at h; simp only [Pc.passed] at h
      split <;> simp only [Pc.passed] <;> omega
    · rw [hpi i hij]; exact h
  have hmonoR : ∀ i m, (s.pc i).reached m → (s'.pc i).reached m := by
    intro i m h
    by_cases hij : i = j
    · rw [hij, hpj]; rw [hij, hpc] at h; simp only [Pc.reached] at h
      split <;> simp only [Pc.reached] <;> omega
    · rw [hpi i hij]; exact h
  have hjp : (s'.pc j).passed l := by
    rw [hpj]; split <;> simp only [Pc.passed] <;> omega
  -- what is new
  have hnewP : ∀ i m, (s'.pc i).passed m → (s.pc i).passed m ∨ (i = j ∧ m = l) := by
    intro i m h
    by_cases hij : i = j
    · rw [hij, hpj] at h; rw [hij, hpc]; simp only [Pc.passed]
      have : m < l ∨ m = l := by split at h <;> simp only [Pc.passed] at h <;> omega
      exact this.imp_right fun h => ⟨trivial, h⟩
    · rw [hpi i hij] at h; exact .inl h
  have hnewR : ∀ i m, (s'.pc i).reached m → (s.pc i).reached m ∨
      (i = j ∧ m = l + 1 ∧ (s.level l).testBit (buddy (j / 2 ^ l)) = true) := by
    intro i m h
    by_cases hij : i = j
    · rw [hij, hpj] at h; rw [hij, hpc]; simp only [Pc.reached]
      split at h <;> simp only [Pc.reached] at h
      · rename_i hb
        rcases Nat.lt_or_ge l m with h' | h'
        · exact .inr ⟨trivial, by omega, hb⟩
        · exact .inl h'
      · exact .inl h
    · rw [hpi i hij] at h; exact .inl h
  have hPm : ∀ m k, Passed s m k → Passed s' m k := fun m k ⟨i, h1, h2, h3⟩ => ⟨i, h1, h2, hmono i m h3⟩
  have hPj : Passed s' l (j / 2 ^ l) := ⟨j, hj, rfl, hjp⟩
  -- nobody was above this node
  have hfree : ∀ i, i < 8 → (s.pc i).reached (l + 1) → i / 2 ^ (l + 1) ≠ j / 2 ^ (l + 1) := by
    intro i hi hre he
    obtain ⟨i', hi', he', hp'⟩ := I.kids l _ (j / 2 ^ l) ⟨i, hi, rfl, hre⟩ (by rw [he, div_succ])
    have : i' = j := I.uniq l i' j hi' hj (Pc.finished_reached (Pc.passed_finished hp'))
      (by rw [hpc]; simp only [Pc.reached]; omega) he'
    rw [this, hpc] at hp'
    simp only [Pc.passed] at hp'
    omega
  constructor
  · intro i hi
    by_cases hij : i = j
    · rw [hij, hpj]; split
      · show l + 1 ≤ 3; omega
      · show l ≤ 3; omega
    · rw [hpi i hij]; exact I.levels i hi
  · intro m i i' hi hi' h1 h2 he
    rcases hnewR i m h1 with g1 | ⟨e1, e2, _⟩ <;> rcases hnewR i' m h2 with g2 | ⟨g2, g3, _⟩
    · exact I.uniq m i i' hi hi' g1 g2 he
    · subst g2; subst g3; exact absurd he (hfree i hi g1)
    · subst e1; subst e2; exact absurd he.symm (hfree i' hi' g2)
    · rw [e1, g2]
  · intro m k hm
    rw [hlev]
    by_cases hml : m = l
    · subst hml
      rw [if_pos rfl, testBit_or_shift, Bool.or_eq_true, decide_eq_true_eq, I.bits m k hm]
      constructor
      · rintro (h | h)
        · exact hPm m k h
        · rw [← h]; exact hPj
      · rintro ⟨i, hi, hk, hp⟩
        rcases hnewP i m hp with h | ⟨rfl, _⟩
        · exact .inl ⟨i, hi, hk, h⟩
        · exact .inr hk
    · rw [if_neg hml, I.bits m k hm]
      constructor
      · exact hPm m k
      · rintro ⟨i, hi, hk, hp⟩
        rcases hnewP i m hp with h | ⟨_, h⟩
        · exact ⟨i, hi, hk, h⟩
        · exact absurd h hml
  · rintro m k c ⟨i, hi, hk, hre⟩ hc
    rcases hnewR i (m + 1) hre with h | ⟨h1, h2, hb⟩
    · exact hPm m c (I.kids m k c ⟨i, hi, hk, h⟩ hc)
    · have hm : m = l := by omega
      subst h1; subst hm
      rw [← hk, div_succ] at hc
      rcases buddy_or hc with h | h
      · rw [h]; exact hPj
      · rw [h]; exact hPm m _ ((I.bits m _ hl).mp hb)
  · rintro m k hm ⟨i, hi, hk, hp⟩ ⟨i', hi', hk', hp'⟩
    rcases hnewP i m hp with h | ⟨h1, h2⟩ <;> rcases hnewP i' m hp' with h' | ⟨h1', h2'⟩
    · obtain ⟨q, hq, hqk, hqr⟩ := I.up m k hm ⟨i, hi, hk, h⟩ ⟨i', hi', hk', h'⟩
      exact ⟨q, hq, hqk, hmonoR q _ hqr⟩
    · subst h1'; subst h2'
      refine ⟨i', hi', by rw [div_succ, hk']; omega, ?_⟩
      have hb : (s.level m).testBit (buddy (i' / 2 ^ m)) = true := by
        rw [I.bits m _ hm]
        exact ⟨i, hi, by rw [hk, hk']; unfold buddy; split <;> omega, h⟩
      rw [hpj, if_pos hb]
      exact Nat.le_refl _
    · subst h1; subst h2
      refine ⟨i, hi, by rw [div_succ, hk]; omega, ?_⟩
      have hb : (s.level m).testBit (buddy (i / 2 ^ m)) = true := by
        rw [I.bits m _ hm]
        exact ⟨i', hi', by rw [hk, hk']; unfold buddy; split <;> omega, h'⟩
      rw [hpj, if_pos hb]
      exact Nat.le_refl _
    · subst h1; subst h1'; omega

end Riptide.Sort
