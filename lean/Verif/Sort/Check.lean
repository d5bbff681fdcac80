import Verif.Sort.Props
/-! # C58: `IsSorted`, `src/Sort.cpp:3130-3346` -/
namespace Riptide.Sort
open Spec

/-! ## Model -/

/-- `while ((i > 0) && test(i)) i--`, `src/Sort.cpp:3138-3146`. -/
def descend (test : Nat → Bool) : Nat → Nat
  | 0 => 0
  | i + 1 => if test (i + 1) then descend test i else i + 1

/-- `pData[i] >= pData[j]`, or `! STRING_LT<true>(…)` and its relatives, `src/Sort.cpp:3143`, 3160, 3175, 3190, 3205. -/
def Column.notBelow : Column → Nat → Nat → Bool
  | .ints _ v, i, j => decide (v.getD j 0 ≤ v.getD i 0)
  | .floats f _ v, i, j => f.lt (v.getD j 0) (v.getD i 0) || f.eq (v.getD j 0) (v.getD i 0)
  | .strs _ v, i, j => !Str.sortLt true (v.getD i []) (v.getD j [])
  | .voids _ v, i, j => !Str.voidLt true (v.getD i []) (v.getD j [])

/-- `pData[i] != pData[i]`; only `IsSortedFloat` has this loop, `src/Sort.cpp:3138`. -/
def Column.isNan : Column → Nat → Bool
  | .floats f _ v, i => f.isNan (v.getD i 0)
  | _, _ => false

/-- `IsSortedFloat`, `IsSorted<T>`, `IsSortedString`, `IsSortedUnicode`, `IsSortedVoid` on `len` rows from `start`.
(`arraySize1 - 1` is -1 for no rows, which counts as sorted as 0 does.) -/
def segSorted (c : Column) (start len : Nat) : Bool :=
  let i := descend (fun i => c.isNan (start + i)) (len - 1)
  decide (descend (fun i => c.notBelow (start + i) (start + i - 1)) i = 0)

/-- The callback for rows `start .. start + length`: all but the first segment begin one row earlier,
`src/Sort.cpp:3313-3318`. -/
def segResult (c : Column) (start len : Nat) : Bool :=
  if start ≠ 0 then segSorted c (start - 1) (len + 1) else segSorted c start len

/-- The two accesses of a callback to the shared flag: it reads it when it starts, `src/Sort.cpp:3310`, and clears it if
its segment is not sorted, 3325. -/
inductive FlagEv
  | read (b : Nat)
  | clear (b : Nat)
  deriving DecidableEq

/-- The flag and the segments found unsorted whose callback has not cleared the flag yet. -/
structure FlagSt where
  flag : Bool
  pend : List Nat

def flagStep (ok : Nat → Bool) (s : FlagSt) : FlagEv → FlagSt
  | .read b => if s.flag && !ok b then { s with pend := b :: s.pend } else s
  | .clear b => if b ∈ s.pend then ⟨false, s.pend.erase b⟩ else s

/-- Possible results of `IsSorted` on an array of `c.len` rows: one call, or the blocks of the pool whose accesses to the flag
interleave in any order `evs`, each block being done once the pool returns. -/
inductive IsSorted (workers : Nat) (nt : Bool) (c : Column) : Bool → Prop
  | direct (h : c.len < Work.big ∨ nt = true) : IsSorted workers nt c (segResult c 0 c.len)
  | pool (calls : List Nat) (evs : List FlagEv) (s : FlagSt) (h1 : ¬ (c.len < Work.big ∨ nt = true))
      (h2 : Work.PoolRun workers (Work.blockLastGeneric c.len Work.chunk) calls)
      (hev : ∀ b, .read b ∈ evs ↔ b ∈ calls)
      (hs : s = evs.foldl (flagStep fun b => segResult c (Work.chunk * b)
        (Work.blockLen c.len Work.chunk (Work.blockLastGeneric c.len Work.chunk) b)) ⟨true, []⟩)
      (hp : s.pend = []) : IsSorted workers nt c s.flag

/-! ## Proof -/

/-- `IsSorted` is about the ascending order. -/
def Column.asc : Column → Bool
  | .ints a _ => a
  | .floats _ a _ => a
  | .strs a _ => a
  | .voids a _ => a

theorem descend_le (t : Nat → Bool) : ∀ k, descend t k ≤ k
  | 0 => Nat.le_refl _
  | k + 1 => by
    unfold descend; split
    · exact Nat.le_trans (descend_le t k) (by omega)
    · exact Nat.le_refl _

theorem descend_above (t : Nat → Bool) : ∀ k i, descend t k < i → i ≤ k → t i = true
  | 0, i => by unfold descend; omega
  | k + 1, i => by
    unfold descend; split
    · intro h1 h2
      rcases Nat.eq_or_lt_of_le h2 with rfl | h2
      · assumption
      · exact descend_above t k i h1 (by omega)
    · omega

theorem descend_stop (t : Nat → Bool) : ∀ k, descend t k ≠ 0 → t (descend t k) = false
  | 0 => by unfold descend; omega
  | k + 1 => by
    unfold descend; split
    · exact descend_stop t k
    · rename_i h; intro _; simpa using h

theorem descend_zero (t : Nat → Bool) (k : Nat) : descend t k = 0 ↔ ∀ i, 0 < i → i ≤ k → t i = true := by
  constructor
  · intro h i h1 h2; exact descend_above t k i (by omega) h2
  · intro h
    apply Classical.byContradiction
    intro h0
    have h1 := descend_stop t k h0
    rw [h _ (by omega) (descend_le t k)] at h1
    exact absurd h1 (by simp)

theorem segSorted_iff (c : Column) (ha : c.asc = true) (start len : Nat) :
    segSorted c start len = true ↔ ∀ i, 0 < i → i < len → c.lt (start + i) (start + i - 1) = false := by
  unfold segSorted
  simp only [decide_eq_true_eq, descend_zero]
  generalize hi0 : descend (fun i => c.isNan (start + i)) (len - 1) = i0
  have hle : i0 ≤ len - 1 := by rw [← hi0]; exact descend_le _ _
  cases c with
  | floats f a v =>
    have ha' : a = true := ha
    subst ha'
    have habove : ∀ i, i0 < i → i ≤ len - 1 → f.isNan (v.getD (start + i) 0) = true := by
      intro i h1 h2
      have := descend_above (fun i => Column.isNan (.floats f true v) (start + i)) (len - 1) i (by rw [hi0]; exact h1) h2
      exact this
    have hstop : i0 ≠ 0 → f.isNan (v.getD (start + i0) 0) = false := by
      intro h
      have := descend_stop (fun i => Column.isNan (.floats f true v) (start + i)) (len - 1) (by rw [hi0]; exact h)
      rw [hi0] at this
      exact this
    simp only [Column.notBelow, Column.lt]
    have pair : ∀ x y, f.isNan x = false → ((f.lt y x || f.eq y x) = true ↔ floatLt f true x y = false) := by
      intro x y hx
      simp only [floatLt, FT.lt, FT.eq, hx, if_true]
      cases f.isNan y <;> simp <;> omega
    constructor
    · intro h i h1 h2
      rcases Nat.lt_or_ge i0 i with h3 | h3
      · have := habove i h3 (by omega)
        simp only [floatLt, FT.lt, this, if_true]
        simp
      · have h4 := h i h1 h3
        have hx : f.isNan (v.getD (start + i) 0) = false := by
          revert h4
          simp only [FT.lt, FT.eq]
          cases f.isNan (v.getD (start + i) 0) <;> simp
        exact (pair _ _ hx).mp h4
    · intro h
      -- the rows up to `i0` are numbers
      have hnum : ∀ d, d < i0 → f.isNan (v.getD (start + (i0 - d)) 0) = false := by
        intro d
        induction d with
        | zero => intro hd; exact hstop (by omega)
        | succ d ih =>
          intro hd
          have h1 := ih (by omega)
          have h2 := h (i0 - d) (by omega) (by omega)
          rw [show start + (i0 - d) - 1 = start + (i0 - (d + 1)) by omega] at h2
          revert h2
          simp only [floatLt, FT.lt, h1]
          cases f.isNan (v.getD (start + (i0 - (d + 1))) 0) <;> simp
      intro i h1 h2
      have hx := hnum (i0 - i) (by omega)
      rw [show i0 - (i0 - i) = i by omega] at hx
      exact (pair _ _ hx).mpr (h i h1 (by omega))
  | ints a v =>
    have hz : i0 = len - 1 := by
      rw [← hi0]
      cases hk : len - 1 <;> simp [descend, Column.isNan]
    have ha' : a = true := ha
    subst ha'
    simp only [Column.notBelow, Column.lt, intLt, if_true, decide_eq_true_eq, decide_eq_false_iff_not, Int.not_lt, hz]
    exact ⟨fun h i h1 h2 => h i h1 (by omega), fun h i h1 h2 => h i h1 (by omega)⟩
  | strs a v =>
    have hz : i0 = len - 1 := by
      rw [← hi0]
      cases hk : len - 1 <;> simp [descend, Column.isNan]
    have ha' : a = true := ha
    subst ha'
    simp only [Column.notBelow, Column.lt, Bool.not_eq_true', hz]
    exact ⟨fun h i h1 h2 => h i h1 (by omega), fun h i h1 h2 => h i h1 (by omega)⟩
  | voids a v =>
    have hz : i0 = len - 1 := by
      rw [← hi0]
      cases hk : len - 1 <;> simp [descend, Column.isNan]
    have ha' : a = true := ha
    subst ha'
    simp only [Column.notBelow, Column.lt, Bool.not_eq_true', hz]
    exact ⟨fun h i h1 h2 => h i h1 (by omega), fun h i h1 h2 => h i h1 (by omega)⟩

theorem segResult_iff (c : Column) (ha : c.asc = true) (start len : Nat) :
    segResult c start len = true ↔ ∀ i, 0 < i → start ≤ i → i < start + len → c.lt i (i - 1) = false := by
  unfold segResult
  split
  · rw [segSorted_iff c ha]
    constructor
    · intro h i h1 h2 h3
      have := h (i - (start - 1)) (by omega) (by omega)
      rwa [show start - 1 + (i - (start - 1)) = i by omega] at this
    · intro h i h1 h2
      exact h (start - 1 + i) (by omega) (by omega) (by omega)
  · rename_i h0
    have : start = 0 := by simpa using h0
    subst this
    rw [segSorted_iff c ha]
    simp only [Nat.zero_add]
    exact ⟨fun h i h1 _ h3 => h i h1 h3, fun h i h1 h3 => h i h1 (by omega) h3⟩

theorem flag_result (ok : Nat → Bool) (evs : List FlagEv) :
    let s := evs.foldl (flagStep ok) ⟨true, []⟩
    s.pend = [] → (s.flag = true ↔ ∀ b, FlagEv.read b ∈ evs → ok b = true) := by
  have key : ∀ (evs : List FlagEv) (s : FlagSt), (∀ b ∈ s.pend, ok b = false) →
      (∀ b ∈ (evs.foldl (flagStep ok) s).pend, ok b = false) ∧
      ((evs.foldl (flagStep ok) s).flag = true → s.flag = true ∧ ∀ b, b ∈ s.pend → b ∈ (evs.foldl (flagStep ok) s).pend) ∧
      ((evs.foldl (flagStep ok) s).flag = true → ∀ b, FlagEv.read b ∈ evs → ok b = true ∨ b ∈ (evs.foldl (flagStep ok) s).pend) ∧
      ((evs.foldl (flagStep ok) s).flag = false → s.flag = false ∨ (∃ b ∈ s.pend, ok b = false) ∨ ∃ b, FlagEv.read b ∈ evs ∧ ok b = false) := by
    intro evs
    induction evs with
    | nil => intro s h; exact ⟨h, fun h => ⟨h, fun _ h => h⟩, fun _ b hb => absurd hb (by simp), fun h => .inl h⟩
    | cons e evs ih =>
      intro s h
      rw [List.foldl_cons]
      cases e with
      | read b =>
        by_cases hc : s.flag = true ∧ ok b = false
        · have e1 : flagStep ok s (.read b) = { s with pend := b :: s.pend } := by simp [flagStep, hc]
          rw [e1]
          obtain ⟨i1, i2, i3, i4⟩ := ih { s with pend := b :: s.pend } (by
            intro x hx; rcases List.mem_cons.mp hx with rfl | hx
            · exact hc.2
            · exact h x hx)
          refine ⟨i1, fun hf => ⟨(i2 hf).1, fun x hx => (i2 hf).2 x (by simp [hx])⟩, ?_, ?_⟩
          · intro hf x hx
            rcases List.mem_cons.mp hx with hx | hx
            · cases hx; exact .inr ((i2 hf).2 b (by simp))
            · exact i3 hf x hx
          · intro hf
            exact .inr (.inr ⟨b, by simp, hc.2⟩)
        · have e1 : flagStep ok s (.read b) = s := by
            simp only [flagStep]
            rw [if_neg]
            simpa using hc
          rw [e1]
          obtain ⟨i1, i2, i3, i4⟩ := ih s h
          refine ⟨i1, i2, ?_, ?_⟩
          · intro hf x hx
            rcases List.mem_cons.mp hx with hx | hx
            · cases hx
              left
              have hfl := (i2 hf).1
              cases hb : ok b with
              | true => rfl
              | false => exact absurd ⟨hfl, hb⟩ hc
            · exact i3 hf x hx
          · intro hf
            rcases i4 hf with h | h | ⟨x, hx, hx2⟩
            · exact .inl h
            · exact .inr (.inl h)
            · exact .inr (.inr ⟨x, by simp [hx], hx2⟩)
      | clear b =>
        by_cases hc : b ∈ s.pend
        · have e1 : flagStep ok s (.clear b) = ⟨false, s.pend.erase b⟩ := by simp [flagStep, hc]
          rw [e1]
          obtain ⟨i1, i2, i3, i4⟩ := ih ⟨false, s.pend.erase b⟩ (fun x hx => h x (List.mem_of_mem_erase hx))
          refine ⟨i1, fun hf => absurd (i2 hf).1 (by simp), fun hf => absurd (i2 hf).1 (by simp), fun _ => ?_⟩
          exact .inr (.inl ⟨b, hc, h b hc⟩)
        · have e1 : flagStep ok s (.clear b) = s := by simp [flagStep, hc]
          rw [e1]
          obtain ⟨i1, i2, i3, i4⟩ := ih s h
          refine ⟨i1, i2, ?_, ?_⟩
          · intro hf x hx
            rcases List.mem_cons.mp hx with hx | hx
            · cases hx
            · exact i3 hf x hx
          · intro hf
            rcases i4 hf with h | h | ⟨x, hx, hx2⟩
            · exact .inl h
            · exact .inr (.inl h)
            · exact .inr (.inr ⟨x, by simp [hx], hx2⟩)
  intro s hp
  obtain ⟨_, _, k3, k4⟩ := key evs ⟨true, []⟩ (by simp)
  change s.flag = true → ∀ b, _ → ok b = true ∨ b ∈ s.pend at k3
  change s.flag = false → _ at k4
  constructor
  · intro hf b hb
    rcases k3 hf b hb with h | h
    · exact h
    · rw [hp] at h; exact absurd h (by simp)
  · intro hall
    cases hf : s.flag with
    | true => rfl
    | false =>
      rcases k4 hf with h | ⟨b, hb, _⟩ | ⟨b, hb, h⟩
      · exact absurd h (by simp)
      · exact absurd hb (by simp)
      · rw [hall b hb] at h; exact absurd h (by simp)

theorem adjacent_sorted {lt : Nat → Nat → Bool} {n : Nat} (W : Weak (fun i => i < n) lt) :
    (∀ i, 0 < i → i < n → lt i (i - 1) = false) ↔ (List.range n).Pairwise fun i j => lt j i = false := by
  constructor
  · intro h
    rw [List.pairwise_iff_getElem]
    intro i j hi hj hij
    simp only [List.length_range] at hi hj
    rw [List.getElem_range, List.getElem_range]
    obtain ⟨d, rfl⟩ : ∃ d, j = i + d + 1 := ⟨j - i - 1, by omega⟩
    clear hij
    induction d with
    | zero => exact h (i + 1) (by omega) hj
    | succ d ih =>
      exact W.trans i (i + d + 1) _ hi (by omega) hj (ih (by omega) (by omega)) (h (i + (d + 1) + 1) (by omega) hj)
  · intro h i h1 h2
    rw [List.pairwise_iff_getElem] at h
    have := h (i - 1) i (by simp; omega) (by simpa using h2) (by omega)
    simpa using this

/-- **C58.** `IsSorted` answers true exactly when no row is below an earlier one (NaNs last), whichever way the segments are
checked and however the callbacks race on the shared flag. -/
theorem isSorted_exact (workers : Nat) (nt : Bool) (c : Column) (hc : c.Ok) (ha : c.asc = true) (r : Bool)
    (h : IsSorted workers nt c r) : r = true ↔ (List.range c.len).Pairwise fun i j => c.lt j i = false := by
  rw [← adjacent_sorted (c.weak hc)]
  cases h with
  | direct h =>
    rw [segResult_iff c ha]
    simp only [Nat.zero_add]
    exact ⟨fun h i h1 h2 => h i h1 (by omega) h2, fun h i h1 _ h2 => h i h1 h2⟩
  | pool calls evs s h1 h2 hev hs hp =>
    subst hs
    rw [flag_result _ evs hp]
    have hrows := Work.chunk_work_each_row_once (Work.ChunkWork.pool (workers := workers) (noThreading := nt) calls h1 h2)
    constructor
    · intro h i hi0 hin
      have : i ∈ calls.flatMap (Work.blockRows c.len Work.chunk) := by
        rw [← List.count_pos_iff, hrows i, if_pos hin]; omega
      obtain ⟨b, hb, hib⟩ := List.mem_flatMap.mp this
      simp only [Work.blockRows, List.mem_range'_1] at hib
      exact (segResult_iff c ha _ _).mp (h b ((hev b).mpr hb)) i hi0 hib.1 hib.2
    · intro h b hb
      rw [segResult_iff c ha]
      intro i h1 h2 h3
      apply h i h1
      have : i ∈ calls.flatMap (Work.blockRows c.len Work.chunk) := by
        apply List.mem_flatMap.mpr
        exact ⟨b, (hev b).mp hb, by simp only [Work.blockRows, List.mem_range'_1]; exact ⟨h2, h3⟩⟩
      rw [← List.count_pos_iff, hrows i] at this
      split at this
      · assumption
      · omega

/-- **C58.** In other words: exactly when sorting would leave the rows where they are. -/
theorem isSorted_iff_argsort_identity (workers : Nat) (nt : Bool) (c : Column) (hc : c.Ok) (ha : c.asc = true) (r : Bool)
    (h : IsSorted workers nt c r) : r = true ↔ StableSort c.lt (List.range c.len) (List.range c.len) := by
  rw [isSorted_exact workers nt c hc ha r h]
  exact ⟨StableSort.refl, fun h => h.sorted⟩

example : segResult (.floats .f64 true [0x3ff0000000000000, 0x4000000000000000, 0x7ff8000000000000, 0x7ff8000000000000]) 0 4 =
    true := by decide
example : segResult (.floats .f64 true [0x3ff0000000000000, 0x7ff8000000000000, 0x4000000000000000]) 0 3 = false := by decide
example : IsSorted 4 false (.ints true [1, 1, 2]) true := .direct (.inl (by decide))
/-- Two segments, the second one bad; both read the flag before it is cleared. -/
example : ([FlagEv.read 1, .read 0, .clear 1].foldl (flagStep fun b => b == 0) ⟨true, []⟩).flag = false := by decide

end Riptide.Sort
