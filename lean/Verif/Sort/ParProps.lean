import Verif.Sort.ParData
/-! # C18: the parallel argsort under every schedule -/
namespace Riptide.Sort
open Spec

variable {α : Type} {P : α → Prop} {lt : α → α → Bool}

theorem parRun_inv (W : Weak P lt) (skip : Bool) {a0 : List α} (hP : ∀ x ∈ a0, P x) : ∀ (js : List Nat) (s : ParState α),
    (∀ j ∈ js, j < 8) → Inv lt a0 s → ∃ s', parRun lt skip a0.length js s = some s' ∧ Inv lt a0 s' := by
  intro js
  induction js with
  | nil => intro s _ I; exact ⟨s, rfl, I⟩
  | cons j js ih =>
    intro s hjs I
    obtain ⟨s1, h1, I1, _⟩ := inv_step W skip hP I (hjs j (by simp))
    obtain ⟨s2, h2, I2⟩ := ih s1 (fun i hi => hjs i (by simp [hi])) I1
    exact ⟨s2, by simp only [parRun, h1]; exact h2, I2⟩

/-- No access outside the array or the workspace, under every schedule of the eight jobs. -/
theorem parallel_sort_in_bounds (W : Weak P lt) (skip : Bool) (a w : List α) (hP : ∀ x ∈ a, P x)
    (hw : a.length ≤ w.length) (js : List Nat) (hjs : ∀ j ∈ js, j < 8) :
    ∃ s, parRun lt skip a.length js (parInit a w) = some s := by
  obtain ⟨s, h, _⟩ := parRun_inv W skip hP js _ hjs (inv_init a w hw)
  exact ⟨s, h⟩

/-- At every moment the jobs which are sorting or merging are in disjoint parts of the array (and so of
the workspace, where each uses the cells with the same numbers). -/
theorem parallel_sort_no_overlap (W : Weak P lt) (skip : Bool) (a w : List α) (hP : ∀ x ∈ a, P x)
    (hw : a.length ≤ w.length) (js : List Nat) (hjs : ∀ j ∈ js, j < 8) (s : ParState α)
    (hrun : parRun lt skip a.length js (parInit a w) = some s) (i j l m : Nat) (hi : i < 8) (hj : j < 8) (hij : i ≠ j)
    (h1 : s.pc i = .work l) (h2 : s.pc j = .work m) :
    (segOf (endPositions a.length) a.length l i).2 ≤ (segOf (endPositions a.length) a.length m j).1 ∨
      (segOf (endPositions a.length) a.length m j).2 ≤ (segOf (endPositions a.length) a.length l i).1 := by
  obtain ⟨s', h, I⟩ := parRun_inv W skip hP js _ hjs (inv_init a w hw)
  rw [hrun] at h
  cases h
  have key : ∀ i j l m : Nat, i < 8 → j < 8 → i ≠ j → s.pc i = .work l → s.pc j = .work m → m ≤ l →
      nhi a.length m (j / 2 ^ m) ≤ nlo a.length l (i / 2 ^ l) ∨ nhi a.length l (i / 2 ^ l) ≤ nlo a.length m (j / 2 ^ m) := by
    intro i j l m hi hj hij h1 h2 hml
    have hl : l ≤ 3 := by have := I.proto.levels i hi; rw [h1] at this; exact this
    apply node_disjoint _ hl hi hj hml
    intro he
    rcases Nat.eq_or_lt_of_le hml with hml | hml
    · subst hml
      exact hij (I.proto.uniq m j i hj hi (by rw [h2]; exact Nat.le_refl _) (by rw [h1]; exact Nat.le_refl _) he).symm
    · obtain ⟨d, rfl⟩ : ∃ d, l = m + d + 1 := ⟨l - m - 1, by omega⟩
      obtain ⟨q, hq, hqk, hqp⟩ := desc_passed I.proto d m (j / 2 ^ m) _
        ⟨i, hi, rfl, by rw [h1]; exact Nat.le_refl _⟩ (by rw [← he, ← div_pow_add]; rfl)
      exact not_fin_of_work I.proto hj h2 ⟨q, hq, hqk, Pc.passed_finished hqp⟩
  have hl : l ≤ 3 := by have := I.proto.levels i hi; rw [h1] at this; exact this
  have hm : m ≤ 3 := by have := I.proto.levels j hj; rw [h2] at this; exact this
  rw [segOf_eq _ _ _ hl hi, segOf_eq _ _ _ hm hj]
  rcases Nat.le_total m l with h | h
  · exact (key i j l m hi hj hij h1 h2 h).symm
  · exact key j i m l hj hi hij.symm h2 h1 h

/-- A merge starts only when both halves are sorted: a job at work on level `l + 1` sees two halves each of which is
the stable sort of that part of the original array. -/
theorem parallel_merge_halves_sorted (W : Weak P lt) (skip : Bool) (a w : List α) (hP : ∀ x ∈ a, P x)
    (hw : a.length ≤ w.length) (js : List Nat) (hjs : ∀ j ∈ js, j < 8) (s : ParState α)
    (hrun : parRun lt skip a.length js (parInit a w) = some s) (j l : Nat) (hj : j < 8) (h : s.pc j = .work (l + 1)) :
    let p := segOf (endPositions a.length) a.length (l + 1) j
    let mid := p.1 + (p.2 - p.1) / 2
    StableSort lt ((a.drop p.1).take (mid - p.1)) ((s.a.drop p.1).take (mid - p.1)) ∧
      StableSort lt ((a.drop mid).take (p.2 - mid)) ((s.a.drop mid).take (p.2 - mid)) := by
  obtain ⟨s', h', I⟩ := parRun_inv W skip hP js _ hjs (inv_init a w hw)
  rw [hrun] at h'
  cases h'
  have hl : l + 1 ≤ 3 := by have := I.proto.levels j hj; rw [h] at this; exact this
  have hmid := bd_mid a.length l j (by omega) hj
  have hnf := not_fin_of_work I.proto hj h
  rw [segOf_eq _ _ _ hl hj]
  simp only
  rw [hmid]
  generalize hK : j / 2 ^ (l + 1) = K at *
  have hkid : ∀ c, c / 2 = K → StableSort lt (sl a (nlo a.length l c) (nhi a.length l c))
      (sl s.a (nlo a.length l c) (nhi a.length l c)) := by
    intro c hc
    obtain ⟨q, hq, hqk, hqp⟩ := I.proto.kids l K c ⟨j, hj, hK, by rw [h]; exact Nat.le_refl _⟩ hc
    have := I.sorted l q (by omega) hq ⟨q, hq, rfl, Pc.passed_finished hqp⟩ (by rw [div_succ, hqk, hc]; exact hnf)
    rwa [hqk] at this
  have e1 : nlo a.length l (2 * K) = bd a.length (K * 2 ^ (l + 1)) := by
    rw [nlo]; congr 1; rw [Nat.pow_succ]; rw [Nat.mul_comm 2 K, Nat.mul_assoc, Nat.mul_comm 2]
  have e4 : nhi a.length l (2 * K + 1) = bd a.length ((K + 1) * 2 ^ (l + 1)) := by
    rw [nhi]; congr 1
    rw [Nat.pow_succ, show 2 * K + 1 + 1 = (K + 1) * 2 by omega, Nat.mul_assoc, Nat.mul_comm 2]
  have hL := hkid (2 * K) (by omega)
  have hR := hkid (2 * K + 1) (by omega)
  rw [e1] at hL
  rw [e4] at hR
  exact ⟨hL, hR⟩

/-- Each part of the array is merged (or sorted) by at most one job. -/
theorem parallel_merge_once (W : Weak P lt) (skip : Bool) (a w : List α) (hP : ∀ x ∈ a, P x)
    (hw : a.length ≤ w.length) (js : List Nat) (hjs : ∀ j ∈ js, j < 8) (s : ParState α)
    (hrun : parRun lt skip a.length js (parInit a w) = some s) (i j l : Nat) (hi : i < 8) (hj : j < 8)
    (h1 : (s.pc i).reached l) (h2 : (s.pc j).reached l) (h : i / 2 ^ l = j / 2 ^ l) : i = j := by
  obtain ⟨s', h', I⟩ := parRun_inv W skip hP js _ hjs (inv_init a w hw)
  rw [hrun] at h'
  cases h'
  exact I.proto.uniq l i j hi hj h1 h2 h

theorem root_of_done {s : ParState α} (I : Proto s) (hd : allDone s) : Fin' s 3 0 := by
  have lift : ∀ l k, Reached s l k → Passed s l k := by
    rintro l k ⟨j, hj, hk, h⟩
    obtain ⟨m, hm⟩ := hd j hj
    exact ⟨j, hj, hk, by rw [hm] at h ⊢; exact h⟩
  have h0 : ∀ k, k < 8 → Passed s 0 k := by
    intro k hk
    obtain ⟨m, hm⟩ := hd k hk
    exact ⟨k, hk, by simp, by rw [hm]; exact Nat.zero_le m⟩
  have h1 : ∀ k, k < 4 → Passed s 1 k := fun k hk =>
    lift _ _ (I.up 0 k (by omega) (h0 _ (by omega)) (h0 _ (by omega)))
  have h2 : ∀ k, k < 2 → Passed s 2 k := fun k hk =>
    lift _ _ (I.up 1 k (by omega) (h1 _ (by omega)) (h1 _ (by omega)))
  obtain ⟨j, hj, hk, h⟩ := lift _ _ (I.up 2 0 (by omega) (h2 _ (by omega)) (h2 _ (by omega)))
  exact ⟨j, hj, hk, Pc.passed_finished h⟩

/-- **C18.** Whatever the interleaving, once the eight jobs are done the array holds the stable sort of what it held
before. -/
theorem parallel_sort_exact (W : Weak P lt) (skip : Bool) (a w : List α) (hP : ∀ x ∈ a, P x)
    (hw : a.length ≤ w.length) (js : List Nat) (hjs : ∀ j ∈ js, j < 8) (s : ParState α)
    (hrun : parRun lt skip a.length js (parInit a w) = some s) (hd : allDone s) : StableSort lt a s.a := by
  obtain ⟨s', h, I⟩ := parRun_inv W skip hP js _ hjs (inv_init a w hw)
  rw [hrun] at h
  cases h
  have := I.sorted 3 0 (by omega) (by omega) (by simpa using root_of_done I.proto hd) (by
    rintro ⟨j, hj, _, hf⟩
    have := I.proto.levels j hj
    cases hp : s.pc j <;> rw [hp] at this hf <;> simp only [Pc.lvOk, Pc.finished] at * <;> omega)
  have e1 : nlo a.length 3 (0 / 2 ^ 3) = 0 := by simp [nlo, bd_zero]
  have e2 : nhi a.length 3 (0 / 2 ^ 3) = a.length := by simp [nhi, bd_end]
  rw [e1, e2, sl_all] at this
  rw [← I.alen, sl_all] at this
  exact this

/-- The single threaded sort: in bounds with a workspace of half the array, and the result is the stable sort. -/
theorem single_sort_exact (W : Weak P lt) (skip : Bool) (a w : List α) (hP : ∀ x ∈ a, P x)
    (hw : a.length / 2 ≤ w.length) : ∃ out, singleSort lt skip a w = some out ∧ StableSort lt a out := by
  obtain ⟨out, w', h, hs, _⟩ := msort_spec W skip a.length a [] [] w 0 rfl hP (by omega)
  refine ⟨out, ?_, hs⟩
  unfold singleSort
  simp only [List.length_nil, Nat.zero_add, List.nil_append, List.append_nil] at h
  rw [h]; rfl

/-- **C18.** The parallel sort gives exactly what the single threaded sort gives. -/
theorem parallel_sort_eq_single (W : Weak P lt) (skip skip' : Bool) (a w w' : List α) (hP : ∀ x ∈ a, P x)
    (hw : a.length ≤ w.length) (hw' : a.length / 2 ≤ w'.length) (js : List Nat) (hjs : ∀ j ∈ js, j < 8) (s : ParState α)
    (hrun : parRun lt skip a.length js (parInit a w) = some s) (hd : allDone s) :
    singleSort lt skip' a w' = some s.a := by
  obtain ⟨out, h1, h2⟩ := single_sort_exact W skip' a w' hP hw'
  have h3 := parallel_sort_exact W skip a w hP hw js hjs s hrun hd
  rw [h1, StableSort.unique W hP h2 h3]

/-! ## The jobs finish -/

/-- Steps a job has left at most. -/
def Pc.rank : Pc → Nat
  | .todo => 8
  | .work l => 7 - 2 * l
  | .post l => 6 - 2 * l
  | .done _ => 0

theorem step_rank {n : Nat} {skip : Bool} {s s' : ParState α} {j : Nat} (hlv : (s.pc j).lvOk)
    (h : stepJob lt skip n s j = some s') : (s'.pc j).rank ≤ (s.pc j).rank - 1 := by
  revert h hlv
  unfold stepJob
  cases hpc : s.pc j with
  | todo => intro _ h; cases h; simp [ParState.setPc, Pc.rank]
  | done l => intro _ h; cases h; simp [hpc, Pc.rank]
  | post l =>
    intro hl h; cases h
    simp only [Pc.lvOk] at hl
    simp only [postBit, ParState.setPc, if_true]
    split <;> simp only [Pc.rank] <;> omega
  | work l =>
    cases l with
    | zero =>
      simp only
      split
      · intro _ h; exact absurd h (by simp)
      · intro _ h; cases h; simp [ParState.setPc, Pc.rank]
    | succ l =>
      simp only
      split
      · intro _ h; exact absurd h (by simp)
      · intro hl h; cases h
        simp only [Pc.lvOk] at hl
        simp only [ParState.setPc, if_true]
        split <;> simp only [Pc.rank] <;> omega

theorem run_rank (W : Weak P lt) (skip : Bool) {a0 : List α} (hP : ∀ x ∈ a0, P x) (i : Nat) (hi : i < 8) :
    ∀ (js : List Nat) (s s' : ParState α), (∀ j ∈ js, j < 8) → Inv lt a0 s → parRun lt skip a0.length js s = some s' →
      (s'.pc i).rank ≤ (s.pc i).rank - js.count i := by
  intro js
  induction js with
  | nil => intro s s' _ _ h; cases h; simp
  | cons j js ih =>
    intro s s' hjs I h
    have hj := hjs j (by simp)
    obtain ⟨s1, h1, I1, ho⟩ := inv_step W skip hP I hj
    simp only [parRun, h1] at h
    have := ih s1 s' (fun k hk => hjs k (by simp [hk])) I1 h
    rw [List.count_cons]
    by_cases hij : j = i
    · subst hij
      have hr := step_rank (I.proto.levels j hj) h1
      simp; omega
    · rw [ho i (Ne.symm hij)] at this
      simp [hij]; exact this

/-- **C18.** Eight steps of each job are enough to finish, in whatever order: no job waits for another. -/
theorem parallel_sort_finishes (W : Weak P lt) (skip : Bool) (a w : List α) (hP : ∀ x ∈ a, P x)
    (hw : a.length ≤ w.length) (js : List Nat) (hjs : ∀ j ∈ js, j < 8) (hfair : ∀ j, j < 8 → 8 ≤ js.count j) :
    ∃ s, parRun lt skip a.length js (parInit a w) = some s ∧ allDone s := by
  obtain ⟨s, h, I⟩ := parRun_inv W skip hP js _ hjs (inv_init a w hw)
  refine ⟨s, h, fun j hj => ?_⟩
  have hr := run_rank W skip hP j hj js _ s hjs (inv_init a w hw) h
  have h8 := hfair j hj
  have h0 : (s.pc j).rank = 0 := by
    change _ ≤ 8 - js.count j at hr; omega
  have hlv := I.proto.levels j hj
  cases hp : s.pc j with
  | todo => rw [hp] at h0; simp [Pc.rank] at h0
  | work l => rw [hp] at h0 hlv; simp only [Pc.rank, Pc.lvOk] at h0 hlv; omega
  | post l => rw [hp] at h0 hlv; simp only [Pc.rank, Pc.lvOk] at h0 hlv; omega
  | done l => exact ⟨l, rfl⟩

/-! ## A concrete run -/

/-- Rows 0..9 by these values; the jobs run in an interleaved order. -/
def exVals : List Nat := [3, 1, 2, 3, 0, 2, 1, 3, 0, 2]
def exLt (x y : Nat) : Bool := exVals.getD x 0 < exVals.getD y 0
def exRun : List Nat := (List.range 8).flatMap (fun _ => [7, 2, 0, 5, 1, 3, 6, 4])

example : Weak (fun _ => True) exLt :=
  ⟨fun x y _ _ h => by simp only [exLt, decide_eq_true_eq, decide_eq_false_iff_not] at *; omega,
   fun x y z _ _ _ h1 h2 => by simp only [exLt, decide_eq_false_iff_not] at *; omega⟩
example : (∀ j ∈ exRun, j < 8) ∧ ∀ j, j < 8 → 8 ≤ exRun.count j := by decide
example : ((parRun exLt true 10 exRun (parInit (List.range 10) (List.replicate 10 99))).map fun s => s.a) =
    some [4, 8, 1, 6, 2, 5, 9, 0, 3, 7] := by decide +kernel
/-- In this run jobs 2 and 5 are at work at the same time at some point. -/
example : ((parRun exLt true 10 [2, 5, 7, 7] (parInit (List.range 10) (List.replicate 10 99))).map fun s =>
    (s.pc 2, s.pc 5, s.pc 7)) = some (.work 0, .work 0, .post 0) := by decide +kernel

end Riptide.Sort
