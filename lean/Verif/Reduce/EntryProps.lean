import Verif.Reduce.Entry
/-! # Theorems about which elements `Reduce` reads -/
namespace Riptide.Reduce
open Riptide.Binary

/-- Where the items of an array are, in C order of their indices. -/
def allOffs : List Nat → List Int → List Int
  | d :: ds, s :: ss => (List.range d).flatMap fun (i : Nat) => (allOffs ds ss).map fun (o : Int) => (i : Int) * s + o
  | _, _ => [0]

/-- Every item is read once, and nothing else. -/
def ReadsAll (a : Lay) : Reads → Prop
  | .punt => True
  | .at l => l.Perm (allOffs a.dims a.strides)

theorem flatMap_append_perm {α β : Type} (f g : α → List β) : ∀ l : List α,
    (l.flatMap fun x => f x ++ g x).Perm (l.flatMap f ++ l.flatMap g)
  | [] => .refl _
  | x :: l => by
    have ih := flatMap_append_perm f g l
    simp only [List.flatMap_cons]
    have h1 : (f x ++ g x ++ l.flatMap fun x => f x ++ g x).Perm (f x ++ g x ++ (l.flatMap f ++ l.flatMap g)) :=
      ih.append_left _
    refine h1.trans ?_
    rw [List.append_assoc, List.append_assoc]
    refine List.Perm.append_left _ ?_
    rw [← List.append_assoc, ← List.append_assoc]
    exact List.Perm.append_right _ List.perm_append_comm

theorem columns_perm (d it : Nat) : ∀ P : Nat,
    ((List.range d).flatMap fun (i : Nat) => (List.range P).map fun (k : Nat) => (i : Int) * it + ((k * (it * d) : Nat) : Int)).Perm
      (flat it (d * P))
  | 0 => by
    simp only [List.range_zero, List.map_nil, Nat.mul_zero, flat]
    rw [List.flatMap_eq_nil_iff.2 (by simp)]
  | P + 1 => by
    have ih := columns_perm d it P
    have e1 : ((List.range d).flatMap fun (i : Nat) => (List.range (P + 1)).map fun (k : Nat) => (i : Int) * it + ((k * (it * d) : Nat) : Int)) =
        (List.range d).flatMap fun (i : Nat) =>
          (List.range P).map (fun (k : Nat) => (i : Int) * it + ((k * (it * d) : Nat) : Int)) ++ [(i : Int) * it + ((P * (it * d) : Nat) : Int)] := by
      simp [List.range_succ]
    rw [e1]
    refine (flatMap_append_perm _ _ _).trans ?_
    have e2 : flat it (d * (P + 1)) = flat it (d * P) ++ (List.range d).flatMap fun (i : Nat) => [(i : Int) * it + ((P * (it * d) : Nat) : Int)] := by
      unfold flat
      rw [Nat.mul_succ, List.range_add, List.map_append, List.map_map]
      congr 1
      rw [← List.map_eq_flatMap]
      refine List.map_congr_left fun i _ => ?_
      simp only [Function.comp]
      have : (d * P + i) * it = i * it + P * (it * d) := by grind
      rw [this]
      simp
    rw [e2]
    exact ih.append_right _

theorem flatMap_perm {α β : Type} {f g : α → List β} : ∀ {l : List α}, (∀ x ∈ l, (f x).Perm (g x)) →
    (l.flatMap f).Perm (l.flatMap g)
  | [], _ => .refl _
  | x :: l, h => by
    simp only [List.flatMap_cons]
    exact (h x (by simp)).append (flatMap_perm fun y hy => h y (by simp [hy]))

/-- The items of a Fortran-contiguous array are one after the other. -/
theorem fortran_perm : ∀ (dims : List Nat) (ss : List Int) (it : Nat), sameStrides dims ss (fStrides it dims) = true →
    (allOffs dims ss).Perm (flat it (prod dims))
  | [], [], it, _ => by simp [allOffs, flat, prod]
  | d :: r, s :: ss, it, h => by
    simp only [fStrides, sameStrides, Bool.and_eq_true, Bool.or_eq_true, decide_eq_true_eq] at h
    have ih := fortran_perm r ss (it * d) h.2
    simp only [allOffs, prod]
    refine List.Perm.trans ?_ (columns_perm d it (prod r))
    refine flatMap_perm fun i hi => ?_
    have hi' : i < d := by simpa using hi
    have hs : (i : Int) * s = (i : Int) * it := by
      rcases h.1 with h1 | h1
      · have : i = 0 := by omega
        subst this; simp
      · rw [h1]
    refine (ih.map _).trans ?_
    unfold flat
    rw [List.map_map]
    refine List.Perm.of_eq (List.map_congr_left fun k _ => ?_)
    simp only [Function.comp, hs]

/-- C105 (partial: the array is Fortran-contiguous, or one-dimensional as in `reduce_one_dim`; exactly when in two dimensions, see
`reduce_two_dim`): every item of the array is read once. -/
theorem reduce_fortran_partial (a : Lay) (hd : a.dims ≠ []) (hs : a.strides.length = a.dims.length) (hf : a.fContig = true) :
    ∃ r, reduceReads a = some r ∧ ReadsAll a r ∧ (a.len ≠ 0 → r ≠ .punt) := by
  obtain ⟨dims, strides, item⟩ := a
  match dims, strides with
  | [], _ => exact absurd rfl hd
  | _ :: _, [] => simp at hs
  | d :: ds, s :: ss =>
    by_cases h0 : Lay.len ⟨d :: ds, s :: ss, item⟩ = 0
    · refine ⟨.punt, ?_, trivial, fun h => absurd h0 h⟩
      unfold reduceReads
      simp only [h0, if_true]
      split <;> rfl
    · have hf' : sameStrides (d :: ds) (s :: ss) (fStrides item (d :: ds)) = true := by
        unfold Lay.fContig at hf
        simpa [h0] using hf
      have hp := fortran_perm _ _ _ hf'
      have hg : d ≤ 1 ∨ s = (item : Int) := by
        simp only [fStrides, sameStrides, Bool.and_eq_true, Bool.or_eq_true, decide_eq_true_eq] at hf'
        rcases hf'.1 with h | h
        · left; omega
        · exact .inr h
      refine ⟨.at (flat item (Lay.len ⟨d :: ds, s :: ss, item⟩)), ?_, hp.symm, fun _ => nofun⟩
      unfold reduceReads
      simp only [hg, h0, if_true, if_false]

example : reduceReads ⟨[2, 3], [8, 16], 8⟩ = some (.at [0, 8, 16, 24, 32, 40]) := by decide
example : Lay.fContig ⟨[2, 3], [8, 16], 8⟩ = true := by decide

/-- C105, arrays with one dimension: right whatever the stride is; it is left to numpy if there are gaps. -/
theorem reduce_one_dim (n : Nat) (s : Int) (item : Nat) :
    ∃ r, reduceReads ⟨[n], [s], item⟩ = some r ∧ ReadsAll ⟨[n], [s], item⟩ r ∧
      (r ≠ .punt ↔ n = 1 ∨ (n ≠ 0 ∧ s = (item : Int))) := by
  have hl : Lay.len ⟨[n], [s], item⟩ = n := by simp [Lay.len, prod]
  by_cases h0 : n = 0
  · subst h0
    exact ⟨.punt, by simp [reduceReads, hl], trivial, by simp⟩
  · by_cases hg : n ≤ 1 ∨ s = (item : Int)
    · have hf : Lay.fContig ⟨[n], [s], item⟩ = true := by
        unfold Lay.fContig
        simp only [fStrides, sameStrides]
        rcases hg with h | h
        · have : n = 1 := by omega
          simp [this]
        · simp [h]
      obtain ⟨r, h1, h2, h3⟩ := reduce_fortran_partial ⟨[n], [s], item⟩ (by simp) (by simp) hf
      refine ⟨r, h1, h2, fun _ => ?_, fun _ => h3 (by rw [hl]; exact h0)⟩
      rcases hg with h | h
      · left; omega
      · exact .inr ⟨h0, h⟩
    · refine ⟨.punt, ?_, trivial, ?_⟩
      · unfold reduceReads
        simp only [hg, if_false]
      · simp only [ne_eq, not_true_eq_false, false_iff]
        intro h
        exact hg (h.imp (by omega) (·.2))

example : reduceReads ⟨[3], [16], 8⟩ = some .punt := by decide
example : reduceReads ⟨[3], [8], 8⟩ = some (.at [0, 8, 16]) := by decide

/-! ### Two dimensions -/

theorem sum_range_scaled (c b : Int) : ∀ n : Nat,
    2 * ((List.range n).map fun (k : Nat) => (k : Int) * c + b).sum = n * (n - 1) * c + 2 * n * b
  | 0 => by simp
  | n + 1 => by
    have ih := sum_range_scaled c b n
    rw [List.range_succ, List.map_append, List.sum_append, Int.mul_add, ih]
    simp only [List.map_cons, List.map_nil, List.sum_cons, List.sum_nil]
    grind

theorem flat_sum (item n : Nat) : 2 * (flat item n).sum = n * (n - 1) * item := by
  have := sum_range_scaled item 0 n
  unfold flat
  have e : (fun (k : Nat) => ((k * item : Nat) : Int)) = fun (k : Nat) => (k : Int) * item + 0 := by
    funext k; simp
  rw [e, this]; simp

theorem sum_flatMap_range (f : Nat → List Int) : ∀ n : Nat,
    ((List.range n).flatMap f).sum = ((List.range n).map fun (i : Nat) => (f i).sum).sum
  | 0 => rfl
  | n + 1 => by
    rw [List.range_succ, List.flatMap_append, List.sum_append, List.map_append, List.sum_append, sum_flatMap_range f n]
    simp

theorem allOffs_two (m n : Nat) (s t : Int) :
    allOffs [m, n] [s, t] = (List.range m).flatMap fun (i : Nat) => (List.range n).map fun (j : Nat) => (j : Int) * t + (i : Int) * s := by
  simp only [allOffs]
  congr 1
  funext i
  rw [List.map_flatMap]
  simp only [List.map_cons, List.map_nil]
  rw [← List.map_eq_flatMap]
  refine List.map_congr_left fun j _ => ?_
  omega

theorem double_map_sum {α : Type} (f g : α → Int) (h : ∀ x, 2 * f x = g x) : ∀ l : List α,
    2 * (l.map f).sum = (l.map g).sum
  | [] => rfl
  | x :: l => by simp only [List.map_cons, List.sum_cons, Int.mul_add, h, double_map_sum f g h l]

theorem allOffs_two_sum (m n : Nat) (s t : Int) :
    2 * (allOffs [m, n] [s, t]).sum = m * (n * (n - 1) * t) + n * (m * (m - 1) * s) := by
  rw [allOffs_two, sum_flatMap_range, double_map_sum _ _ (fun (i : Nat) => sum_range_scaled t ((i : Int) * s) n)]
  have e : (fun (i : Nat) => (n : Int) * (n - 1) * t + 2 * n * ((i : Int) * s)) =
      fun (i : Nat) => (i : Int) * (2 * n * s) + (n : Int) * (n - 1) * t := by
    funext i; grind
  rw [e]
  have := sum_range_scaled (2 * n * s) ((n : Int) * (n - 1) * t) m
  have : 2 * ((List.range m).map fun (i : Nat) => (i : Int) * (2 * n * s) + (n : Int) * (n - 1) * t).sum =
      2 * (m * (n * (n - 1) * t) + n * (m * (m - 1) * s)) := by rw [this]; grind
  omega

/-- C105 in two dimensions: what `Reduce` does not leave to numpy is right exactly if the second dimension has one item or follows
the first one without a gap. -/
theorem reduce_two_dim (m n : Nat) (s t : Int) (item : Nat) (hm : 0 < m) (hn : 0 < n) (hg : m = 1 ∨ s = (item : Int)) :
    ∃ l, reduceReads ⟨[m, n], [s, t], item⟩ = some (.at l) ∧
      (ReadsAll ⟨[m, n], [s, t], item⟩ (.at l) ↔ n = 1 ∨ t = (item : Int) * m) := by
  have hl : Lay.len ⟨[m, n], [s, t], item⟩ = m * n := by simp [Lay.len, prod]
  have hpos : 0 < m * n := Nat.mul_pos hm hn
  refine ⟨flat item (m * n), ?_, ?_, ?_⟩
  · unfold reduceReads
    have h1 : m ≤ 1 ∨ s = (item : Int) := hg.imp (by omega) id
    simp only [h1, if_true, hl]
    rw [if_neg (by omega)]
  · intro h
    have h' : (flat item (m * n)).Perm (allOffs [m, n] [s, t]) := h
    have hsum : 2 * (flat item (m * n)).sum = 2 * (allOffs [m, n] [s, t]).sum := by
      have : ∀ {a b : List Int}, a.Perm b → a.sum = b.sum := by
        intro a b hp
        induction hp with
        | nil => rfl
        | cons x _ ih => simp [ih]
        | swap x y l => simp only [List.sum_cons]; omega
        | trans _ _ i1 i2 => exact i1.trans i2
      rw [this h']
    rw [flat_sum, allOffs_two_sum] at hsum
    by_cases hn1 : n = 1
    · exact .inl hn1
    · right
      have hs : (m : Int) * (m - 1) * s = m * (m - 1) * item := by
        rcases hg with h | h
        · subst h; simp
        · rw [h]
      have hk : (m : Int) * n * ((n - 1) * (t - item * m)) = 0 := by
        have e : ((m * n : Nat) : Int) = m * n := by simp
        rw [e, hs] at hsum
        grind
      have hmn : (m : Int) * n ≠ 0 := by
        have : ((m * n : Nat) : Int) ≠ 0 := by omega
        simpa using this
      have h1 := (Int.mul_eq_zero.1 hk).resolve_left hmn
      have h2 := (Int.mul_eq_zero.1 h1).resolve_left (by omega)
      omega
  · intro h
    have hp := fortran_perm [m, n] [s, t] item (by
      simp only [fStrides, sameStrides, Bool.and_eq_true, Bool.or_eq_true, decide_eq_true_eq, and_true]
      refine ⟨hg, h.imp id fun h => ?_⟩
      rw [h]; simp)
    have e : prod [m, n] = m * n := by simp [prod]
    rw [e] at hp
    exact hp.symm

/-- C105 does not hold for a row of a matrix with gaps, kept two-dimensional, … -/
theorem reduce_row_wrong :
    reduceReads ⟨[1, 3], [48, 16], 8⟩ = some (.at [0, 8, 16]) ∧
    allOffs [1, 3] [48, 16] = [0, 16, 32] ∧ ¬ ReadsAll ⟨[1, 3], [48, 16], 8⟩ (.at [0, 8, 16]) := by
  refine ⟨by decide, by decide, fun h => ?_⟩
  have : (8 : Int) ∈ allOffs [1, 3] [48, 16] := List.Perm.mem_iff h |>.1 (by simp)
  exact absurd this (by decide)

/-- … nor for the upper rows of a column-major matrix, … -/
theorem reduce_column_major_wrong :
    reduceReads ⟨[2, 2], [8, 24], 8⟩ = some (.at [0, 8, 16, 24]) ∧
    ¬ ReadsAll ⟨[2, 2], [8, 24], 8⟩ (.at [0, 8, 16, 24]) := by
  refine ⟨by decide, fun h => ?_⟩
  have : (16 : Int) ∈ allOffs [2, 2] [8, 24] := List.Perm.mem_iff h |>.1 (by simp)
  exact absurd this (by decide)

/-- … and an array without dimensions is undefined. -/
theorem reduce_scalar_undefined (item : Nat) : reduceReads ⟨[], [], item⟩ = none := rfl

end Riptide.Reduce
