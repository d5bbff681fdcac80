import Verif.Window.Model
import Verif.Window.Spec
/-! # Theorems about time windows -/
namespace Riptide.Window
open Riptide.Work

/-- Windows of sorted times are contiguous: scanning back from row `i` until the first row outside
finds every row inside. -/
theorem back_eq {α : Type} (op : α → α → α) (xs : List α) (time : List Int) (delta : Int)
    (val : Nat → α) (tm : Nat → Int) (i : Nat) (hx : ∀ j, j < i → xs[j]? = some (val j))
    (ht : ∀ j, j < i → time[j]? = some (tm j))
    (hrange : ∀ j, j < i → IT.i64.InRange (tm i - tm j))
    (hsorted : ∀ j k, j ≤ k → k ≤ i → tm j ≤ tm k) : ∀ (n : Nat) (acc : α), n ≤ i →
    back op xs time delta (tm i) acc n =
      some ((((List.range n).filter fun j => decide (tm i - tm j ≤ delta)).reverse.map val).foldl op acc)
  | 0, acc, _ => by simp [back]
  | n + 1, acc, hn => by
    unfold back
    rw [ht n (by omega)]
    simp only
    rw [IT.wrap_of_inRange _ (by decide) (hrange n (by omega)), hx n (by omega)]
    by_cases hd : tm i - tm n ≤ delta
    · simp only [hd, if_true]
      rw [back_eq op xs time delta val tm i hx ht hrange hsorted n _ (by omega), List.range_succ,
        List.filter_append]
      simp [hd]
    · simp only [hd, if_false]
      have hnil : (List.range (n + 1)).filter (fun j => decide (tm i - tm j ≤ delta)) = [] := by
        rw [List.filter_eq_nil_iff]
        intro j hj
        have hj' : j < n + 1 := by simpa using hj
        have := hsorted j n (by omega) (by omega)
        simp only [decide_eq_true_eq]; omega
      rw [hnil]; rfl

/-- C40: for non-decreasing times and a non-negative delta, every output row combines exactly the
values of the rows of its window, from the row itself backwards, for every split over threads. -/
theorem time_window_partial {α : Type} (op : α → α → α) (xs : List α) (time : List Int) (delta : Int)
    (hl : xs.length = time.length) (hd : 0 ≤ delta) (val : Nat → α) (tm : Nat → Int)
    (hx : ∀ j, j < xs.length → xs[j]? = some (val j))
    (ht : ∀ j, j < xs.length → time[j]? = some (tm j))
    (hsorted : ∀ j k, j ≤ k → k < xs.length → tm j ≤ tm k)
    (hrange : ∀ j k, j ≤ k → k < xs.length → tm k - tm j ≤ IT.i64.hi)
    (workers : Nat) (nt : Bool) (par : Option (List Nat)) (h : ChunkSched workers xs.length nt par) :
    ∃ out : List α, timeWindow op xs time delta par = some (out.map some) ∧ out.length = xs.length ∧
      ∀ i, i < xs.length → ∃ rest, windowRows tm delta i = i :: rest ∧
        out[i]? = some ((rest.map val).foldl op (val i)) := by
  have hw : ∀ i, windowRows tm delta i =
      i :: ((List.range i).filter fun j => decide (tm i - tm j ≤ delta)).reverse := by
    intro i
    unfold windowRows
    rw [List.range_succ, List.filter_append, List.reverse_append]
    have : [i].filter (fun j => decide (tm i - tm j ≤ delta)) = [i] := by simp [hd]
    rw [this]; rfl
  let g : Nat → α := fun i => (((List.range i).filter fun j => decide (tm i - tm j ≤ delta)).reverse.map val).foldl op (val i)
  have hrow : ∀ i, i < xs.length → row op xs time delta i = some (g i) := by
    intro i hi
    unfold row
    rw [hx i hi, ht i hi]
    simp only
    exact back_eq op xs time delta val tm i (fun j hj => hx j (by omega)) (fun j hj => ht j (by omega))
      (fun j hj => by
        have h1 := hrange j i (by omega) hi
        have h2 := hsorted j i (by omega) hi
        refine ⟨?_, h1⟩
        have : IT.i64.lo ≤ 0 := by decide
        omega)
      (fun j k hjk hk => hsorted j k hjk (by omega)) i _ (Nat.le_refl _)
  refine ⟨(List.range xs.length).map g, elemWork_exact _ g hrow h, by simp, ?_⟩
  intro i hi
  exact ⟨_, hw i, by simp [hi, g]⟩

/-- Wrapping addition and multiplication of a 64-bit output type: the folds are the wrapped sum and
product. -/
theorem foldl_wrap_add (t : IT) (hb : 0 < t.bits) (l : List Int) (a : Int) (ha : t.InRange a) :
    l.foldl (fun s x => t.wrap (s + x)) a = t.wrap (a + l.sum) := by
  induction l generalizing a with
  | nil => simp [t.wrap_of_inRange hb ha]
  | cons x l ih =>
    rw [List.foldl_cons, ih _ (t.wrap_inRange hb _), List.sum_cons]
    unfold IT.wrap
    congr 1
    have e1 : (a + x - t.lo) % 2 ^ t.bits + t.lo + l.sum - t.lo = (a + x - t.lo) % 2 ^ t.bits + l.sum := by
      omega
    rw [e1, Int.emod_add_emod]
    congr 1; omega

theorem foldl_wrap_mul (t : IT) (hb : 0 < t.bits) (l : List Int) (a : Int) (ha : t.InRange a) :
    l.foldl (fun s x => t.wrap (s * x)) a = t.wrap (a * l.foldr (· * ·) 1) := by
  have key : ∀ (u v : Int), u % 2 ^ t.bits = v % 2 ^ t.bits → t.wrap u = t.wrap v := by
    intro u v h
    unfold IT.wrap
    rw [Int.sub_emod, h, ← Int.sub_emod]
  have wmod : ∀ u : Int, t.wrap u % 2 ^ t.bits = u % 2 ^ t.bits := by
    intro u
    unfold IT.wrap
    rw [Int.emod_add_emod]
    congr 1; omega
  induction l generalizing a with
  | nil => simp [t.wrap_of_inRange hb ha]
  | cons x l ih =>
    rw [List.foldl_cons, ih _ (t.wrap_inRange hb _), List.foldr_cons]
    apply key
    rw [Int.mul_emod, wmod, ← Int.mul_emod, Int.mul_assoc]

/-- C40 for integer sums: output row `i` is the sum over its window in the 64-bit output type. -/
theorem time_window_sum_partial (t : IT) (hb : 0 < t.bits) (xs time : List Int) (delta : Int)
    (hl : xs.length = time.length) (hd : 0 ≤ delta) (val tm : Nat → Int)
    (hx : ∀ j, j < xs.length → xs[j]? = some (val j)) (hv : ∀ x ∈ xs, t.InRange x)
    (ht : ∀ j, j < xs.length → time[j]? = some (tm j))
    (hsorted : ∀ j k, j ≤ k → k < xs.length → tm j ≤ tm k)
    (hrange : ∀ j k, j ≤ k → k < xs.length → tm k - tm j ≤ IT.i64.hi)
    (workers : Nat) (nt : Bool) (par : Option (List Nat)) (h : ChunkSched workers xs.length nt par) :
    ∃ out : List Int, timeWindow (fun s x => t.wrap (s + x)) xs time delta par = some (out.map some) ∧
      out.length = xs.length ∧
      ∀ i, i < xs.length → out[i]? = some (t.wrap ((windowRows tm delta i).map val).sum) := by
  obtain ⟨out, e, hlen, ho⟩ := time_window_partial (fun s x => t.wrap (s + x)) xs time delta hl hd val tm
    hx ht hsorted hrange workers nt par h
  refine ⟨out, e, hlen, fun i hi => ?_⟩
  obtain ⟨rest, hw, hr⟩ := ho i hi
  rw [hr, foldl_wrap_add t hb _ _ (hv _ (List.mem_of_getElem? (hx i hi))), hw, List.map_cons,
    List.sum_cons]

/-- C40 for integer products. -/
theorem time_window_prod_partial (t : IT) (hb : 0 < t.bits) (xs time : List Int) (delta : Int)
    (hl : xs.length = time.length) (hd : 0 ≤ delta) (val tm : Nat → Int)
    (hx : ∀ j, j < xs.length → xs[j]? = some (val j)) (hv : ∀ x ∈ xs, t.InRange x)
    (ht : ∀ j, j < xs.length → time[j]? = some (tm j))
    (hsorted : ∀ j k, j ≤ k → k < xs.length → tm j ≤ tm k)
    (hrange : ∀ j k, j ≤ k → k < xs.length → tm k - tm j ≤ IT.i64.hi)
    (workers : Nat) (nt : Bool) (par : Option (List Nat)) (h : ChunkSched workers xs.length nt par) :
    ∃ out : List Int, timeWindow (fun s x => t.wrap (s * x)) xs time delta par = some (out.map some) ∧
      out.length = xs.length ∧
      ∀ i, i < xs.length →
        out[i]? = some (t.wrap (((windowRows tm delta i).map val).foldr (· * ·) 1)) := by
  obtain ⟨out, e, hlen, ho⟩ := time_window_partial (fun s x => t.wrap (s * x)) xs time delta hl hd val tm
    hx ht hsorted hrange workers nt par h
  refine ⟨out, e, hlen, fun i hi => ?_⟩
  obtain ⟨rest, hw, hr⟩ := ho i hi
  rw [hr, foldl_wrap_mul t hb _ _ (hv _ (List.mem_of_getElem? (hx i hi))), hw, List.map_cons,
    List.foldr_cons]

example : timeWindow (fun s x => IT.i64.wrap (s + x)) [1, 2, 4, 8] [10, 11, 11, 15] 1 none =
    some [some 1, some 3, some 7, some 8] := by decide
example : windowRows (fun j => [10, 11, 11, 15].getD j 0) 1 2 = [2, 1, 0] := by decide

/-- For a negative delta the row itself does not belong to its window but is still added. -/
theorem negative_delta_includes_row :
    timeWindow (fun s x => IT.i64.wrap (s + x)) [7] [10] (-1) none = some [some 7] ∧
    windowRows (fun _ => 10) (-1) 0 = [] := by decide

/-- Times that are not sorted: the scan stops at the first row outside the window. -/
theorem unsorted_times_stop_early :
    timeWindow (fun s x => IT.i64.wrap (s + x)) [1, 2, 4] [10, 0, 10] 1 none =
      some [some 1, some 3, some 4] ∧
    windowRows (fun j => [10, 0, 10].getD j 0) 1 2 = [2, 0] := by decide

end Riptide.Window
