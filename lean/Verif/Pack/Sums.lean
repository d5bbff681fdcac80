import Verif.Pack.Place
/-! Sums of counts and running sums. -/
namespace Riptide.Pack
open Riptide.Work Spec

theorem length_rowsOf (keys : List Int) (b : Nat) :
    (rowsOf keys b).length = keys.count (b : Int) := by
  unfold rowsOf
  rw [← List.countP_eq_length_filter]
  have h1 : (List.range keys.length).map (fun i => keys[i]?) = keys.map some := by
    apply List.ext_getElem?
    intro i
    by_cases hi : i < keys.length <;> simp [hi]
  have h2 := List.countP_map (p := fun x => x == some (b : Int)) (f := fun i : Nat => keys[i]?)
    (l := List.range keys.length)
  have h3 := List.countP_map (p := fun x => x == some (b : Int)) (f := (some : Int → Option Int))
    (l := keys)
  rw [h1] at h2
  simp only [Function.comp_def] at h2 h3
  rw [← h2, h3, List.count]
  congr 1

/-- Distinct bins have disjoint sets of rows. -/
theorem sum_filter_le (key : Nat → Option Int) : ∀ (l D : List Nat), D.Nodup →
    (D.map fun b : Nat => (l.filter fun i => key i == some (b : Int)).length).sum ≤ l.length := by
  intro l
  induction l with
  | nil =>
    intro D _
    have : ∀ D : List Nat, (D.map fun _ => 0).sum = 0 := by
      intro D; induction D with
      | nil => rfl
      | cons d D ih => simpa using ih
    simp [this]
  | cons i l ih =>
    intro D hD
    have gen : ∀ (D : List Nat), D.Nodup →
        (D.map fun b : Nat => ((i :: l).filter fun i => key i == some (b : Int)).length).sum =
        (D.map fun b : Nat => (l.filter fun i => key i == some (b : Int)).length).sum +
          D.countP (fun b : Nat => key i == some (b : Int)) := by
      intro D _
      induction D with
      | nil => rfl
      | cons d D ihD =>
        have hD' := ihD (by rename_i h; exact (List.nodup_cons.1 h).2)
        simp only [List.map_cons, List.sum_cons, List.countP_cons]
        rw [hD', List.filter_cons]
        by_cases hk : (key i == some (d : Int)) = true
        · rw [if_pos hk, if_pos hk, List.length_cons]; omega
        · rw [if_neg hk, if_neg hk]; omega
    rw [gen D hD]
    have h1 := ih D hD
    have h2 : D.countP (fun b : Nat => key i == some (b : Int)) ≤ 1 := by
      clear h1 gen ih
      induction D with
      | nil => simp
      | cons d D ihD =>
        have hnd := List.nodup_cons.1 hD
        rw [List.countP_cons]
        by_cases hk : (key i == some (d : Int)) = true
        · rw [if_pos hk]
          have : D.countP (fun b : Nat => key i == some (b : Int)) = 0 := by
            rw [List.countP_eq_zero]
            intro b hb hkb
            have e1 : key i = some (d : Int) := by simpa using hk
            have e2 : key i = some (b : Int) := by simpa using hkb
            rw [e1] at e2
            have : d = b := by have := Option.some.inj e2; omega
            subst this; exact hnd.1 hb
          omega
        · rw [if_neg hk]; have := ihD hnd.2; omega
    simp only [List.length_cons]; omega

theorem sum_rowsOf_le (keys : List Int) (D : List Nat) (h : D.Nodup) :
    (D.map fun b => (rowsOf keys b).length).sum ≤ keys.length := by
  have := sum_filter_le (fun i => keys[i]?) (List.range keys.length) D h
  simpa [rowsOf] using this

theorem sum_range_rowsOf_le (keys : List Int) {k bins : Nat} (_h : k ≤ bins) :
    ((List.range k).map fun b => (rowsOf keys b).length).sum ≤ keys.length :=
  sum_rowsOf_le keys _ List.nodup_range

/-! ## The exclusive running sum of `GroupFromBinCount` -/

/-- The rows in the bins before `b`. -/
def before (keys : List Int) (b : Nat) : Nat :=
  ((List.range b).map fun b => (rowsOf keys b).length).sum

theorem before_succ (keys : List Int) (b : Nat) :
    before keys (b + 1) = before keys b + (rowsOf keys b).length := by
  simp [before, List.range_succ, List.sum_append]

theorem before_le (keys : List Int) (b : Nat) : before keys b ≤ keys.length :=
  sum_range_rowsOf_le keys (Nat.le_refl b)

theorem before_mono (keys : List Int) {a b : Nat} (h : a < b) :
    before keys a + (rowsOf keys a).length ≤ before keys b := by
  induction b with
  | zero => omega
  | succ b ih =>
    rw [before_succ]
    by_cases hab : a = b
    · subst hab; omega
    · have := ih (by omega); omega

theorem outType_bits (n : Nat) : 0 < (outType n).bits := by
  unfold outType; split <;> decide

/-- Every count, cursor and row number fits the chosen output type. -/
theorem outType_fits {rows v : Nat} (h : rows < 2 ^ 63) (hv : v ≤ rows) :
    (outType rows).InRange (v : Int) := by
  unfold outType
  split
  · unfold IT.InRange IT.lo IT.hi IT.i64
    simp only [if_true]
    have : (2 : Int) ^ (64 - 1) = 9223372036854775808 := by decide
    omega
  · unfold IT.InRange IT.lo IT.hi IT.i32
    simp only [if_true]
    have : (2 : Int) ^ (32 - 1) = 2147483648 := by decide
    omega

theorem cumsum_eq {keys : List Int} (hn : keys.length < 2 ^ 63) : ∀ (k b : Nat),
    cumsum (outType keys.length) (before keys b)
      ((List.range' b k).map fun b => ((rowsOf keys b).length : Int)) =
    some ((List.range' b k).map fun b => (before keys b : Int)) := by
  intro k
  induction k with
  | zero => intro b; rfl
  | succ k ih =>
    intro b
    rw [List.range'_succ, List.map_cons, cumsum]
    have e : (before keys b : Int) + ((rowsOf keys b).length : Int) = (before keys (b + 1) : Int) := by
      rw [before_succ]; omega
    rw [e, if_pos (outType_fits hn (before_le keys _)), ih (b + 1)]
    rfl

/-! ## The running sum over the matrix of counts -/

/-- One entry of the running sum. -/
theorem prefix_step (order : List Nat) : ∀ (acc : Int) (mem : List Int), order.Nodup →
    (∀ p ∈ order, p < mem.length) →
    let r := (order.foldl (fun (s : Int × List Int) p => (s.1 + s.2[p]?.getD 0, s.2.set p s.1))
      (acc, mem)).2
    r.length = mem.length ∧ (∀ p, p ∉ order → r[p]? = mem[p]?) ∧
    ∀ pre c post, order = pre ++ c :: post →
      r[c]? = some (acc + (pre.map fun d => mem[d]?.getD 0).sum) := by
  induction order with
  | nil => intro acc mem _ _; exact ⟨rfl, fun _ _ => rfl, by simp⟩
  | cons p order ih =>
    intro acc mem hnd hlt
    have hnd' := List.nodup_cons.1 hnd
    have hp := hlt p (by simp)
    obtain ⟨h1, h2, h3⟩ := ih (acc + mem[p]?.getD 0) (mem.set p acc) hnd'.2
      (fun q hq => by simpa using hlt q (by simp [hq]))
    simp only [List.foldl_cons]
    refine ⟨by simpa using h1, ?_, ?_⟩
    · intro q hq
      simp only [List.mem_cons, not_or] at hq
      rw [h2 q hq.2, List.getElem?_set_ne (Ne.symm hq.1)]
    · intro pre c post he
      cases pre with
      | nil =>
        simp only [List.nil_append, List.cons.injEq] at he
        obtain ⟨rfl, rfl⟩ := he
        rw [h2 p hnd'.1, List.getElem?_set_self hp]
        simp
      | cons x pre =>
        simp only [List.cons_append, List.cons.injEq] at he
        obtain ⟨rfl, he⟩ := he
        rw [h3 pre c post he]
        have : pre.map (fun d => (mem.set p acc)[d]?.getD 0) = pre.map (fun d => mem[d]?.getD 0) := by
          apply List.map_congr_left
          intro d hd
          have : p ≠ d := by
            intro h; subst h
            exact hnd'.1 (by rw [he]; simp [hd])
          rw [List.getElem?_set_ne this]
        rw [this]
        simp only [List.map_cons, List.sum_cons]
        congr 1; omega

theorem flatten_get {α : Type} {bins : Nat} : ∀ (L : List (List α)) (t b : Nat),
    (∀ l ∈ L, l.length = bins) → b < bins → L.flatten[t * bins + b]? = (L[t]?).bind (·[b]?) := by
  intro L
  induction L with
  | nil => intro t b _ _; simp
  | cons l L ih =>
    intro t b h hb
    have hl := h l (by simp)
    rw [List.flatten_cons]
    cases t with
    | zero => rw [List.getElem?_append_left (by omega)]; simp
    | succ t =>
      rw [Nat.succ_mul, List.getElem?_append_right (by omega)]
      rw [show t * bins + bins + b - l.length = t * bins + b by omega]
      rw [ih t b (fun x hx => h x (by simp [hx])) hb]
      simp

theorem pos_inj {bins t t' b b' : Nat} (hb : b < bins) (hb' : b' < bins)
    (h : t * bins + b = t' * bins + b') : t = t' ∧ b = b' := by
  have h1 : (t * bins + b) / bins = t := by
    rw [Nat.mul_comm, Nat.mul_add_div (by omega), Nat.div_eq_of_lt hb]; omega
  have h2 : (t' * bins + b') / bins = t' := by
    rw [Nat.mul_comm, Nat.mul_add_div (by omega), Nat.div_eq_of_lt hb']; omega
  have : t = t' := by rw [← h1, h, h2]
  subst this
  exact ⟨rfl, by omega⟩

theorem mem_colOrder {bins cores c : Nat} (h : c ∈ colOrder bins cores) :
    ∃ t b, t < cores ∧ b < bins ∧ c = t * bins + b := by
  unfold colOrder at h
  obtain ⟨b, hb, hc⟩ := List.mem_flatMap.1 h
  obtain ⟨t, ht, rfl⟩ := List.mem_map.1 hc
  exact ⟨t, b, List.mem_range.1 ht, List.mem_range.1 hb, rfl⟩

theorem colOrder_nodup (bins cores : Nat) : (colOrder bins cores).Nodup := by
  have gen : ∀ k, k ≤ bins → ((List.range k).flatMap fun i =>
      (List.range cores).map fun t => t * bins + i).Nodup := by
    intro k
    induction k with
    | zero => intro _; simp
    | succ k ih =>
      intro hk
      rw [List.range_succ, List.flatMap_append, List.nodup_append]
      refine ⟨ih (by omega), ?_, ?_⟩
      · rw [List.flatMap_singleton]
        apply nodup_map_inj _ List.nodup_range
        intro a _ b _ he
        exact (pos_inj (by omega) (by omega) he).1
      · intro x hx y hy hxy
        subst hxy
        obtain ⟨i, hi, hx⟩ := List.mem_flatMap.1 hx
        obtain ⟨t, _, rfl⟩ := List.mem_map.1 hx
        rw [List.flatMap_singleton] at hy
        obtain ⟨t', _, he⟩ := List.mem_map.1 hy
        have hi := List.mem_range.1 hi
        have := (pos_inj (by omega) (by omega) he).2
        omega
  exact gen bins (Nat.le_refl _)

theorem colOrder_split {bins cores t b : Nat} (ht : t < cores) (hb : b < bins) :
    ∃ post, colOrder bins cores =
      (((List.range b).flatMap fun i => (List.range cores).map fun t => t * bins + i) ++
        (List.range t).map fun t => t * bins + b) ++ (t * bins + b) :: post := by
  have h1 : ∃ r, List.range bins = List.range b ++ b :: r := by
    refine ⟨List.range' (b + 1) (bins - b - 1), ?_⟩
    rw [List.range_eq_range', List.range_eq_range']
    have := List.range'_append (s := 0) (m := b) (n := bins - b) (step := 1)
    rw [show bins = b + (bins - b) by omega, ← this]
    congr 1
    rw [show bins - b = (bins - b - 1) + 1 by omega, List.range'_succ]
    simp
  have h2 : ∃ r, List.range cores = List.range t ++ t :: r := by
    refine ⟨List.range' (t + 1) (cores - t - 1), ?_⟩
    rw [List.range_eq_range', List.range_eq_range']
    have := List.range'_append (s := 0) (m := t) (n := cores - t) (step := 1)
    rw [show cores = t + (cores - t) by omega, ← this]
    congr 1
    rw [show cores - t = (cores - t - 1) + 1 by omega, List.range'_succ]
    simp
  obtain ⟨r1, h1⟩ := h1
  obtain ⟨r2, h2⟩ := h2
  refine ⟨r2.map (fun t => t * bins + b) ++
    r1.flatMap fun i => (List.range cores).map fun t => t * bins + i, ?_⟩
  unfold colOrder
  conv => lhs; rw [h1]
  rw [List.flatMap_append, List.flatMap_cons]
  conv => lhs; rhs; lhs; rw [h2]
  simp

end Riptide.Pack
