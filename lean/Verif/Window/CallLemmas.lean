import Verif.Window.CallSpec
import Verif.Arrays.NumsLemmas
import Verif.Work.Elem
namespace Riptide.Window.Call
open Riptide.Nums Riptide.Work Riptide.Window Riptide.Window.Call.Spec

theorem mapM_none {α β : Type} {f : α → Option β} {x : α} : ∀ {l : List α}, x ∈ l → f x = none → l.mapM f = none
  | y :: l, hx, hf => by
    rw [List.mapM_cons]
    rcases List.mem_cons.mp hx with rfl | hx
    · rw [hf]; rfl
    · rw [mapM_none hx hf]
      cases f y <;> rfl

/-- A row that fails makes the whole work fail. -/
theorem elemWork_none {α : Type} {f : Nat → Option α} {n i : Nat} (hi : i < n) (hf : f i = none) {workers : Nat} {nt : Bool} {par : Option (List Nat)}
    (hs : ChunkSched workers n nt par) : elemWork f n par = none := by
  rcases hs.cases with ⟨rfl, _⟩ | ⟨calls, rfl, _, hp⟩
  · show elemBlock f 0 n = none
    unfold elemBlock
    exact mapM_none (x := i) (by rw [← List.range_eq_range']; simpa using hi) (by rw [hf]; rfl)
  · have hc := blocks_cover n
    have hmem : i ∈ (List.range (blockLastGeneric n chunk)).flatMap (blockRows n chunk) := by rw [hc]; simpa using hi
    obtain ⟨b, hb, hib⟩ := List.mem_flatMap.mp hmem
    show (calls.mapM fun b => elemBlock f (chunk * b) (blockLen n chunk (blockLastGeneric n chunk) b)).map List.flatten = none
    rw [mapM_none (x := b) (hp.mem_iff.2 hb) (mapM_none (x := i) hib (by rw [hf]; rfl))]
    rfl

/-- Going back from row `i` until the first row outside finds every row inside, as the times do not fall. -/
theorem back_eq {α : Type} (op : α → α → Option α) (val : Nat → Option α) (tm : Nat → Option Int) (x : Nat → α) (T : Nat → Int) (delta : Int) (i : Nat)
    (hv : ∀ j, j ≤ i → val j = some (x j)) (ht : ∀ j, j ≤ i → tm j = some (T j)) (hr : ∀ j, j ≤ i → IT.i64.InRange (T i - T j))
    (hs : ∀ j k, j ≤ k → k ≤ i → T j ≤ T k) : ∀ (n : Nat) (acc : α), n ≤ i →
    back op val tm delta i acc n = (((List.range n).filter fun j => decide (T i - T j ≤ delta)).reverse.map x).foldlM op acc
  | 0, acc, _ => by simp [back]
  | n + 1, acc, hn => by
    rw [back, ht i (Nat.le_refl _), ht n (by omega), hv n (by omega)]
    simp only [Option.bind_some]
    rw [if_neg (by simpa using hr n (by omega))]
    by_cases hd : T i - T n ≤ delta
    · rw [if_pos hd, List.range_succ, List.filter_append]
      simp only [List.filter_cons, hd, decide_true, if_true, List.filter_nil, List.reverse_append, List.reverse_cons, List.reverse_nil, List.nil_append,
        List.map_cons, List.foldlM_cons, List.cons_append]
      show _ = (op acc (x n)).bind _
      congr 1
      funext s
      exact back_eq op val tm x T delta i hv ht hr hs n s (by omega)
    · rw [if_neg hd]
      have hnil : (List.range (n + 1)).filter (fun j => decide (T i - T j ≤ delta)) = [] := by
        rw [List.filter_eq_nil_iff]
        intro j hj
        have hj' : j < n + 1 := by simpa using hj
        have := hs j n (by omega) (by omega)
        simp only [decide_eq_true_eq]; omega
      rw [hnil]; rfl

/-- The window of a row begins with the row itself. -/
theorem window_cons {α : Type} {vs : List α} {ts : List Int} {delta : Int} (hd : 0 ≤ delta) {i : Nat} (x : Nat → α)
    (hx : ∀ j, j ≤ i → vs[j]? = some (x j)) :
    window vs ts delta i = x i :: ((List.range i).filter fun j => decide (ts.getD i 0 - ts.getD j 0 ≤ delta)).reverse.map x := by
  have key : ∀ l : List Nat, (∀ j ∈ l, j ≤ i) → l.filterMap (fun j => vs[j]?) = l.map x := by
    intro l
    induction l with
    | nil => intro _; rfl
    | cons j l ih =>
      intro h
      rw [List.filterMap_cons, hx j (h j (by simp)), List.map_cons, ih fun k hk => h k (by simp [hk])]
  unfold window windowRows
  rw [key]
  · rw [List.range_succ, List.filter_append, List.reverse_append]
    have : [i].filter (fun j => decide (ts.getD i 0 - ts.getD j 0 ≤ delta)) = [i] := by simp [hd]
    rw [this]; rfl
  · intro j hj
    simp at hj
    omega

theorem getD_get {ts : List Int} {i : Nat} (hi : i < ts.length) : ts[i]? = some (ts.getD i 0) := by
  simp [List.getD, hi]

theorem get_mem {ts : List Int} {i : Nat} (hi : i < ts.length) : ts.getD i 0 ∈ ts := List.mem_of_getElem? (getD_get hi)

/-- What a row is, as a chain over its window. -/
theorem row_eq {α : Type} (op : α → α → Option α) (val : Nat → Option α) (tm : Nat → Option Int) {vs : List α} {ts : List Int} {delta : Int}
    (hl : vs.length = ts.length) (hd : 0 ≤ delta) (ht : Times ts) (hv : ∀ (i : Nat) x, vs[i]? = some x → val i = some x)
    (htm : ∀ (i : Nat) x, ts[i]? = some x → tm i = some x) {i : Nat} (hi : i < vs.length) :
    ∃ x l, window vs ts delta i = x :: l ∧ vs[i]? = some x ∧ row op val tm delta i = l.foldlM op x := by
  have d : α := vs[i]
  have hx : ∀ j, j ≤ i → vs[j]? = some (vs.getD j d) := by
    intro j hj
    have : j < vs.length := by omega
    simp [List.getD, this]
  refine ⟨_, _, window_cons hd (fun j => vs.getD j d) hx, hx i (Nat.le_refl _), ?_⟩
  unfold row
  rw [hv i _ (hx i (Nat.le_refl _)), Option.bind_some]
  refine back_eq op val tm (fun j => vs.getD j d) (fun j => ts.getD j 0) delta i (fun j hj => hv j _ (hx j hj))
    (fun j hj => htm j _ (getD_get (by omega))) ?_ ?_ i _ (Nat.le_refl _)
  · intro j hj
    have h1 := ht.2 _ (get_mem (i := j) (by omega : j < ts.length)) _ (get_mem (i := i) (by omega : i < ts.length))
    have h2 := ht.2 _ (get_mem (i := i) (by omega : i < ts.length)) _ (get_mem (i := j) (by omega : j < ts.length))
    show IT.i64.lo ≤ _ ∧ _ ≤ IT.i64.hi
    have e1 : IT.i64.lo = -(2 ^ 63) := by decide
    have e2 : IT.i64.hi = 2 ^ 63 - 1 := by decide
    rw [e1, e2]
    constructor
    · have : (2 : Int) ^ 63 = 9223372036854775808 := by decide
      omega
    · have : (2 : Int) ^ 63 = 9223372036854775808 := by decide
      omega
  · intro j k hjk hk
    rcases Nat.lt_or_ge j k with h | h
    · have := List.pairwise_iff_getElem.1 ht.1 j k (by omega) (by omega) h
      simp only [List.getD, List.getElem?_eq_getElem (show j < ts.length by omega), List.getElem?_eq_getElem (show k < ts.length by omega),
        Option.getD_some]
      exact this
    · rw [show j = k by omega]; exact Int.le_refl _

/-! ## Integers -/

theorem total_cons (f : Fn) (a x : Int) (l : List Int) :
    total f (a :: x :: l) = total f ((opZ f a x) :: l) := by
  cases f
  · simp [total, opZ, Int.add_assoc]
  · simp [total, opZ, Int.mul_assoc]

theorem total_one (f : Fn) (a : Int) : total f [a] = a := by cases f <;> simp [total]

theorem signed_ok (f : Fn) : ∀ (l : List Int) (a : Int), Fits f (a :: l) → l.foldlM (intOp f .i64) a = some (total f (a :: l))
  | [], a, _ => by rw [total_one]; rfl
  | x :: l, a, h => by
    have h1 : IT.i64.InRange (opZ f a x) := by
      have := h 1 (by simp)
      rw [show (a :: x :: l).take (1 + 1) = [a, x] from rfl, total_cons, total_one] at this
      exact this
    rw [List.foldlM_cons]
    have e : intOp f .i64 a x = some (opZ f a x) := by
      unfold intOp
      rw [if_neg (by simpa using fun _ => h1), IT.wrap_of_inRange _ (by decide) h1]
    rw [e]
    show l.foldlM (intOp f .i64) _ = _
    rw [signed_ok f l _ ?_, total_cons]
    intro k hk
    have := h (k + 1) (by simp at hk ⊢; omega)
    rw [show (a :: x :: l).take (k + 1 + 1) = a :: x :: l.take k from rfl, total_cons] at this
    exact this

theorem signed_bad (f : Fn) : ∀ (l : List Int) (a : Int), IT.i64.InRange a → ¬ Fits f (a :: l) → l.foldlM (intOp f .i64) a = none
  | [], a, ha, h => by
    exfalso
    apply h
    intro k hk
    have : k = 0 := by simpa using hk
    subst this
    rw [show ([a] : List Int).take (0 + 1) = [a] from rfl, total_one]
    exact ha
  | x :: l, a, ha, h => by
    rw [List.foldlM_cons]
    by_cases h1 : IT.i64.InRange (opZ f a x)
    · have e : intOp f .i64 a x = some (opZ f a x) := by
        unfold intOp
        rw [if_neg (by simpa using fun _ => h1), IT.wrap_of_inRange _ (by decide) h1]
      rw [e]
      show l.foldlM (intOp f .i64) _ = _
      refine signed_bad f l _ h1 ?_
      intro h2
      apply h
      intro k hk
      match k with
      | 0 => rw [show (a :: x :: l).take (0 + 1) = [a] from rfl, total_one]; exact ha
      | k + 1 =>
        have := h2 k (by simp at hk ⊢; omega)
        rw [show (a :: x :: l).take (k + 1 + 1) = a :: x :: l.take k from rfl, total_cons]
        exact this
    · have e : intOp f .i64 a x = none := by
        unfold intOp
        rw [if_pos ⟨rfl, h1⟩]
      rw [e]; rfl

theorem wrap_u64 (x : Int) : IT.u64.wrap x = x % 2 ^ 64 := by
  show (x - 0) % 2 ^ 64 + 0 = _
  rw [Int.sub_zero, Int.add_zero]

theorem total_mod (f : Fn) (a b : Int) (l : List Int) (h : a % 2 ^ 64 = b % 2 ^ 64) : total f (a :: l) % 2 ^ 64 = total f (b :: l) % 2 ^ 64 := by
  cases f
  · show (List.sum (a :: l)) % 2 ^ 64 = (List.sum (b :: l)) % 2 ^ 64
    rw [List.sum_cons, List.sum_cons, Int.add_emod, h, ← Int.add_emod]
  · show (a * _) % 2 ^ 64 = (b * _) % 2 ^ 64
    rw [Int.mul_emod, h, ← Int.mul_emod]

theorem unsigned_ok (f : Fn) : ∀ (l : List Int) (a : Int), 0 ≤ a ∧ a < 2 ^ 64 → l.foldlM (intOp f .u64) a = some (total f (a :: l) % 2 ^ 64)
  | [], a, h => by
    rw [total_one, Int.emod_eq_of_lt h.1 h.2]; rfl
  | x :: l, a, h => by
    rw [List.foldlM_cons]
    have e : intOp f .u64 a x = some ((opZ f a x) % 2 ^ 64) := by
      unfold intOp
      rw [if_neg (by intro h; exact absurd h.1 (by decide)), wrap_u64]
    rw [e]
    show l.foldlM (intOp f .u64) _ = _
    rw [unsigned_ok f l _ ⟨Int.emod_nonneg _ (by decide), Int.emod_lt_of_pos _ (by decide)⟩, total_cons]
    rw [total_mod f _ _ l (Int.emod_emod_of_dvd _ (Int.dvd_refl _))]

theorem float_ok {α : Type} (op : α → α → α) : ∀ (l : List α) (a : α), l.foldlM (fun s x => some (op s x)) a = some (l.foldl op a)
  | [], _ => rfl
  | x :: l, a => by rw [List.foldlM_cons, List.foldl_cons, ← float_ok op l]; rfl

/-- All rows. -/
theorem rows_ok {α : Type} {op : α → α → Option α} {val : Nat → Option α} {tm : Nat → Option Int} {delta : Int} {n : Nat} (g : Nat → α)
    (h : ∀ i, i < n → row op val tm delta i = some (g i)) {workers : Nat} {nt : Bool} {par : Option (List Nat)} (hs : ChunkSched workers n nt par) :
    rows op val tm delta n par = some ((List.range n).map fun i => some (g i)) := by
  unfold rows
  rw [elemWork_exact _ g h hs, List.map_map]
  rfl

end Riptide.Window.Call
