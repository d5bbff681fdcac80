import Verif.Median.Props
/-! # C84, C85: quantiles and trimmed means of groups -/
namespace Riptide.Median
open Spec
open Rolling (Packed exPacked exPacked_slices)
open Rolling.Spec (groupVals)
open Pack.Spec (Slices)
open Riptide.Sort (intLt floatLt intLt_weak floatLt_weak floatLt_iff)
open Riptide.Sort.Spec (Weak)

variable {α U : Type} {P : α → Prop} {lt : α → α → Bool}

/-! ## C84: quantiles -/

/-- What a quantile of a group should be, taken at the ranks `ranks n` of its `n` valid values: invalid if there are
none or, for the version which does not skip invalid values, if there is an invalid one. -/
def IsQuantile (skip : Bool) (lt : α → α → Bool) (valid : α → Bool) (cast : α → U) (split : α → α → Option U) (inv : U)
    (ranks : Nat → Nat × Nat) (l : List α) (r : U) : Prop :=
  if (skip = false ∧ ∃ x ∈ l, valid x = false) ∨ (∀ x ∈ l, valid x = false) then r = inv
  else AtRanks lt cast split (l.filter valid) (ranks (l.filter valid).length).1 (ranks (l.filter valid).length).2 r

/-- The quantile and whether invalid values are skipped, in the parameter. -/
def paramOf (skip : Bool) (q : Nat) : Nat := if skip then q + 1000000001 else q

/-- **C84**, one group: for every quantile from 0 to 1 and every conforming `std::nth_element`, all accesses are inside
the work array, and the result is at the computed ranks of the valid values. -/
theorem quantileOf_ranks {nth : List α → Nat → List α} {valid : α → Bool} (W : Weak P lt) (hn : NthElement P lt nth)
    (hv : ∀ x, valid x = true → P x) (cast : α → U) (split : α → α → Option U) (inv : U) (skip : Bool) {q : Nat}
    (hq : q ≤ 1000000000) (l : List α) (hs : ∀ x ∈ l, ∀ y ∈ l, valid x = true → valid y = true → (split x y).isSome) :
    ∃ r, quantileOf nth lt valid cast split inv (paramOf skip q) l = some r ∧
      IsQuantile skip lt valid cast split inv (quantIdx q) l r := by
  have e1 : decide (1000000000 < paramOf skip q) = skip := by
    unfold paramOf
    cases skip
    · simp; omega
    · simp only [if_true, decide_eq_true_eq]; omega
  have e2 : (if skip then paramOf skip q - 1000000001 else paramOf skip q) = q := by
    unfold paramOf
    cases skip
    · rfl
    · simp
  unfold quantileOf
  dsimp only
  rw [e1, e2]
  by_cases h1 : skip = false ∧ ∃ x ∈ l, valid x = false
  · rw [if_pos (by
      obtain ⟨a, x, hx, hvx⟩ := h1
      rw [a, Bool.not_false, Bool.true_and, List.any_eq_true]
      exact ⟨x, hx, by rw [hvx]; rfl⟩)]
    refine ⟨inv, rfl, ?_⟩
    unfold IsQuantile
    rw [if_pos (.inl h1)]
  · rw [if_neg (by
      intro hc
      rw [Bool.and_eq_true, List.any_eq_true] at hc
      obtain ⟨a, x, hx, hvx⟩ := hc
      exact h1 ⟨by simpa using a, x, hx, by simpa using hvx⟩)]
    by_cases h2 : ∀ x ∈ l, valid x = false
    · have : (l.filter valid).length = 0 := by
        rw [List.length_eq_zero_iff, List.filter_eq_nil_iff]
        intro x hx; rw [h2 x hx]; exact Bool.false_ne_true
      rw [if_pos this]
      refine ⟨inv, rfl, ?_⟩
      unfold IsQuantile
      rw [if_pos (.inr h2)]
    · have hne : (l.filter valid).length ≠ 0 := by
        intro hc
        rw [List.length_eq_zero_iff, List.filter_eq_nil_iff] at hc
        exact h2 fun x hx => by simpa using hc x hx
      have hnot : ¬ ((skip = false ∧ ∃ x ∈ l, valid x = false) ∨ (∀ x ∈ l, valid x = false)) := by
        rintro (h | h)
        · exact h1 h
        · exact h2 h
      rw [if_neg hne]
      have hP : ∀ x ∈ l.filter valid, P x := fun x hx => hv x (List.mem_filter.1 hx).2
      obtain ⟨r1, r2⟩ := quantIdx_range (n := (l.filter valid).length) hq (by omega)
      have fin : ∀ r, AtRanks lt cast split (l.filter valid) (quantIdx q (l.filter valid).length).1
          (quantIdx q (l.filter valid).length).2 r → IsQuantile skip lt valid cast split inv (quantIdx q) l r := by
        intro r hr
        unfold IsQuantile
        rw [if_neg hnot]; exact hr
      unfold AtRanks at fin
      generalize quantIdx q (l.filter valid).length = du at r1 r2 fin
      obtain ⟨d, u⟩ := du
      simp only at r1 r2 fin ⊢
      obtain ⟨x, g1, g2, _⟩ := getNth_spec W hn hP r1
      by_cases hdu : u = d
      · subst hdu
        rw [if_pos rfl, g1]
        exact ⟨cast x, rfl, fin _ (by rw [if_pos rfl]; exact ⟨x, g2, rfl⟩)⟩
      · rw [if_neg hdu]
        have hu : u = d + 1 := by omega
        subst hu
        obtain ⟨y, m1, m2⟩ := lower_rank W hn hP r1
        rw [g1, Option.bind_some, m1, Option.bind_some]
        have mx := List.mem_filter.1 g2.1
        have my := List.mem_filter.1 m2.1
        obtain ⟨r, hr⟩ := Option.isSome_iff_exists.1 (hs x mx.1 y my.1 mx.2 my.2)
        exact ⟨r, hr, fin _ (by rw [if_neg (Ne.symm hdu)]; exact ⟨x, y, g2, m2, hr⟩)⟩

/-- **C84**, all groups, one thread or many: the quantile `q / 1e9` at the computed ranks. -/
theorem quantile_groups {nth : List α → Nat → List α} {valid : α → Bool} (W : Weak P lt) (hn : NthElement P lt nth)
    (hv : ∀ x, valid x = true → P x) (cast : α → U) (split : α → α → Option U) (inv : U) (skip : Bool) {q : Nat}
    (hq : q ≤ 1000000000) {keys : List Int} {src : List α} {Q : Packed}
    (hs : ∀ x ∈ src, ∀ y ∈ src, valid x = true → valid y = true → (split x y).isSome)
    {bins uniq : Nat} (hS : Slices keys bins Q.group Q.first Q.count) (hl : src.length = keys.length)
    (hb : uniq ≤ bins) :
    (∀ lo hi, hi ≤ uniq → ∃ out,
      accumGroups keys.length src Q inv (quantileOf nth lt valid cast split inv (paramOf skip q)) uniq lo hi = some out ∧
      out.length = uniq ∧
      (∀ b, lo ≤ b → b < hi → ∃ v, out[b]? = some (some v) ∧
        IsQuantile skip lt valid cast split inv (quantIdx q) (groupVals keys src b) v) ∧
      ∀ b, b < uniq → b < lo ∨ hi ≤ b → out[b]? = some none) ∧
    ∀ (workers cores : Nat) (calls : List Nat), 0 < cores → Work.PoolRun workers cores calls → ∃ out,
      accumBanded keys.length src Q inv (quantileOf nth lt valid cast split inv (paramOf skip q)) uniq cores calls =
        some out ∧ out.length = uniq ∧
      ∀ b, b < uniq → ∃ v, out[b]? = some (some v) ∧
        IsQuantile skip lt valid cast split inv (quantIdx q) (groupVals keys src b) v := by
  refine groups_all hS hl (Nat.le_refl _) hb inv _ (IsQuantile skip lt valid cast split inv (quantIdx q)) ?_ fun l hm _ => ?_
  · unfold IsQuantile
    rw [if_pos (.inr (by simp))]
  · exact quantileOf_ranks W hn hv cast split inv skip hq l fun x hx y hy => hs x (hm x hx) y (hm y hy)

/-- Int columns: valid values, as numbers; midpoints. -/
def intValid (t : IT) (x : Int) : Bool := decide (x ≠ t.inv)

/-- **C84** for integer columns and quantiles `c / 2 ^ j`, the median and the quartiles among them: at the ranks
`(n - 1) q` of the valid values, if sums of two values do not overflow and groups have at most `2 ^ 40` rows.
What is missing: other quantiles, for which the ranks may be off by the rounding of doubles (`quantIdx_rounded`), and
overflowing sums (`quantile_overflow`). -/
theorem quantile_int_partial (t : IT) (hb' : 0 < t.bits) {nth : List Int → Nat → List Int}
    (hn : NthElement (fun _ => True) (intLt true) nth) (inv : Rat) (skip : Bool) {q c j : Nat}
    (hq : q ≤ 1000000000) (hj : j ≤ 9) (hc : q * 2 ^ j = c * 1000000000) {keys : List Int} {src : List Int} {Q : Packed}
    (hr : ∀ x ∈ src, ∀ y ∈ src, x ≠ t.inv → y ≠ t.inv → t.InRange (x + y)) (h40 : src.length ≤ 2 ^ 40)
    {bins uniq : Nat} (hS : Slices keys bins Q.group Q.first Q.count) (hl : src.length = keys.length)
    (hb : uniq ≤ bins) :
    (∀ lo hi, hi ≤ uniq → ∃ out,
      accumGroups keys.length src Q inv (quantileOf nth (intLt true) (intValid t) (fun x => (x : Rat)) (quantSplit t) inv
        (paramOf skip q)) uniq lo hi = some out ∧ out.length = uniq ∧
      (∀ b, lo ≤ b → b < hi → ∃ v, out[b]? = some (some v) ∧
        IsQuantile skip (intLt true) (intValid t) (fun x => (x : Rat)) (fun x y => some (((x + y : Int) : Rat) / 2)) inv
          (quantRanks q) (groupVals keys src b) v) ∧
      ∀ b, b < uniq → b < lo ∨ hi ≤ b → out[b]? = some none) ∧
    ∀ (workers cores : Nat) (calls : List Nat), 0 < cores → Work.PoolRun workers cores calls → ∃ out,
      accumBanded keys.length src Q inv (quantileOf nth (intLt true) (intValid t) (fun x => (x : Rat)) (quantSplit t) inv
        (paramOf skip q)) uniq cores calls = some out ∧ out.length = uniq ∧
      ∀ b, b < uniq → ∃ v, out[b]? = some (some v) ∧
        IsQuantile skip (intLt true) (intValid t) (fun x => (x : Rat)) (fun x y => some (((x + y : Int) : Rat) / 2)) inv
          (quantRanks q) (groupVals keys src b) v := by
  refine groups_all hS hl (Nat.le_refl _) hb inv _ (IsQuantile skip (intLt true) (intValid t) (fun x => (x : Rat))
    (fun x y => some (((x + y : Int) : Rat) / 2)) inv (quantRanks q)) ?_ fun l hm hle => ?_
  · unfold IsQuantile
    rw [if_pos (.inr (by simp))]
  · have hsp : ∀ x ∈ l, ∀ y ∈ l, intValid t x = true → intValid t y = true →
        quantSplit t x y = some (((x + y : Int) : Rat) / 2) := by
      intro x hx y hy vx vy
      unfold quantSplit
      rw [Heap.splitSum_partial t x y hb' (hr x (hm x hx) y (hm y hy) (by simpa [intValid] using vx)
        (by simpa [intValid] using vy))]
      rfl
    obtain ⟨r, h1, h2⟩ := quantileOf_ranks (intLt_weak true) hn (fun _ _ => trivial) (valid := intValid t)
      (fun x => (x : Rat)) (quantSplit t) inv skip hq l fun x hx y hy vx vy => by rw [hsp x hx y hy vx vy]; rfl
    refine ⟨r, h1, ?_⟩
    unfold IsQuantile at h2 ⊢
    split
    · next h => rw [if_pos h] at h2; exact h2
    · next h =>
      rw [if_neg h] at h2
      have hlen : (l.filter (intValid t)).length ≤ 2 ^ 40 :=
        Nat.le_trans (List.length_filter_le ..) (Nat.le_trans hle h40)
      rw [quantIdx_exact hq hj hc hlen] at h2
      unfold AtRanks at h2 ⊢
      split
      · next hd => rw [if_pos hd] at h2; exact h2
      · next hd =>
        rw [if_neg hd] at h2
        obtain ⟨x, y, hx, hy, e⟩ := h2
        have mx := List.mem_filter.1 hx.1
        have my := List.mem_filter.1 hy.1
        exact ⟨x, y, hx, hy, (hsp x mx.1 y my.1 mx.2 my.2).symm.trans e⟩

/-- Sorting is a conforming `std::nth_element`. -/
theorem heapsort_nthElement : NthElement (fun _ => True) (intLt true)
    (fun l _ => (Quick.heapsort (intLt true) l).getD l) := by
  intro l n _ hn
  obtain ⟨s, h1, h2, h3⟩ := Quick.heapsort_sorts (intLt_weak true) l fun _ _ => trivial
  dsimp only
  rw [h1, Option.getD_some]
  refine ⟨h2, fun x hx => ?_⟩
  obtain ⟨hk, he⟩ := List.getElem?_eq_some_iff.1 hx
  rw [List.pairwise_iff_getElem] at h3
  constructor
  · intro y hy
    obtain ⟨i, hi, rfl⟩ := List.mem_iff_getElem.1 hy
    rw [List.length_take] at hi
    rw [List.getElem_take, ← he]
    exact h3 i n (by omega) hk (by omega)
  · intro y hy
    obtain ⟨i, hi, rfl⟩ := List.mem_iff_getElem.1 hy
    rw [List.length_drop] at hi
    rw [List.getElem_drop, ← he]
    by_cases h0 : i = 0
    · subst h0; exact Quick.irrefl (intLt_weak true) trivial
    · exact h3 n (n + i) hk (by omega) (by omega)

example : NthElement (fun _ => True) (intLt true) (fun l _ => (Quick.heapsort (intLt true) l).getD l) ∧
    (∀ x ∈ [5, 7, 2, 9], ∀ y ∈ [(5 : Int), 7, 2, 9], x ≠ IT.i32.inv → y ≠ IT.i32.inv → IT.i32.InRange (x + y)) ∧
    accumGroups 4 [5, 7, 2, 9] exPacked 0 (quantileOf (fun l _ => (Quick.heapsort (intLt true) l).getD l) (intLt true)
      (intValid .i32) (fun x => (x : Rat)) (quantSplit .i32) 0 250000000) 3 0 3 = some [some 0, some (7 / 2), some 7] :=
  ⟨heapsort_nthElement, by decide, by decide +kernel⟩

/-- C84 fails: the midpoint of int32 or int64 values may overflow. -/
theorem quantile_overflow :
    quantileOf (fun l _ => l) (intLt true) (intValid .i32) (fun x => (x : Rat)) (quantSplit .i32) 0 500000000
      [2000000000, 2000000001] = none ∧
    quantileOf (fun l _ => l) (intLt true) (intValid .i64) (fun x => (x : Rat)) (quantSplit .i64) 0 500000000
      [2 ^ 62, 2 ^ 62 + 1] = none := by decide +kernel

/-- C84 fails: the 29th percentile of 0, 1, …, 100 is 29; the code gives 28.5. -/
theorem quantile_rounded :
    quantileOf (fun l _ => l) (intLt true) (intValid .i32) (fun x => (x : Rat)) (quantSplit .i32) 0 290000000
      ((List.range 101).map fun (k : Nat) => (k : Int)) = some (57 / 2) := by decide +kernel

/-! ## C85: trimmed mean -/

/-- `strip_nans`: the valid values come first. -/
theorem stripNans_spec (valid : α → Bool) (k : Nat) (a : List α) (i j : Nat) (hk : j < k + i) (hij : i ≤ j) (hj : j ≤ a.length)
    (h1 : ∀ x ∈ a.take i, valid x = true) (h2 : ∀ x ∈ a.drop j, valid x = false) :
    ∃ b n, stripNans valid k a i j = some (b, n) ∧ b.Perm a ∧ n ≤ b.length ∧
      (∀ x ∈ b.take n, valid x = true) ∧ ∀ x ∈ b.drop n, valid x = false := by
  induction k generalizing a i j with
  | zero => omega
  | succ k ih =>
    rw [stripNans]
    by_cases hlt : i < j
    · rw [if_pos hlt]
      have ei := List.getElem?_eq_getElem (show i < a.length by omega)
      rw [ei, Option.bind_some]
      by_cases hv : valid a[i] = true
      · rw [if_pos hv]
        refine ih a (i + 1) j (by omega) hlt hj (fun x hx => ?_) h2
        rw [List.take_add_one, ei, List.mem_append] at hx
        rcases hx with hx | hx
        · exact h1 x hx
        · rw [show x = a[i] by simpa using hx]; exact hv
      · rw [if_neg hv]
        have ej := List.getElem?_eq_getElem (show j - 1 < a.length by omega)
        rw [ej, Option.bind_some]
        by_cases hw : valid a[j - 1] = true
        · rw [if_pos hw]
          have hne : i ≠ j - 1 := fun hc => hv (by simpa [hc] using hw)
          obtain ⟨b, e, hbl, hbg, hop⟩ := Quick.swap_spec a a[i] (j - 1) i (by omega) (by omega)
          rw [e, Option.bind_some]
          have hS := hop i j (by omega) (by omega) (by omega) (by omega)
          have gj : a.getD (j - 1) a[i] = a[j - 1] := by rw [List.getD_eq_getElem?_getD, ej]; rfl
          have gi : a.getD i a[i] = a[i] := by rw [List.getD_eq_getElem?_getD, ei]; rfl
          have c1 : ∀ x ∈ b.take (i + 1), valid x = true := by
            intro x hx
            rw [List.take_add_one, List.mem_append] at hx
            rcases hx with hx | hx
            · refine h1 x ?_
              obtain ⟨p, hp, rfl⟩ := List.mem_iff_getElem.1 hx
              rw [List.length_take] at hp
              rw [List.mem_iff_getElem?]
              refine ⟨p, ?_⟩
              rw [List.getElem?_take, if_pos (by omega), ← hS.out p (by omega), List.getElem_take,
                List.getElem?_eq_getElem]
            · have := Quick.getD_some b a[i] (i := i) (by omega)
              rw [this, hbg i, if_pos rfl, gj] at hx
              rw [show x = a[j - 1] by simpa using hx]; exact hw
          have c2 : ∀ x ∈ b.drop (j - 1), valid x = false := by
            intro x hx
            obtain ⟨p, hp, rfl⟩ := List.mem_iff_getElem.1 hx
            rw [List.length_drop] at hp
            rw [List.getElem_drop]
            have hb : b[j - 1 + p] = b.getD (j - 1 + p) a[i] := by
              rw [List.getD_eq_getElem?_getD, List.getElem?_eq_getElem (show j - 1 + p < b.length by omega)]; rfl
            rw [hb, hbg]
            rw [if_neg (by omega)]
            by_cases hp0 : p = 0
            · rw [if_pos (by omega), gi]; simpa using hv
            · rw [if_neg (by omega)]
              refine h2 _ ?_
              rw [List.mem_iff_getElem?]
              refine ⟨p - 1, ?_⟩
              rw [List.getElem?_drop, show j + (p - 1) = j - 1 + p by omega]
              exact Quick.getD_some a a[i] (by omega)
          obtain ⟨b', n, e', p', hn', t1, t2⟩ := ih b (i + 1) (j - 1) (by omega) (by omega) (by omega) c1 c2
          exact ⟨b', n, e', p'.trans hS.perm, hn', t1, t2⟩
        · rw [if_neg hw]
          refine ih a i (j - 1) (by omega) (by omega) (by omega) h1 fun x hx => ?_
          rw [List.drop_eq_getElem_cons (show j - 1 < a.length by omega), show j - 1 + 1 = j by omega] at hx
          rcases List.mem_cons.1 hx with rfl | hx
          · simpa using hw
          · exact h2 x hx
    · rw [if_neg hlt]
      have : i = j := by omega
      subst this
      exact ⟨a, i, rfl, List.Perm.refl _, hj, h1, h2⟩

theorem strip_perm {valid : α → Bool} {a b : List α} {n : Nat} (hp : b.Perm a) (hn : n ≤ b.length)
    (h1 : ∀ x ∈ b.take n, valid x = true) (h2 : ∀ x ∈ b.drop n, valid x = false) :
    (b.take n).Perm (a.filter valid) ∧ n = (a.filter valid).length := by
  have e : b.filter valid = b.take n := by
    conv => lhs; rw [← List.take_append_drop n b]
    rw [List.filter_append, List.filter_eq_self.2 h1, List.filter_eq_nil_iff.2 fun x hx => by rw [h2 x hx]; exact Bool.false_ne_true,
      List.append_nil]
  have := hp.filter valid
  rw [e] at this
  refine ⟨this, ?_⟩
  rw [← this.length_eq, List.length_take]; omega

theorem sum_perm_rat {l l' : List Rat} (h : l.Perm l') : l.sum = l'.sum := by
  induction h with
  | nil => rfl
  | cons x _ ih => rw [List.sum_cons, List.sum_cons, ih]
  | swap x y l => simp only [List.sum_cons]; grind
  | trans _ _ ih1 ih2 => exact ih1.trans ih2

/-- **C85**, one group: the mean of the valid values between the two bounds, converted by `cast`. -/
theorem trimOf_trimmed {nth : List α → Nat → List α} {valid : α → Bool} (W : Weak P lt) (hn : NthElement P lt nth)
    (hv : ∀ x, valid x = true → P x) (num : α → Rat) {trim : Nat → Nat} (ht : ∀ n, 0 < n → 1 ≤ trim n) (cast : Rat → U) (inv : U)
    (l : List α) : ∃ r, trimOf nth lt valid num trim cast inv l = some r ∧
      IsTrimmed lt num (trim (l.filter valid).length) cast inv (l.filter valid) r := by
  obtain ⟨b, n, e, hp, hn', h1, h2⟩ := stripNans_spec valid (l.length + 1) l 0 l.length (by omega) (by omega) (by omega)
    (by simp) (by simp)
  obtain ⟨hvp, hlen⟩ := strip_perm hp hn' h1 h2
  unfold trimOf
  rw [e, Option.bind_some]
  dsimp only
  have hPv : ∀ x ∈ b.take n, P x := fun x hx => hv x (h1 x hx)
  have hvl : (b.take n).length = n := by rw [List.length_take]; omega
  generalize b.take n = v at hvp hPv hvl
  rw [← hlen]
  generalize l.filter valid = w at hvp hlen
  unfold IsTrimmed
  rw [← hlen]
  by_cases h0 : n = 0
  · rw [if_pos h0]
    exact ⟨inv, rfl, fun _ => rfl, fun h => by omega⟩
  · rw [if_neg h0]
    by_cases h3 : n ≤ 2 * trim n
    · rw [if_pos h3]
      exact ⟨inv, rfl, fun _ => rfl, fun h => by omega⟩
    · rw [if_neg h3]
      have ht1 := ht n (by omega)
      obtain ⟨lb, g1, g2, g3, _⟩ := getNth_spec W hn hPv (show trim n - 1 < v.length by omega)
      rw [g1, Option.bind_some]
      have hP1 : ∀ x ∈ nth v (trim n - 1), P x := fun x hx => hPv x (g3.mem_iff.1 hx)
      have hl1 := g3.length_eq
      generalize nth v (trim n - 1) = v1 at g3 hP1 hl1
      obtain ⟨ub, k1, k2, k3, _⟩ := getNth_spec W hn hP1 (show n - trim n < v1.length by omega)
      rw [k1, Option.map_some]
      have r1 : Rank lt w (trim n - 1) lb := Rank.perm g2 hvp
      have r2 : Rank lt w (n - trim n) ub := Rank.perm (Rank.perm k2 g3) hvp
      have hPw : ∀ y ∈ w, P y := fun y hy => hPv y (hvp.mem_iff.2 hy)
      have hle : lt ub lb = false := Rank.le W hPw r1 r2 (by omega)
      have hpw : (nth v1 (n - trim n)).Perm w := k3.trans (g3.trans hvp)
      have hpf := hpw.filter fun z => !lt z lb && !lt ub z
      have hne : ((nth v1 (n - trim n)).filter fun z => !lt z lb && !lt ub z).length ≠ 0 := by
        rw [hpf.length_eq]
        intro hc
        have hmem : lb ∈ w.filter fun z => !lt z lb && !lt ub z :=
          List.mem_filter.2 ⟨r1.1, by rw [hle, Quick.irrefl W (hPw lb r1.1)]; rfl⟩
        rw [List.eq_nil_of_length_eq_zero hc] at hmem
        cases hmem
      rw [if_neg (by rw [hle]; exact Bool.false_ne_true), if_neg hne]
      refine ⟨_, rfl, fun h => by omega, fun _ => ⟨lb, ub, r1, r2, ?_⟩⟩
      unfold mean
      rw [sum_perm_rat (hpf.map num), List.length_map, hpf.length_eq]

/-- **C85**, all groups: the mean of the values between the bounds. For floats `cast` is the identity up to rounding.
What is missing: for an integer column `cast` truncates, although the result has type `double` (`trim_truncates`). -/
theorem trim_groups_partial {nth : List α → Nat → List α} {valid : α → Bool} (W : Weak P lt) (hn : NthElement P lt nth)
    (hv : ∀ x, valid x = true → P x) (num : α → Rat) {trim : Nat → Nat} (ht : ∀ n, 0 < n → 1 ≤ trim n) (cast : Rat → U) (inv : U)
    {keys : List Int} {src : List α} {Q : Packed}
    {bins uniq : Nat} (hS : Slices keys bins Q.group Q.first Q.count) (hl : src.length = keys.length)
    (hb : uniq ≤ bins) :
    (∀ lo hi, hi ≤ uniq → ∃ out,
      accumGroups keys.length src Q inv (trimOf nth lt valid num trim cast inv) uniq lo hi = some out ∧
      out.length = uniq ∧
      (∀ b, lo ≤ b → b < hi → ∃ v, out[b]? = some (some v) ∧
        IsTrimmed lt num (trim ((groupVals keys src b).filter valid).length) cast inv ((groupVals keys src b).filter valid) v) ∧
      ∀ b, b < uniq → b < lo ∨ hi ≤ b → out[b]? = some none) ∧
    ∀ (workers cores : Nat) (calls : List Nat), 0 < cores → Work.PoolRun workers cores calls → ∃ out,
      accumBanded keys.length src Q inv (trimOf nth lt valid num trim cast inv) uniq cores calls = some out ∧ out.length = uniq ∧
      ∀ b, b < uniq → ∃ v, out[b]? = some (some v) ∧
        IsTrimmed lt num (trim ((groupVals keys src b).filter valid).length) cast inv ((groupVals keys src b).filter valid) v :=
  groups_all hS hl (Nat.le_refl _) hb inv _
    (fun l v => IsTrimmed lt num (trim (l.filter valid).length) cast inv (l.filter valid) v)
    ⟨fun _ => rfl, fun h => by simp at h⟩ fun l _ _ => trimOf_trimmed W hn hv num ht cast inv l

/-- One value is not enough for a trimmed mean; of three, with one on each side being a bound, all are kept. -/
example : accumGroups 4 [5, 7, 1, 9] exPacked 0 (trimOf (fun l _ => (Quick.heapsort (intLt true) l).getD l) (intLt true)
    (intValid .i32) (fun x => (x : Rat)) (fun _ => 1) id 0) 3 0 3 = some [some 0, some 5, some 0] := by decide +kernel

/-- C85 fails: the trimmed mean of the integers 1, 1, 2, 2 is 3/2; the result, a `double`, is 1. -/
theorem trim_truncates :
    trimOf (fun l _ => l) (intLt true) (intValid .i32) (fun x => (x : Rat)) (fun _ => 1) truncate 0 [1, 1, 2, 2] = some 1 ∧
    mean (([1, 1, 2, 2] : List Int).map fun (x : Int) => (x : Rat)) = 3 / 2 := by decide +kernel

end Riptide.Median
