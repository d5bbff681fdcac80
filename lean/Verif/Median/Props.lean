import Verif.Median.Lemmas
import Verif.Median.Idx
import Verif.Heap.QProps
/-! # C82-C85: median, mode, quantiles and trimmed mean of groups -/
namespace Riptide.Median
open Spec
open Rolling (Packed exPacked exPacked_slices)
open Rolling.Spec (groupVals)
open Pack.Spec (Slices)
open Riptide.Sort (intLt floatLt intLt_weak floatLt_weak floatLt_iff)
open Riptide.Sort.Spec (Weak)

variable {α U : Type} {P : α → Prop} {lt eq : α → α → Bool}

/-! ## Over all groups -/

theorem groupVals_sub {keys : List Int} {src : List α} (hl : src.length = keys.length) (b : Nat) :
    (∀ x ∈ groupVals keys src b, x ∈ src) ∧ (groupVals keys src b).length ≤ src.length := by
  refine ⟨fun x hx => ?_, ?_⟩
  · unfold groupVals Rolling.Spec.pick at hx
    obtain ⟨r, _, hr⟩ := List.mem_filterMap.1 hx
    exact List.mem_of_getElem? hr
  · rw [(Rolling.groupVals_eq hl b).1, hl]; exact rowsOf_length keys b

/-- If the function of one group's values has the property `S`, so have the results of all groups: with one thread for
the bins `[lo, hi)`, and with several for all bins, in whatever order they finish. -/
theorem groups_all {keys : List Int} {src : List α} {Q : Packed} {bins uniq cap : Nat}
    (hS : Slices keys bins Q.group Q.first Q.count) (hl : src.length = keys.length) (hcap : keys.length ≤ cap)
    (hb : uniq ≤ bins) (inv : U) (g : List α → Option U) (S : List α → U → Prop) (h0 : S [] inv)
    (hg : ∀ l, (∀ x ∈ l, x ∈ src) → l.length ≤ src.length → ∃ v, g l = some v ∧ S l v) :
    (∀ lo hi, hi ≤ uniq → ∃ out, accumGroups cap src Q inv g uniq lo hi = some out ∧ out.length = uniq ∧
      (∀ b, lo ≤ b → b < hi → ∃ v, out[b]? = some (some v) ∧ S (groupVals keys src b) v) ∧
      ∀ b, b < uniq → b < lo ∨ hi ≤ b → out[b]? = some none) ∧
    ∀ (workers cores : Nat) (calls : List Nat), 0 < cores → Work.PoolRun workers cores calls →
      ∃ out, accumBanded cap src Q inv g uniq cores calls = some out ∧ out.length = uniq ∧
        ∀ b, b < uniq → ∃ v, out[b]? = some (some v) ∧ S (groupVals keys src b) v := by
  have hex : ∀ b : Nat, ∃ v, Result inv g (groupVals keys src b) v ∧ S (groupVals keys src b) v := by
    intro b
    unfold Result
    by_cases h : groupVals keys src b = []
    · refine ⟨inv, ?_, ?_⟩
      · rw [if_pos h]
      · rw [h]; exact h0
    · obtain ⟨h1, h2⟩ := groupVals_sub (src := src) hl b
      obtain ⟨v, e, hv⟩ := hg _ h1 h2
      refine ⟨v, ?_, hv⟩
      rw [if_neg h]; exact e
  refine ⟨fun lo hi hhi => ?_, fun workers cores calls hc hp => ?_⟩
  · obtain ⟨out, h1, h2, h3, h4⟩ := accumGroups_run hS hl hcap hhi (by omega) inv g
      (fun b => Classical.choose (hex b)) (lo := lo) fun b _ _ => (Classical.choose_spec (hex b)).1
    exact ⟨out, h1, h2, fun b a1 a2 => ⟨_, h3 b a1 a2, (Classical.choose_spec (hex b)).2⟩, h4⟩
  · refine ⟨_, accumBanded_run hS hl hcap hb hc hp.perm inv g (fun b => Classical.choose (hex b))
      (fun b _ => (Classical.choose_spec (hex b)).1), by simp, fun b hb' =>
      ⟨_, ?_, (Classical.choose_spec (hex b)).2⟩⟩
    rw [List.getElem?_map, List.getElem?_range hb']; rfl

/-! ## Comparisons -/

/-- `lt` and `==` of a type: `x == x` fails for a NaN, and NaNs sort to the end. -/
structure Cmp (lt eq : α → α → Bool) : Prop where
  weak : Weak (fun _ => True) lt
  nan_last : ∀ x y, eq x x = true → eq y y = false → lt x y = true
  eq_iff : ∀ x y, eq x x = true → eq y y = true → (eq x y = true ↔ lt x y = false ∧ lt y x = false)

theorem int_cmp : Cmp (intLt true) (fun x y : Int => decide (x = y)) where
  weak := intLt_weak true
  nan_last := by intro x y _ h; simp at h
  eq_iff := by
    intro x y _ _
    simp only [intLt, if_true, decide_eq_true_eq, decide_eq_false_iff_not]
    omega

theorem float_cmp (f : FT) : Cmp (floatLt f true) f.eq where
  weak := floatLt_weak f true
  nan_last := by
    intro x y hx hy
    simp only [FT.eq, Bool.and_eq_true, Bool.not_eq_true'] at hx
    simp only [FT.eq, decide_true, Bool.and_true] at hy
    rw [floatLt_iff]
    refine ⟨hx.1.1, .inl ?_⟩
    cases h : f.isNan y with
    | true => rfl
    | false => rw [h] at hy; cases hy
  eq_iff := by
    intro x y hx hy
    simp only [FT.eq, Bool.and_eq_true, Bool.not_eq_true'] at hx hy
    have h1 := floatLt_iff f true x y
    have h2 := floatLt_iff f true y x
    rw [hx.1.1, hy.1.1] at h1 h2
    simp only [FT.eq, hx.1.1, hy.1.1, Bool.not_false, Bool.true_and, decide_eq_true_eq]
    rw [← Bool.not_eq_true, ← Bool.not_eq_true, h1, h2]
    simp only [if_true, Bool.false_eq_true, false_or, true_and]
    omega

/-- The sorted values with the NaNs taken off the end are the other values in order. -/
theorem sorted_stripped (C : Cmp lt eq) (l : List α) (hn : l.length < 2 ^ 63) :
    ∃ s, Quick.quicksort lt l = some s ∧ (stripTail eq s).Perm (l.filter fun x => eq x x) ∧
      (stripTail eq s).Pairwise fun x y => lt y x = false := by
  obtain ⟨s, h1, h2, h3⟩ := Quick.quicksort_sorts C.weak l (fun _ _ => trivial) hn
  have e : stripTail eq s = s.filter fun x => eq x x := by
    apply stripTail_eq
    refine h3.imp fun {x y} h hx => ?_
    cases hy : eq y y with
    | false => rfl
    | true => rw [C.nan_last y x hy hx] at h; cases h
  refine ⟨s, h1, ?_, ?_⟩
  · rw [e]; exact h2.filter _
  · rw [e]; exact h3.filter _

/-! ## C82: median -/

theorem isMedian_perm {split : α → α → Option α} {inv r : α} {v w : List α} (hp : v.Perm w)
    (h : IsMedian lt split inv v r) : IsMedian lt split inv w r := by
  obtain ⟨h1, h2, h3⟩ := h
  rw [hp.length_eq] at h2 h3
  refine ⟨fun hw => h1 (by rw [hw] at hp; exact hp.eq_nil), fun ho => Rank.perm (h2 ho) hp, fun hne he => ?_⟩
  obtain ⟨x, y, hx, hy, e⟩ := h3 (fun hv => hne (by rw [hv] at hp; exact hp.symm.eq_nil)) he
  exact ⟨x, y, Rank.perm hx hp, Rank.perm hy hp, e⟩

/-- **C82**, one group: the median of the values which are not NaN, if the midpoint is defined. -/
theorem medianOf_median (C : Cmp lt eq) (split : α → α → Option α) (inv : α) (l : List α) (hn : l.length < 2 ^ 63)
    (hs : ∀ x ∈ l, ∀ y ∈ l, (split x y).isSome) :
    ∃ r, medianOf lt eq split inv l = some r ∧ IsMedian lt split inv (l.filter fun x => eq x x) r := by
  obtain ⟨s, h1, hp, hso⟩ := sorted_stripped C l hn
  unfold medianOf
  rw [h1, Option.bind_some]
  dsimp only
  generalize stripTail eq s = t at hp hso
  have hmem : ∀ x ∈ t, x ∈ l := fun x hx => (List.mem_filter.1 (hp.mem_iff.1 hx)).1
  have hrank : ∀ {k x}, t[k]? = some x → Rank lt t k x := fun h => rank_sorted C.weak (fun _ _ => trivial) hso h
  by_cases h0 : t.length = 0
  · rw [if_pos h0]
    refine ⟨inv, rfl, isMedian_perm hp ⟨fun _ => rfl, fun h => by omega, fun h => ?_⟩⟩
    exact absurd (List.eq_nil_of_length_eq_zero h0) h
  · rw [if_neg h0]
    by_cases ho : t.length % 2 = 1
    · rw [if_pos ho, List.getElem?_eq_getElem (show t.length / 2 < t.length by omega)]
      refine ⟨_, rfl, isMedian_perm hp ⟨fun h => ?_, fun _ => hrank (List.getElem?_eq_getElem ..), fun _ h => by omega⟩⟩
      rw [h] at h0; exact absurd rfl h0
    · rw [if_neg ho]
      have e1 := List.getElem?_eq_getElem (show t.length / 2 < t.length by omega)
      have e2 := List.getElem?_eq_getElem (show t.length / 2 - 1 < t.length by omega)
      rw [e1, Option.bind_some, e2, Option.bind_some]
      obtain ⟨r, hr⟩ := Option.isSome_iff_exists.1 (hs _ (hmem _ (List.getElem_mem (show t.length / 2 < t.length by omega)))
        _ (hmem _ (List.getElem_mem (show t.length / 2 - 1 < t.length by omega))))
      refine ⟨r, hr, isMedian_perm hp ⟨fun h => ?_, fun h => absurd h ho, fun _ _ => ⟨_, _, hrank e1, hrank e2, hr⟩⟩⟩
      rw [h] at h0; exact absurd rfl h0

theorem filter_eq_int (l : List Int) : (l.filter fun x => decide (x = x)) = l := by simp

/-- **C82** for floats: the median of the numbers of each group (`half` is the rounded midpoint), NaN if it has none. -/
theorem median_groups_float (f : FT) (half : Nat → Nat → Nat) (nan : Nat) {keys : List Int} {src : List Nat} {Q : Packed}
    {bins uniq : Nat} (hS : Slices keys bins Q.group Q.first Q.count) (hl : src.length = keys.length)
    (hb : uniq ≤ bins) (hn : src.length < 2 ^ 63) :
    (∀ lo hi, hi ≤ uniq → ∃ out,
      accumGroups keys.length src Q nan (medianOf (floatLt f true) f.eq (fun x y => some (half x y)) nan) uniq lo hi = some out ∧
      out.length = uniq ∧
      (∀ b, lo ≤ b → b < hi → ∃ v, out[b]? = some (some v) ∧ IsMedian (floatLt f true) (fun x y => some (half x y)) nan
        ((groupVals keys src b).filter fun x => !f.isNan x) v) ∧
      ∀ b, b < uniq → b < lo ∨ hi ≤ b → out[b]? = some none) ∧
    ∀ (workers cores : Nat) (calls : List Nat), 0 < cores → Work.PoolRun workers cores calls → ∃ out,
      accumBanded keys.length src Q nan (medianOf (floatLt f true) f.eq (fun x y => some (half x y)) nan) uniq cores calls =
        some out ∧ out.length = uniq ∧
      ∀ b, b < uniq → ∃ v, out[b]? = some (some v) ∧ IsMedian (floatLt f true) (fun x y => some (half x y)) nan
        ((groupVals keys src b).filter fun x => !f.isNan x) v := by
  refine groups_all hS hl (Nat.le_refl _) hb nan _ (fun l v => IsMedian (floatLt f true) (fun x y => some (half x y)) nan
    (l.filter fun x => !f.isNan x) v) ⟨fun _ => rfl, fun h => by simp at h, fun h => absurd rfl h⟩ fun l _ hle => ?_
  obtain ⟨r, h1, h2⟩ := medianOf_median (float_cmp f) (fun x y => some (half x y)) nan l (by omega) fun _ _ _ _ => rfl
  refine ⟨r, h1, ?_⟩
  have e : (fun x => f.eq x x) = fun x => !f.isNan x := by
    funext x
    simp [FT.eq]
  rw [e] at h2
  exact h2

theorem intSplit_exact {t : IT} (hb : 0 < t.bits) {x y : Int} (h : t.InRange (x + y)) :
    intSplit t x y = some ((x + y).tdiv 2) := by
  unfold intSplit
  rw [Heap.splitSum_partial t x y hb h]; rfl

/-- **C82**, integers: the median of all values of each group, towards zero, if no sum of two of the values overflows.
What is missing: invalid values are counted as numbers (`median_counts_invalid`), and sums may overflow
(`median_overflow`). -/
theorem median_groups_int_partial (t : IT) (hb' : 0 < t.bits) {keys : List Int} {src : List Int} {Q : Packed}
    {bins uniq : Nat} (hS : Slices keys bins Q.group Q.first Q.count) (hl : src.length = keys.length)
    (hb : uniq ≤ bins) (hn : src.length < 2 ^ 63) (hr : ∀ x ∈ src, ∀ y ∈ src, t.InRange (x + y)) :
    (∀ lo hi, hi ≤ uniq → ∃ out,
      accumGroups keys.length src Q t.inv (medianOf (intLt true) (fun x y => decide (x = y)) (intSplit t) t.inv) uniq lo hi =
        some out ∧ out.length = uniq ∧
      (∀ b, lo ≤ b → b < hi → ∃ v, out[b]? = some (some v) ∧
        IsMedian (intLt true) (fun x y => some ((x + y).tdiv 2)) t.inv (groupVals keys src b) v) ∧
      ∀ b, b < uniq → b < lo ∨ hi ≤ b → out[b]? = some none) ∧
    ∀ (workers cores : Nat) (calls : List Nat), 0 < cores → Work.PoolRun workers cores calls → ∃ out,
      accumBanded keys.length src Q t.inv (medianOf (intLt true) (fun x y => decide (x = y)) (intSplit t) t.inv) uniq cores
        calls = some out ∧ out.length = uniq ∧
      ∀ b, b < uniq → ∃ v, out[b]? = some (some v) ∧
        IsMedian (intLt true) (fun x y => some ((x + y).tdiv 2)) t.inv (groupVals keys src b) v := by
  refine groups_all hS hl (Nat.le_refl _) hb t.inv _
    (fun l v => IsMedian (intLt true) (fun x y => some ((x + y).tdiv 2)) t.inv l v)
    ⟨fun _ => rfl, fun h => by simp at h, fun h => absurd rfl h⟩ fun l hm hle => ?_
  have hsp : ∀ x ∈ l, ∀ y ∈ l, intSplit t x y = some ((x + y).tdiv 2) := fun x hx y hy =>
    intSplit_exact hb' (hr x (hm x hx) y (hm y hy))
  obtain ⟨r, h1, h2⟩ := medianOf_median int_cmp (intSplit t) t.inv l (by omega) fun x hx y hy => by
    rw [hsp x hx y hy]; rfl
  refine ⟨r, h1, ?_⟩
  rw [filter_eq_int] at h2
  refine ⟨h2.1, h2.2.1, fun hne he => ?_⟩
  obtain ⟨x, y, hx, hy, e⟩ := h2.2.2 hne he
  exact ⟨x, y, hx, hy, (hsp x hx.1 y hy.1).symm.trans e⟩

example : Slices [1, 2, 1, 1] 3 exPacked.group exPacked.first exPacked.count ∧
    (∀ x ∈ [5, 7, 2, 9], ∀ y ∈ [(5 : Int), 7, 2, 9], IT.i32.InRange (x + y)) ∧
    accumGroups 4 [5, 7, 2, 9] exPacked IT.i32.inv
      (medianOf (intLt true) (fun x y => decide (x = y)) (intSplit .i32) IT.i32.inv) 3 0 3 =
      some [some IT.i32.inv, some 5, some 7] :=
  ⟨exPacked_slices, by decide, by decide +kernel⟩

/-- C82 fails: the invalid value of an integer type is counted as a number, the smallest one for a signed type.  The
median of 1 and 3 with an invalid value is given as 1. -/
theorem median_counts_invalid :
    medianOf (intLt true) (fun x y => decide (x = y)) (intSplit .i32) IT.i32.inv [IT.i32.inv, 1, 3] = some 1 ∧
    medianOf (intLt true) (fun x y => decide (x = y)) (intSplit .i32) IT.i32.inv [1, 3] = some 2 := by decide +kernel

/-- C82 fails: the midpoint of two int32 or int64 values may overflow, which is undefined behaviour, and the midpoint
of two uint32 values may wrap around. -/
theorem median_overflow :
    medianOf (intLt true) (fun x y => decide (x = y)) (intSplit .i32) IT.i32.inv [2000000000, 2000000000] = none ∧
    medianOf (intLt true) (fun x y => decide (x = y)) (intSplit .i64) IT.i64.inv [2 ^ 62, 2 ^ 62] = none ∧
    medianOf (intLt true) (fun x y => decide (x = y)) (intSplit .u32) IT.u32.inv [3000000000, 3000000000] = some 852516352 := by
  decide +kernel

/-- C82, the number of threads matters: one thread leaves the bins outside `[lo, hi)` unwritten, the banded version
fills all bins whatever the range. -/
theorem median_range_ignored :
    accumGroups 4 [5, 7, 2, 9] exPacked 0 (medianOf (intLt true) (fun x y => decide (x = y)) (intSplit .i32) 0) 3 2 3 =
      some [none, none, some 7] ∧
    accumBanded 4 [5, 7, 2, 9] exPacked 0 (medianOf (intLt true) (fun x y => decide (x = y)) (intSplit .i32) 0) 3 1 [0] =
      some [some 0, some 5, some 7] := by decide +kernel

/-! ## C83: mode -/

/-- The loop over a sorted list, the part `pre` of it being done. -/
theorem modeLoop_spec (C : Cmp lt eq) (xs pre : List α) (cv bv : α) (cc bc : Nat)
    (hv : ∀ x ∈ pre ++ xs, eq x x = true) (hs : (pre ++ xs).Pairwise fun x y => lt y x = false)
    (hcv : cv ∈ pre) (hbv : bv ∈ pre) (hcc : cc = pre.countP (eq cv)) (hbc : bc = pre.countP (eq bv))
    (hmax : ∀ y ∈ pre, lt cv y = false)
    (hbest : ∀ y ∈ pre, pre.countP (eq y) ≤ bc ∧ (pre.countP (eq y) = bc → lt y bv = false)) :
    Mode lt eq (pre ++ xs) (modeLoop eq cv cc bv bc xs) := by
  have W := C.weak
  have tr : ∀ x y z, lt y x = false → lt z y = false → lt z x = false := fun x y z => W.trans x y z trivial trivial trivial
  induction xs generalizing pre cv bv cc bc with
  | nil =>
    rw [List.append_nil]
    refine ⟨hbv, fun y hy => ?_⟩
    rw [modeLoop, ← hbc]; exact hbest y hy
  | cons x xs ih =>
    have hx : eq x x = true := hv x (by simp)
    have hvp : ∀ y ∈ pre, eq y y = true := fun y hy => hv y (by simp [hy])
    have hle : ∀ y ∈ pre, lt x y = false := fun y hy => (List.pairwise_append.1 hs).2.2 y hy x (by simp)
    have e : pre ++ x :: xs = (pre ++ [x]) ++ xs := by simp
    have irr : ∀ y, lt y y = false := fun y => Quick.irrefl W trivial
    -- counts in `pre ++ [x]`
    have cnt : ∀ y, (pre ++ [x]).countP (eq y) = pre.countP (eq y) + if eq y x then 1 else 0 := by
      intro y; rw [List.countP_append, List.countP_singleton]
    have cong : ∀ y z, eq y y = true → eq z z = true → eq y z = true → pre.countP (eq y) = pre.countP (eq z) := by
      intro y z hy hz hyz
      obtain ⟨a1, a2⟩ := (C.eq_iff y z hy hz).1 hyz
      apply List.countP_congr
      intro w hw
      rw [C.eq_iff y w hy (hvp w hw), C.eq_iff z w hz (hvp w hw)]
      constructor
      · rintro ⟨b1, b2⟩; exact ⟨tr w y z b1 a2, tr z y w a1 b2⟩
      · rintro ⟨b1, b2⟩; exact ⟨tr w z y b1 a1, tr y z w a2 b2⟩
    have symm : ∀ y z, eq y y = true → eq z z = true → eq y z = true → eq z y = true := by
      intro y z hy hz h
      rw [C.eq_iff z y hz hy]; exact ((C.eq_iff y z hy hz).1 h).symm
    have hvcv := hvp cv hcv
    have hvbv := hvp bv hbv
    have hccle : cc ≤ bc := by rw [hcc]; exact (hbest cv hcv).1
    rw [e] at hv hs ⊢
    rw [modeLoop]
    by_cases hxc : eq x cv = true
    · simp only [hxc, if_true]
      have hcx : eq cv x = true := symm x cv hx hvcv hxc
      obtain ⟨x1, x2⟩ := (C.eq_iff x cv hx hvcv).1 hxc
      have eqx : ∀ y ∈ pre, eq y x = true → pre.countP (eq y) = cc ∧ eq y cv = true := by
        intro y hy hyx
        obtain ⟨y1, y2⟩ := (C.eq_iff y x (hvp y hy) hx).1 hyx
        have hyc : eq y cv = true := (C.eq_iff y cv (hvp y hy) hvcv).2 ⟨tr cv x y x1 y1, tr y x cv y2 x2⟩
        exact ⟨by rw [hcc]; exact cong y cv (hvp y hy) hvcv hyc, hyc⟩
      have ncv : (pre ++ [x]).countP (eq cv) = cc + 1 := by rw [cnt, if_pos hcx, hcc]
      have nx : (pre ++ [x]).countP (eq x) = cc + 1 := by
        rw [cnt, if_pos hx, cong x cv hx hvcv hxc, hcc]
      by_cases hlt : bc < cc + 1
      · rw [if_pos hlt]
        refine ih (pre ++ [x]) cv cv (cc + 1) (cc + 1) hv hs (by simp [hcv]) (by simp [hcv]) ncv.symm ncv.symm
          (fun y hy => ?_) fun y hy => ?_
        · rcases List.mem_append.1 hy with hy | hy
          · exact hmax y hy
          · rw [List.mem_singleton.1 hy]; exact x2
        · rcases List.mem_append.1 hy with hy | hy
          · rw [cnt]
            by_cases hyx : eq y x = true
            · obtain ⟨h1, h2⟩ := eqx y hy hyx
              rw [if_pos hyx, h1]
              exact ⟨Nat.le_refl _, fun _ => ((C.eq_iff y cv (hvp y hy) hvcv).1 h2).1⟩
            · rw [if_neg hyx]
              have := (hbest y hy).1
              exact ⟨by omega, fun h => by omega⟩
          · rw [List.mem_singleton.1 hy, nx]
            exact ⟨Nat.le_refl _, fun _ => x1⟩
      · rw [if_neg hlt]
        have hbx : eq bv x ≠ true := fun h => by
          have := (eqx bv hbv h).1
          omega
        have nb : (pre ++ [x]).countP (eq bv) = bc := by rw [cnt, if_neg hbx, hbc]; rfl
        refine ih (pre ++ [x]) cv bv (cc + 1) bc hv hs (by simp [hcv]) (by simp [hbv]) ncv.symm nb.symm
          (fun y hy => ?_) fun y hy => ?_
        · rcases List.mem_append.1 hy with hy | hy
          · exact hmax y hy
          · rw [List.mem_singleton.1 hy]; exact x2
        · rcases List.mem_append.1 hy with hy | hy
          · rw [cnt]
            by_cases hyx : eq y x = true
            · obtain ⟨h1, h2⟩ := eqx y hy hyx
              rw [if_pos hyx, h1]
              exact ⟨by omega, fun _ => tr bv cv y (hmax bv hbv) ((C.eq_iff y cv (hvp y hy) hvcv).1 h2).1⟩
            · rw [if_neg hyx]; exact hbest y hy
          · rw [List.mem_singleton.1 hy, nx]
            exact ⟨by omega, fun _ => hle bv hbv⟩
    · simp only [hxc, Bool.false_eq_true, if_false]
      have hbpos : 0 < bc := by
        rw [hbc, List.countP_pos_iff]; exact ⟨bv, hbv, hvbv⟩
      rw [if_neg (show ¬ bc < 1 by omega)]
      have hnew : ∀ y ∈ pre, eq y x ≠ true := by
        intro y hy h
        obtain ⟨y1, y2⟩ := (C.eq_iff y x (hvp y hy) hx).1 h
        exact hxc ((C.eq_iff x cv hx hvcv).2 ⟨hle cv hcv, tr x y cv y1 (hmax y hy)⟩)
      have h0 : pre.countP (eq x) = 0 := by
        rw [List.countP_eq_zero]
        intro y hy h
        exact hnew y hy (symm x y hx (hvp y hy) h)
      have nx : (pre ++ [x]).countP (eq x) = 1 := by rw [cnt, if_pos hx, h0]
      refine ih (pre ++ [x]) x bv 1 bc hv hs (by simp) (by simp [hbv]) nx.symm
        (by rw [cnt, if_neg (hnew bv hbv), hbc]; rfl) (fun y hy => ?_) fun y hy => ?_
      · rcases List.mem_append.1 hy with hy | hy
        · exact hle y hy
        · rw [List.mem_singleton.1 hy]; exact irr x
      · rcases List.mem_append.1 hy with hy | hy
        · rw [cnt, if_neg (hnew y hy)]; exact hbest y hy
        · rw [List.mem_singleton.1 hy, nx]
          exact ⟨hbpos, fun _ => hle bv hbv⟩

theorem mode_perm {v w : List α} {x : α} (hp : v.Perm w) (h : Mode lt eq v x) : Mode lt eq w x := by
  refine ⟨hp.mem_iff.1 h.1, fun y hy => ?_⟩
  rw [← hp.countP_eq, ← hp.countP_eq]
  exact h.2 y (hp.mem_iff.2 hy)

/-- **C83**, one group: the most frequent of the values which are not NaN, the smallest of several. -/
theorem modeOf_mode (C : Cmp lt eq) (inv : α) (l : List α) (hn : l.length < 2 ^ 63) :
    ∃ r, modeOf lt eq inv l = some r ∧ ((l.filter fun x => eq x x) = [] → r = inv) ∧
      ((l.filter fun x => eq x x) ≠ [] → Mode lt eq (l.filter fun x => eq x x) r) := by
  obtain ⟨s, h1, hp, hso⟩ := sorted_stripped C l hn
  unfold modeOf
  rw [h1, Option.map_some]
  have hv : ∀ x ∈ stripTail eq s, eq x x = true := fun x hx => (List.mem_filter.1 (hp.mem_iff.1 hx)).2
  cases ht : stripTail eq s with
  | nil =>
    rw [ht] at hp
    refine ⟨_, rfl, fun _ => rfl, fun h => absurd hp.symm.eq_nil h⟩
  | cons x xs =>
    rw [ht] at hp hso hv
    refine ⟨_, rfl, fun h => ?_, fun _ => mode_perm hp ?_⟩
    · rw [h] at hp; cases hp.eq_nil
    · have hx := hv x (by simp)
      have c1 : [x].countP (eq x) = 1 := by rw [List.countP_singleton, if_pos hx]
      refine modeLoop_spec C xs [x] x x 1 1 hv hso (by simp) (by simp) c1.symm c1.symm (fun y hy => ?_) fun y hy => ?_
      · rw [List.mem_singleton.1 hy]; exact Quick.irrefl C.weak trivial
      · rw [List.mem_singleton.1 hy]
        exact ⟨by omega, fun _ => Quick.irrefl C.weak trivial⟩

/-- What the mode of a group should be: of the values that are not NaN, `inv` if there are none. -/
def IsMode (lt eq : α → α → Bool) (inv : α) (l : List α) (r : α) : Prop :=
  ((l.filter fun x => eq x x) = [] → r = inv) ∧
  ((l.filter fun x => eq x x) ≠ [] → Mode lt eq (l.filter fun x => eq x x) r)

/-- **C83**, all groups of a float column, or of an integer column without invalid values (`Cmp` holds for both:
`int_cmp`, `float_cmp`), with one thread or many. -/
theorem mode_groups (C : Cmp lt eq) (inv : α) {keys : List Int} {src : List α} {Q : Packed}
    {bins uniq : Nat} (hS : Slices keys bins Q.group Q.first Q.count) (hl : src.length = keys.length)
    (hb : uniq ≤ bins) (hn : src.length < 2 ^ 63) :
    (∀ lo hi, hi ≤ uniq → ∃ out, accumGroups keys.length src Q inv (modeOf lt eq inv) uniq lo hi = some out ∧
      out.length = uniq ∧
      (∀ b, lo ≤ b → b < hi → ∃ v, out[b]? = some (some v) ∧ IsMode lt eq inv (groupVals keys src b) v) ∧
      ∀ b, b < uniq → b < lo ∨ hi ≤ b → out[b]? = some none) ∧
    ∀ (workers cores : Nat) (calls : List Nat), 0 < cores → Work.PoolRun workers cores calls → ∃ out,
      accumBanded keys.length src Q inv (modeOf lt eq inv) uniq cores calls = some out ∧ out.length = uniq ∧
      ∀ b, b < uniq → ∃ v, out[b]? = some (some v) ∧ IsMode lt eq inv (groupVals keys src b) v := by
  refine groups_all hS hl (Nat.le_refl _) hb inv _ (IsMode lt eq inv) ⟨fun _ => rfl, fun h => absurd rfl h⟩ fun l _ hle => ?_
  obtain ⟨r, h1, h2, h3⟩ := modeOf_mode C inv l (by omega)
  exact ⟨r, h1, h2, h3⟩

example : accumGroups 4 [5, 7, 2, 5] exPacked 0 (modeOf (intLt true) (fun x y => decide (x = y)) 0) 3 0 3 =
    some [some 0, some 5, some 7] := by decide +kernel

/-- C83 fails for integers: invalid values are counted. -/
theorem mode_counts_invalid :
    modeOf (intLt true) (fun x y => decide (x = y)) IT.i32.inv [IT.i32.inv, 4, IT.i32.inv] = some IT.i32.inv ∧
    modeOf (intLt true) (fun x y => decide (x = y)) IT.i32.inv [4] = some 4 := by decide +kernel

end Riptide.Median
