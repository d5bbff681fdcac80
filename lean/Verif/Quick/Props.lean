import Verif.Quick.Loop
import Verif.Quick.InPlace
import Verif.Quick.Spec
import Verif.Sort.Props
/-! # C80, C81: quicksort, heapsort and the in-place sorts -/
namespace Riptide.Quick
open Riptide.Sort (intLt floatLt singleSort intLt_weak floatLt_weak floatLt_iff)
open Riptide.Sort.Spec (Weak)
open Spec

variable {α : Type} {P : α → Prop} {lt : α → α → Bool}

/-- **C80.** Quicksort, for every strict weak order and every array: all accesses are inside the array, the
stack never overflows, and the result is the elements in order. -/
theorem quicksort_sorts (W : Weak P lt) (a : List α) (hP : ∀ x ∈ a, P x) (hn : a.length < 2 ^ 63) :
    ∃ out, quicksort lt a = some out ∧ out.Perm a ∧ out.Pairwise fun x y => lt y x = false := by
  cases a with
  | nil =>
    refine ⟨[], ?_, List.Perm.refl _, List.Pairwise.nil⟩
    unfold quicksort qloop
    rw [if_neg (by simp only [msb, List.length_nil]; decide), if_neg (by simp only [List.length_nil]; omega)]
    rfl
  | cons d t =>
    unfold quicksort
    obtain ⟨b, b1, b2, b3⟩ := qloop_spec W d (d :: t).length hn (2 * (d :: t).length + 2) true
      ⟨0, (d :: t).length, 2 * msb (d :: t).length⟩ [] (d :: t) hP
      (fun s hs => by rw [List.mem_singleton.1 hs]; exact ⟨Nat.zero_le _, Nat.le_refl _⟩)
      (List.pairwise_singleton ..)
      (fun i j _ hj => .inl ⟨_, List.mem_cons_self .., Nat.zero_le _, hj⟩)
      ⟨by simp, trivial⟩ (by simp only [cost]; omega)
    refine ⟨b, b1, b2, pairwise_of_ord (d := d) fun i j hij hj => ?_⟩
    rcases b3 i j hij hj with ⟨s, hs, _⟩ | h
    · cases hs
    · exact h

/-- **C80.** Heapsort, for every strict weak order and every array. -/
theorem heapsort_sorts (W : Weak P lt) (a : List α) (hP : ∀ x ∈ a, P x) :
    ∃ out, heapsort lt a = some out ∧ out.Perm a ∧ out.Pairwise fun x y => lt y x = false := by
  cases a with
  | nil => exact ⟨[], by simp [heapsort, heapsortAt, build, drain], List.Perm.refl _, List.Pairwise.nil⟩
  | cons d t =>
    obtain ⟨b, b1, b2, b3⟩ := heapsortAt_spec W d 0 (d :: t).length (d :: t) hP (by omega)
    refine ⟨b, b1, b2.perm, pairwise_of_ord (d := d) fun i j hij hj => b3 i j (Nat.zero_le _) hij ?_⟩
    rw [b2.len] at hj; omega

/-- **C80.** Mergesort in place. -/
theorem mergesort_sorts (W : Weak P lt) (a w : List α) (hP : ∀ x ∈ a, P x) (hw : w.length = a.length / 2) :
    ∃ out, singleSort lt false a w = some out ∧ out.Perm a ∧ out.Pairwise fun x y => lt y x = false := by
  obtain ⟨out, w', h1, h2, _⟩ := Riptide.Sort.msort_spec W false a.length a [] [] w 0 rfl hP (by omega)
  refine ⟨out, ?_, h2.perm, h2.sorted⟩
  unfold singleSort
  simp only [List.length_nil, Nat.zero_add, List.nil_append, List.append_nil] at h1
  rw [h1]; rfl

/-- Every mode sorts by its comparison. -/
theorem sortRun_sorts {ltM : α → α → Bool} (W : Weak P lt) (WM : Weak P ltM) (mode : Int) (a w : List α) (hP : ∀ x ∈ a, P x)
    (hn : a.length < 2 ^ 63) (hw : w.length = a.length / 2) (hm : mode = 1 ∨ mode = 2 ∨ mode = 3) :
    ∃ out, sortRun lt ltM mode w a = some out ∧ out.Perm a ∧
      out.Pairwise fun x y => (if mode = 2 then ltM y x else lt y x) = false := by
  unfold sortRun
  rcases hm with h | h | h <;> subst h
  · exact quicksort_sorts W a hP hn
  · exact mergesort_sorts WM a w hP hw
  · exact heapsort_sorts W a hP

/-- **C80.** Integer (and boolean) arrays, in all three modes. -/
theorem sortInPlace_ints (mode : Int) (wi : List Int) (wn : List Nat) (v : List Int) (hn : v.length < 2 ^ 63)
    (hw : wi.length = v.length / 2) (hm : mode = 1 ∨ mode = 2 ∨ mode = 3) :
    ∃ out, sortArray mode wi wn (.ints v) = some (.ints out) ∧ out.Perm v ∧ out.Pairwise (· ≤ ·) := by
  obtain ⟨out, h1, h2, h3⟩ := sortRun_sorts (intLt_weak true) (intLt_weak true) mode v wi (fun _ _ => trivial) hn hw hm
  refine ⟨out, by rw [sortArray]; rw [h1]; rfl, h2, h3.imp fun h => ?_⟩
  simp only [intLt, if_true, ite_self, decide_eq_false_iff_not] at h
  omega

theorem floatLe_of {f : FT} {x y : Nat} (h : floatLt f true y x = false) : FloatLe f x y := by
  unfold FloatLe
  have := (floatLt_iff f true y x)
  rw [h] at this
  simp only [Bool.false_eq_true, if_true, false_iff, not_and, not_or, Bool.not_eq_true] at this
  cases hy : f.isNan y with
  | true => exact .inl rfl
  | false => exact .inr ⟨(this hy).1, by have := (this hy).2; omega⟩

/-- **C80.** Floats with quicksort and heapsort: numbers in order, NaNs at the end. -/
theorem sortInPlace_floats (f : FT) (mode : Int) (wi : List Int) (wn : List Nat) (v : List Nat) (hn : v.length < 2 ^ 63)
    (hm : mode = 1 ∨ mode = 3) :
    ∃ out, sortArray mode wi wn (.floats f v) = some (.floats f out) ∧ out.Perm v ∧ out.Pairwise (FloatLe f) := by
  have key : ∃ out, sortRun (floatLt f true) (mergeLt f) mode wn v = some out ∧ out.Perm v ∧
      out.Pairwise fun x y => floatLt f true y x = false := by
    unfold sortRun
    rcases hm with h | h <;> subst h
    · exact quicksort_sorts (floatLt_weak f true) v (fun _ _ => trivial) hn
    · exact heapsort_sorts (floatLt_weak f true) v (fun _ _ => trivial)
  obtain ⟨out, h1, h2, h3⟩ := key
  exact ⟨out, by rw [sortArray]; rw [h1]; rfl, h2, h3.imp fun h => floatLe_of h⟩

theorem mergeLt_weak (f : FT) : Weak (fun _ => True) (mergeLt f) := by
  constructor
  · intro x y _ _
    unfold mergeLt
    split
    · exact (floatLt_weak f true).asymm x y trivial trivial
    · exact (floatLt_weak .f32 true).asymm _ _ trivial trivial
  · intro x y z _ _ _
    unfold mergeLt
    split
    · exact (floatLt_weak f true).trans x y z trivial trivial trivial
    · exact (floatLt_weak .f32 true).trans _ _ _ trivial trivial trivial

/-- Full statement: mergesort puts any floats in order, as the other two modes do.  False for `double`
(`sortInPlace_merge_double_false`). -/
def MergeSortsFloats (f : FT) : Prop :=
  ∀ (wi : List Int) (wn v : List Nat), v.length < 2 ^ 63 → wn.length = v.length / 2 →
    ∃ out, sortArray 2 wi wn (.floats f v) = some (.floats f out) ∧ out.Perm v ∧ out.Pairwise (FloatLe f)

/-- **C80, partial.** Mergesort of floats sorts when conversion to `float` keeps apart what differs.  Missing: other
doubles, for which it is false (`sortInPlace_merge_keeps`). -/
theorem sortInPlace_merge_partial (f : FT) (wi : List Int) (wn v : List Nat) (hw : wn.length = v.length / 2)
    (hk : ∀ x ∈ v, ∀ y ∈ v, floatLt f true x y = true → mergeLt f x y = true) :
    ∃ out, sortArray 2 wi wn (.floats f v) = some (.floats f out) ∧ out.Perm v ∧ out.Pairwise (FloatLe f) := by
  obtain ⟨out, h1, h2, h3⟩ := mergesort_sorts (mergeLt_weak f) v wn (fun _ _ => trivial) hw
  refine ⟨out, by rw [sortArray, sortRun]; rw [if_neg (by decide), if_pos rfl, h1]; rfl, h2,
    List.Pairwise.imp_of_mem (fun {x y} hx hy h => floatLe_of ?_) h3⟩
  cases e : floatLt f true y x with
  | false => rfl
  | true => rw [hk y (h2.mem_iff.1 hy) x (h2.mem_iff.1 hx) e] at h; cases h

/-- `float` itself meets the guard. -/
theorem sortInPlace_merge_float (wi : List Int) (wn v : List Nat) (hw : wn.length = v.length / 2) :
    ∃ out, sortArray 2 wi wn (.floats .f32 v) = some (.floats .f32 out) ∧ out.Perm v ∧ out.Pairwise (FloatLe .f32) :=
  sortInPlace_merge_partial .f32 wi wn v hw fun x _ y _ h => by
    unfold mergeLt; rw [if_pos (by decide)]; exact h

/-- The guard is needed for every pair: two numbers that conversion does not keep apart stay in the wrong order. -/
theorem sortInPlace_merge_keeps (f : FT) (wi : List Int) (w x y : Nat) (h2 : mergeLt f x y = false) :
    sortArray 2 wi [w] (.floats f [y, x]) = some (.floats f [y, x]) := by
  rw [sortArray, sortRun]
  rw [if_neg (by decide), if_pos rfl]
  unfold singleSort Riptide.Sort.msort
  rw [dif_neg (by simp [Riptide.Sort.smallMergesort])]
  simp [Riptide.Sort.insertion, Riptide.Sort.sink, h2, Riptide.Sort.wr]

/-- `1 + 2^-52` and `1`: mergesort leaves them in the wrong order. -/
theorem sortInPlace_merge_double_false : ¬ MergeSortsFloats .f64 := by
  intro h
  obtain ⟨out, h1, _, h3⟩ := h [] [0] [0x3FF0000000000001, 0x3FF0000000000000] (by decide) rfl
  rw [sortInPlace_merge_keeps .f64 [] 0 _ _ (by decide +kernel)] at h1
  cases h1
  have := List.pairwise_iff_getElem.1 h3 0 1 (by decide) (by decide) (by decide)
  revert this
  unfold FloatLe
  decide +kernel

/-- An unknown mode leaves the array as it is, without an error. -/
theorem sortInPlace_unknown_mode : sortArray 0 [] [] (.ints [2, 1]) = some (.ints [2, 1]) := rfl

/-- Full statement for byte strings: the same strings in another order.  False (`sortInPlace_strings_false`). -/
def SortsStrings : Prop :=
  ∀ (mode : Int) (wi : List Int) (wn : List Nat) (w n : Nat) (v : List Nat), (mode = 1 ∨ mode = 2 ∨ mode = 3) →
    v.length = n * w → wn.length = n / 2 → n < 2 ^ 63 →
    ∃ out, sortArray mode wi wn (.bytes n v) = some (.bytes n out) ∧ (items w n out).Perm (items w n v)

/-- The characters of byte strings are sorted, not the strings: `"ba", "ab"` becomes `"ab", "ab"`. -/
theorem sortInPlace_strings_corrupts :
    sortArray 3 [] [0] (.bytes 2 [98, 97, 97, 98]) = some (.bytes 2 [97, 98, 97, 98]) ∧
    items 2 2 [97, 98, 97, 98] = [[97, 98], [97, 98]] ∧ items 2 2 [98, 97, 97, 98] = [[98, 97], [97, 98]] := by
  decide +kernel

theorem sortInPlace_strings_false : ¬ SortsStrings := by
  intro h
  obtain ⟨out, h1, h2⟩ := h 3 [] [0] 2 2 [98, 97, 97, 98] (by decide) rfl rfl (by decide)
  rw [sortInPlace_strings_corrupts.1] at h1
  cases h1
  have := h2.mem_iff (a := [98, 97])
  revert this
  decide +kernel

theorem charLt_weak : Weak (fun _ => True) charLt :=
  ⟨fun x y _ _ => (intLt_weak true).asymm (charVal x) (charVal y) trivial trivial,
    fun x y z _ _ _ => (intLt_weak true).trans (charVal x) (charVal y) (charVal z) trivial trivial trivial⟩

/-- **C80, partial.** Single characters are sorted, as signed numbers.  Missing: longer strings, for which it is false. -/
theorem sortInPlace_chars_partial (mode : Int) (wi : List Int) (wn v : List Nat) (hv : ∀ x ∈ v, x < 256)
    (hn : v.length < 2 ^ 63) (hw : wn.length = v.length / 2) (hm : mode = 1 ∨ mode = 2 ∨ mode = 3) :
    ∃ out, sortArray mode wi wn (.bytes v.length v) = some (.bytes v.length out) ∧ out.Perm v ∧
      out.Pairwise fun (x y : Nat) => IT.i8.wrap x ≤ IT.i8.wrap y := by
  obtain ⟨out, h1, h2, h3⟩ := sortRun_sorts charLt_weak charLt_weak mode v wn (fun _ _ => trivial) hn hw hm
  have hc : ∀ b : Nat, b < 256 → charVal b = IT.i8.wrap b := by decide +kernel
  refine ⟨out, ?_, h2, List.Pairwise.imp_of_mem (fun {x y} hx hy h => ?_) h3⟩
  · rw [sortArray]; rw [List.take_length, h1, List.drop_length]; simp
  · simp only [charLt, intLt, if_true, ite_self, decide_eq_false_iff_not] at h
    rw [← hc x (hv x (h2.mem_iff.1 hx)), ← hc y (hv y (h2.mem_iff.1 hy))]
    omega

/-- **C80.** A contiguous view is sorted, and nothing outside it changes. -/
theorem sortView_contiguous (mode : Int) (wi mem : List Int) (off n : Nat) (h : off + n ≤ mem.length) (hn : n < 2 ^ 63)
    (hw : wi.length = n / 2) (hm : mode = 1 ∨ mode = 2 ∨ mode = 3) :
    ∃ out, sortView mode wi mem off n = some (mem.take off ++ out ++ mem.drop (off + n)) ∧
      out.Perm ((mem.drop off).take n) ∧ out.Pairwise (· ≤ ·) := by
  have hl : ((mem.drop off).take n).length = n := by rw [List.length_take, List.length_drop]; omega
  obtain ⟨out, h1, h2, h3⟩ := sortRun_sorts (intLt_weak true) (intLt_weak true) mode ((mem.drop off).take n) wi
    (fun _ _ => trivial) (by omega) (by omega) hm
  refine ⟨out, by unfold sortView; rw [if_pos h, h1]; rfl, h2, h3.imp fun h => ?_⟩
  simp only [intLt, if_true, ite_self, decide_eq_false_iff_not] at h
  omega

/-- A view of every second element is not sorted: its neighbours in memory are. -/
theorem sortView_strided :
    sortView 3 [0] [3, 9, 1] 0 2 = some [3, 9, 1] ∧ view [(3 : Int), 9, 1] 0 2 2 = [3, 1] ∧
    sortView 3 [0] [9, 3, 1] 0 2 = some [3, 9, 1] := by
  decide +kernel

/-- A strided view near the end: elements outside the memory of the array are sorted too. -/
theorem sortView_reads_past : sortView 3 [0] [3, 9, 1] 2 2 = none := by decide +kernel

/-! ## C81: SortInPlaceIndirect -/

theorem invert_spec (n : Nat) : ∀ (ps : List Int) (i : Int) (inv : List (Option Int)), inv.length = n →
    (∀ p ∈ ps, 0 ≤ p ∧ p < n) → ps.Nodup →
    ∃ out, invert n ps i inv = some out ∧ out.length = n ∧
      (∀ j : Nat, (j : Int) ∉ ps → out[j]? = inv[j]?) ∧
      ∀ k : Nat, ∀ p : Int, ps[k]? = some p → out[p.toNat]? = some (some (i + k)) := by
  intro ps
  induction ps with
  | nil => intro i inv h _ _; exact ⟨inv, rfl, h, fun _ _ => rfl, fun k p hp => by simp at hp⟩
  | cons q ps ih =>
    intro i inv hl hb hnd
    have hq := hb q (List.mem_cons_self ..)
    unfold invert
    rw [if_neg (by omega)]
    have hw : Riptide.Sort.wr inv q.toNat (some i) = some (inv.set q.toNat (some i)) := by
      unfold Riptide.Sort.wr; rw [if_pos (by omega)]
    rw [hw, Option.bind_some]
    obtain ⟨out, o1, o2, o3, o4⟩ := ih (i + 1) (inv.set q.toNat (some i)) (by rw [List.length_set]; exact hl)
      (fun p hp => hb p (List.mem_cons_of_mem _ hp)) (List.nodup_cons.1 hnd).2
    refine ⟨out, o1, o2, fun j hj => ?_, fun k p hp => ?_⟩
    · rw [o3 j (fun h => hj (List.mem_cons_of_mem _ h)), List.getElem?_set_ne]
      intro e
      exact hj (by rw [← e, Int.toNat_of_nonneg hq.1]; exact List.mem_cons_self ..)
    · cases k with
      | zero =>
        rw [List.getElem?_cons_zero] at hp
        have hp' : q = p := Option.some.inj hp
        rw [← hp', o3 q.toNat (by rw [Int.toNat_of_nonneg hq.1]; exact (List.nodup_cons.1 hnd).1),
          List.getElem?_set_self (by omega)]
        simp
      | succ k =>
        rw [List.getElem?_cons_succ] at hp
        rw [o4 k p hp]
        congr 2
        omega

/-- **C81, partial.** With row numbers that do not repeat and keys among them, every key is replaced by its position
in the sort order.  Missing: repeated or foreign row numbers, which are not checked (`sortIndirect_unchecked`). -/
theorem sortIndirect_partial (srt keys : List Int) (h1 : ∀ p ∈ srt, 0 ≤ p ∧ p < srt.length) (h2 : srt.Nodup)
    (h3 : ∀ k ∈ keys, k ∈ srt) :
    ∃ out : List Nat, sortIndirect srt keys = some (out.map fun (p : Nat) => some (p : Int)) ∧ out.length = keys.length ∧
      ∀ i p : Nat, out[i]? = some p → srt[p]? = keys[i]? := by
  obtain ⟨inv, o1, o2, _, o4⟩ := invert_spec srt.length srt 0 (List.replicate srt.length none) (by simp) h1 h2
  unfold sortIndirect
  rw [o1, Option.bind_some]
  clear o1
  induction keys with
  | nil => exact ⟨[], rfl, rfl, fun i p h => by simp at h⟩
  | cons k ks ih =>
    obtain ⟨out, e1, e2, e3⟩ := ih fun x hx => h3 x (List.mem_cons_of_mem _ hx)
    have hk := h3 k (List.mem_cons_self ..)
    obtain ⟨p, hp⟩ := List.mem_iff_getElem?.1 hk
    have hr := o4 p k hp
    refine ⟨p :: out, ?_, by simp [e2], fun i q hq => ?_⟩
    · rw [List.mapM_cons, e1]
      unfold at?
      rw [if_neg (by have := (h1 k hk).1; omega), hr]
      simp
    · cases i with
      | zero => simp at hq; rw [← hq, hp]; rfl
      | succ i => simp at hq; rw [List.getElem?_cons_succ]; exact e3 i q hq

/-- A row number outside the array writes outside the work space; a missing one leaves garbage in the result. -/
theorem sortIndirect_unchecked :
    sortIndirect [0, 2] [0] = none ∧ sortIndirect [0, 0] [1] = some [none] ∧ sortIndirect [1, 0] [-1] = none := by
  decide +kernel

/-! ## Concrete cases -/

example : quicksort (intLt true) [3, 1, 2, 1] = some [1, 1, 2, 3] := by decide +kernel
/-- Long enough for the partition. -/
example : quicksort (intLt true) ((List.range 40).map fun i => ((i * 17 % 40 : Nat) : Int)) =
    some ((List.range 40).map fun (i : Nat) => (i : Int)) := by decide +kernel
example : heapsort (intLt true) ((List.range 40).map fun i => ((i * 17 % 40 : Nat) : Int)) =
    some ((List.range 40).map fun (i : Nat) => (i : Int)) := by decide +kernel
/-- With a depth of zero the second level goes to heapsort. -/
example : qloop (intLt true) 100 true ⟨0, 40, 0⟩ [] ((List.range 40).map fun i => ((i * 17 % 40 : Nat) : Int)) =
    some ((List.range 40).map fun (i : Nat) => (i : Int)) := by decide +kernel
/-- `2, NaN, 1` as floats. -/
example : quicksort (floatLt .f32 true) [0x40000000, 0x7FC00000, 0x3F800000] = some [0x3F800000, 0x40000000, 0x7FC00000] := by
  decide +kernel
/-- 1.0 and 2.0 stay apart as `float`; 2^60 and 2^60 + 256 do not. -/
example : mergeLt .f64 0x3FF0000000000000 0x4000000000000000 = true ∧
    mergeLt .f64 0x43B0000000000000 0x43B0000000000001 = false ∧ narrow .f64 0x3FF8000000000000 = 0x3FC00000 ∧
    narrow .f64 0x36A0000000000000 = 1 ∧ narrow .f64 0x7FEFFFFFFFFFFFFF = 0x7F800000 ∧ narrow .f64 0xFFF0000000000000 = 0xFF800000 := by
  decide +kernel
/-- Ties go to the even neighbour; the first normal numbers. -/
example : narrow .f64 0x3FF0000010000000 = 0x3F800000 ∧ narrow .f64 0x3FF0000030000000 = 0x3F800002 ∧
    narrow .f64 0x3828000000000000 = 0x01400000 ∧ narrow .f64 0x3818000000000000 = 0x00C00000 := by
  decide +kernel
example : sortIndirect [2, 0, 1] [0, 1, 2, 2] = some [some 1, some 2, some 0, some 0] := by decide +kernel
example : ([2, 0, 1] : List Int).Nodup ∧ ∀ k ∈ [(0 : Int), 1, 2, 2], k ∈ [(2 : Int), 0, 1] := by decide

end Riptide.Quick
