import Verif.Asof.EntrySpec
import Verif.Asof.Props
import Verif.Hash.MultiKeyFull
/-! # The entries of the as-of merges -/
namespace Riptide.Asof
open Riptide.Hash Riptide.Hash.Spec Spec

theorem wrap_i32 (w : Nat) : IT.i32.wrap w = Int.bmod w (2 ^ 32) := by
  simp only [IT.wrap, IT.lo, IT.i32, Int.bmod_def]
  simp
  split <;> omega

theorem wrap_i64 (w : Nat) : IT.i64.wrap w = Int.bmod w (2 ^ 64) := by
  simp only [IT.wrap, IT.lo, IT.i64, Int.bmod_def]
  simp
  split <;> omega

theorem wrap_u32 (w : Nat) : IT.u32.wrap w = w % 2 ^ 32 := by
  simp [IT.wrap, IT.lo, IT.u32]

theorem wrap_u64 (w : Nat) : IT.u64.wrap w = w % 2 ^ 64 := by
  simp [IT.wrap, IT.lo, IT.u64]

theorem inv_i32 : IT.i32.inv = -2 ^ 31 := rfl

theorem inv_i64 : IT.i64.inv = -2 ^ 63 := rfl

theorem inv_u32 : IT.u32.inv = 2 ^ 32 - 1 := rfl

theorem inv_u64 : IT.u64.inv = 2 ^ 64 - 1 := rfl

/-- The functions of a type of times are those of the specification. -/
theorem timeTy_spec {d : Int} {n : Nat} (h : (d, n) ∈ timeTypes) :
    ∃ tt, timeTy d = some tt ∧ tt.valid = validTime d ∧ tt.lt = earlier d := by
  simp only [timeTypes, List.mem_cons, Prod.mk.injEq, List.not_mem_nil, or_false] at h
  rcases h with ⟨rfl, _⟩ | ⟨rfl, _⟩ | ⟨rfl, _⟩ | ⟨rfl, _⟩ | ⟨rfl, _⟩ | ⟨rfl, _⟩ | ⟨rfl, _⟩ | ⟨rfl, _⟩
  · refine ⟨.int .i32, rfl, ?_, ?_⟩
    · funext w; simp [TimeTy.valid, validTime, numberOf, wrap_i32, inv_i32]
    · funext x y; simp [TimeTy.lt, earlier, numberOf, wrap_i32]
  · refine ⟨.int .u32, rfl, ?_, ?_⟩
    · funext w; simp [TimeTy.valid, validTime, numberOf, wrap_u32, inv_u32]
    · funext x y; simp [TimeTy.lt, earlier, numberOf, wrap_u32]
  · refine ⟨.int .i64, rfl, ?_, ?_⟩
    · funext w; simp [TimeTy.valid, validTime, numberOf, wrap_i64, inv_i64]
    · funext x y; simp [TimeTy.lt, earlier, numberOf, wrap_i64]
  · refine ⟨.int .u64, rfl, ?_, ?_⟩
    · funext w; simp [TimeTy.valid, validTime, numberOf, wrap_u64, inv_u64]
    · funext x y; simp [TimeTy.lt, earlier, numberOf, wrap_u64]
  · refine ⟨.int .i64, rfl, ?_, ?_⟩
    · funext w; simp [TimeTy.valid, validTime, numberOf, wrap_i64, inv_i64]
    · funext x y; simp [TimeTy.lt, earlier, numberOf, wrap_i64]
  · refine ⟨.int .u64, rfl, ?_, ?_⟩
    · funext w; simp [TimeTy.valid, validTime, numberOf, wrap_u64, inv_u64]
    · funext x y; simp [TimeTy.lt, earlier, numberOf, wrap_u64]
  · refine ⟨.flt .f32, rfl, ?_, ?_⟩
    · funext w; simp [TimeTy.valid, validTime]
    · funext x y; simp [TimeTy.lt, earlier]
  · refine ⟨.flt .f64, rfl, ?_, ?_⟩
    · funext w; simp [TimeTy.valid, validTime]
    · funext x y; simp [TimeTy.lt, earlier]

theorem ordered_time (tt : TimeTy) : Ordered tt.valid tt.lt tt.same := by
  cases tt with
  | int t =>
    refine ⟨?_, ?_, ?_, ?_⟩
    · intro x _; simp [TimeTy.lt]
    · intro x y z _ _ _ h1 h2; simp [TimeTy.lt] at *; omega
    · intro x y _ _; simp [TimeTy.lt, TimeTy.same]; omega
    · intro x y z _ _ _ h1 h2; simp [TimeTy.same] at *; omega
  | flt f => exact ordered_float f

theorem timesOf_packed {v : Times} (h : Times.Packed v) : timesOf v = v.mem.take v.len := by
  apply List.ext_getElem?
  intro k
  have h1 := h.1
  simp only [timesOf, List.getElem?_map, List.getElem?_take]
  by_cases hk : k < v.len
  · have hs : k * v.step = k := by
      rcases h.2 with h | h
      · rw [h, Nat.mul_one]
      · rw [show k = 0 by omega, Nat.zero_mul]
    simp [hk, hs, show k < v.mem.length by omega]
  · simp [hk]

theorem alignIndex_wrap {n m j : Nat} (hm : m ≤ 2 ^ 59) (hj : j < m) : (alignIndex n m).wrap j = j := by
  have hb : 0 < (alignIndex n m).bits := by rw [alignIndex]; split <;> decide
  apply IT.wrap_of_inRange _ hb
  rw [alignIndex, IT.InRange]
  split
  · simp [IT.lo, IT.hi, IT.i64]; omega
  · simp [IT.lo, IT.hi, IT.i32]; omega

theorem dtypeOf_time {d : Int} {n : Nat} (h : (d, n) ∈ timeTypes) : dtypeOf d = d := by
  simp only [timeTypes, List.mem_cons, Prod.mk.injEq, List.not_mem_nil, or_false] at h
  rw [dtypeOf, if_neg (by omega)]

/-- Rows of the same bytes are the same rows if the arrays have the same widths one by one. -/
theorem eligible_rows {A B : List KeyCol} {nA nB : Nat} (hA : ∀ c ∈ A, IsArray nA c) (hB : ∀ c ∈ B, IsArray nB c)
    (hw : A.map (·.width) = B.map (·.width)) (valid : Nat → Bool) (lt : Nat → Nat → Bool) (ex : Bool) (val1 val2 : List Nat)
    (h1 : val1.length = nA) (h2 : val2.length = nB) (i j : Nat) :
    Eligible valid lt ex ((rowsOf A nA).map List.flatten) ((rowsOf B nB).map List.flatten) val1 val2 i j ↔
      Eligible valid lt ex (rowsOf A nA) (rowsOf B nB) val1 val2 i j := by
  have key : ∀ x y, val1[i]? = some x → val2[j]? = some y →
      (((rowsOf A nA).map List.flatten)[i]? = ((rowsOf B nB).map List.flatten)[j]? ↔ (rowsOf A nA)[i]? = (rowsOf B nB)[j]?) := by
    intro x y hx hy
    have hi : i < nA := by rw [← h1]; exact (List.getElem?_eq_some_iff.mp hx).1
    have hj : j < nB := by rw [← h2]; exact (List.getElem?_eq_some_iff.mp hy).1
    have ea : (rowsOf A nA)[i]? = some (A.map fun c => item c i) := by simp [rowsOf, hi]
    have eb : (rowsOf B nB)[j]? = some (B.map fun c => item c j) := by simp [rowsOf, hj]
    rw [List.getElem?_map, List.getElem?_map, ea, eb]
    simp only [Option.map_some, Option.some.injEq]
    constructor
    · intro h
      refine flatten_inj ?_ h
      have la : ∀ c ∈ A, (item c i).length = c.width := fun c hc => item_length (hA c hc) hi
      have lb : ∀ c ∈ B, (item c j).length = c.width := fun c hc => item_length (hB c hc) hj
      rw [List.map_map, List.map_map, show A.map (List.length ∘ fun c => item c i) = A.map (·.width) from
        List.map_congr_left la, show B.map (List.length ∘ fun c => item c j) = B.map (·.width) from List.map_congr_left lb, hw]
    · intro h; rw [h]
  constructor
  · rintro ⟨x, y, hx, hy, v1, v2, hk, ht⟩
    exact ⟨x, y, hx, hy, v1, v2, (key x y hx hy).mp hk, ht⟩
  · rintro ⟨x, y, hx, hy, v1, v2, hk, ht⟩
    exact ⟨x, y, hx, hy, v1, v2, (key x y hx hy).mpr hk, ht⟩

/-- What an as-of merge has to find for left row `i`. -/
def Wanted (fwd : Bool) (ty : Int) (ex : Bool) (A B : List KeyCol) (v1 v2 : Times) (i : Nat) : Option Nat → Prop :=
  if fwd then ForwardAt (Eligible (validTime ty) (fun x y => earlier ty y x) ex (rowsOf A v1.len) (rowsOf B v2.len) (timesOf v1) (timesOf v2) i)
  else BackwardAt (Eligible (validTime ty) (earlier ty) ex (rowsOf A v1.len) (rowsOf B v2.len) (timesOf v1) (timesOf v2) i)

theorem backwardAt_congr {p q : Nat → Prop} (h : ∀ j, p j ↔ q j) (o : Option Nat) : BackwardAt p o ↔ BackwardAt q o := by
  have : p = q := funext fun j => propext (h j)
  rw [this]

theorem forwardAt_congr {p q : Nat → Prop} (h : ∀ j, p j ↔ q j) (o : Option Nat) : ForwardAt p o ↔ ForwardAt q o := by
  have : p = q := funext fun j => propext (h j)
  rw [this]

theorem eligible_lt {K : Type} {valid : Nat → Bool} {lt : Nat → Nat → Bool} {ex : Bool} {k1 k2 : List K} {v1 v2 : List Nat} {i j : Nat}
    (h : Eligible valid lt ex k1 k2 v1 v2 i j) : j < v2.length := by
  obtain ⟨x, y, _, hy, _⟩ := h
  exact (List.getElem?_eq_some_iff.mp hy).1

theorem sameTypes_of_pair {v1 v2 : Times} (hn : v1.item = v2.item) (h : (v1.ty, v2.ty) ∈ acceptedPairs) : sameTypes v1 v2 = true := by
  have key : ∀ p ∈ acceptedPairs, dtypeOf p.1 = dtypeOf p.2 ∨ (dtypeOf p.1 ≤ 10 ∧ dtypeOf p.2 ≤ 10 ∧ dtypeOf p.1 % 2 = dtypeOf p.2 % 2) := by
    decide
  rw [sameTypes]
  rcases key _ h with e | ⟨a, b, c⟩
  · simp only at e; simp [e]
  · simp only at a b c; simp [a, b, c, hn]

/-- **C129**. `MultiKeyAlign32`: for keys of the same widths and packed, sorted times of the same type, the index has for every left row
the last (first) right row with the same key whose time is valid and not after (before) the left time. -/
theorem align_matches_partial (H : List UInt8 → Nat) (A B : KeyArg) (v1 v2 : Times) (fwd ex : Bool) (n : Nat)
    (ht : (v1.ty, n) ∈ timeTypes) (hn : v1.item = n ∧ v2.item = n)
    (hs : v2.ty = v1.ty ∨ (v1.ty, v2.ty) ∈ acceptedPairs) (hA0 : A.cols ≠ []) (hA : ∀ c ∈ A.cols, IsArray v1.len c)
    (hB : ∀ c ∈ B.cols, IsArray v2.len c) (hfA : NoFilter A) (hfB : NoFilter B) (hw : A.cols.map (·.width) = B.cols.map (·.width))
    (hB59 : v2.len ≤ 2 ^ 59) (p1 : Times.Packed v1) (p2 : Times.Packed v2)
    (s1 : Sorted (validTime v1.ty) (earlier v1.ty) (timesOf v1)) (s2 : Sorted (validTime v1.ty) (earlier v1.ty) (timesOf v2)) :
    ∃ out : List Int, align H A B v1 v2 fwd ex = some (.index (alignIndex v1.len v2.len) (out.map some)) ∧ out.length = v1.len ∧
      ∀ (i : Nat) x, out[i]? = some x → IndexOf (alignIndex v1.len v2.len).inv (Wanted fwd v1.ty ex A.cols B.cols v1 v2 i) x := by
  have hB0 : B.cols ≠ [] := by
    intro h
    rw [h] at hw
    simp at hw
    exact hA0 hw
  obtain ⟨p, hp, hpr, hpw, hpk⟩ := prepared hA0 hA hfA
  obtain ⟨q, hq, hqr, hqw, hqk⟩ := prepared hB0 hB hfB
  obtain ⟨size, k, hsz, _, hk, hroom, _⟩ := mask_size v2.len false hB59
  have hd := dtypeOf_time ht
  obtain ⟨tt, htt, hvalid, hlt⟩ := timeTy_spec ht
  have hd0 : ¬ (v1.ty < 0) := by
    simp only [timeTypes, List.mem_cons, Prod.mk.injEq, List.not_mem_nil, or_false] at ht
    omega
  have hsame : sameTypes v1 v2 = true := by
    rcases hs with hs | hs
    · rw [sameTypes, hs]; simp
    · exact sameTypes_of_pair (hn.1.trans hn.2.symm) hs
  have hsize : 0 < size := by omega
  have hr : ∀ k, mkHash H size k < size := fun k => by
    have : mkHash H size k ≤ size - 1 := by rw [mkHash]; exact Nat.and_le_right
    omega
  have e : align H A B v1 v2 fwd ex = alignHash (alignIndex v1.len v2.len) H size tt fwd ex ((rowsOf A.cols v1.len).map List.flatten)
      ((rowsOf B.cols v2.len).map List.flatten) v1 v2 := by
    rw [align, hp, hq]
    simp only
    rw [if_neg (by rw [hpw, hqw, hw]; simp), hd, if_neg hd0, if_neg (by simp [hsame]), if_neg (by simp [hpr]), if_neg (by simp [hqr]), htt]
    simp only [hpk, hqk, hpr, hqr, hsz]
  have l1 : (timesOf v1).length = v1.len := by simp [timesOf]
  have l2 : (timesOf v2).length = v2.len := by simp [timesOf]
  have k1 : ((rowsOf A.cols v1.len).map List.flatten).length = (timesOf v1).length := by simp [rowsOf, l1]
  have k2 : ((rowsOf B.cols v2.len).map List.flatten).length = (timesOf v2).length := by simp [rowsOf, l2]
  have hnm : ¬ (v1.mem.length < v1.len ∨ v2.mem.length < v2.len) := by
    have a := p1.1; have b := p2.1; omega
  rw [e, alignHash, if_neg hnm, ← timesOf_packed p1, ← timesOf_packed p2]
  rw [← hvalid, ← hlt] at s1 s2
  have finish : ∀ (outs : List (Option Nat)) (W : Nat → Option Nat → Prop), outs.length = (timesOf v1).length →
      (∀ (i : Nat) (j : Nat), W i (some j) → j < v2.len) → (∀ (i : Nat) o, outs[i]? = some o → W i o) →
      ∃ out : List Int, some (AlignReply.index (alignIndex v1.len v2.len) ((outs.map some).map (·.map (locOut (alignIndex v1.len v2.len))))) =
          some (.index (alignIndex v1.len v2.len) (out.map some)) ∧ out.length = v1.len ∧
        ∀ (i : Nat) x, out[i]? = some x → IndexOf (alignIndex v1.len v2.len).inv (W i) x := by
    intro outs W hl hlt hW
    refine ⟨outs.map (locOut (alignIndex v1.len v2.len)), by simp [Function.comp_def], by simp [hl, l1], ?_⟩
    intro i x hx
    rw [List.getElem?_map] at hx
    cases ho : outs[i]? with
    | none => rw [ho] at hx; cases hx
    | some o =>
      rw [ho] at hx
      simp only [Option.map_some, Option.some.injEq] at hx
      subst hx
      have := hW i o ho
      cases o with
      | none => exact Or.inl ⟨rfl, this⟩
      | some j => exact Or.inr ⟨j, alignIndex_wrap hB59 (hlt i j this), this⟩
  cases fwd with
  | false =>
    obtain ⟨outs, ho, hl, hspec⟩ := asof_backward (mkHash H size) size hr (ordered_time tt) ex k1 k2 (by rw [l2]; omega) s1 s2
    simp only [Bool.false_eq_true, if_false, ho, Option.map_some]
    apply finish outs (fun i => Wanted false v1.ty ex A.cols B.cols v1 v2 i) hl
    · intro i j hw
      simp only [Wanted, Bool.false_eq_true, if_false, BackwardAt] at hw
      have := eligible_lt hw.1
      rw [l2] at this
      exact this
    · intro i o hio
      have := hspec i o hio
      simp only [Wanted, Bool.false_eq_true, if_false]
      rw [hvalid, hlt] at this
      exact (backwardAt_congr (fun j => eligible_rows hA hB hw _ _ ex _ _ l1 l2 i j) o).mp this
  | true =>
    obtain ⟨outs, ho, hl, hspec⟩ := asof_forward (mkHash H size) size hr (ordered_time tt) ex k1 k2 (by rw [l2]; omega) s1 s2
    simp only [if_true, ho, Option.map_some]
    apply finish outs (fun i => Wanted true v1.ty ex A.cols B.cols v1 v2 i) hl
    · intro i j hw
      simp only [Wanted, if_true, ForwardAt] at hw
      have := eligible_lt hw.1
      rw [l2] at this
      exact this
    · intro i o hio
      have := hspec i o hio
      simp only [Wanted, if_true]
      rw [hvalid, hlt] at this
      exact (forwardAt_congr (fun j => eligible_rows hA hB hw _ _ ex _ _ l1 l2 i j) o).mp this

/-! ### An example -/

/-- One array of one-byte keys. -/
def byteKeys (l : List UInt8) : KeyCol := ⟨l.length, 1, false, l⟩

theorem byteKeys_array (l : List UInt8) : IsArray l.length (byteKeys l) := ⟨rfl, by simp [byteKeys]⟩

/-- Keys 1, 2, 1 at the times 5, 6, 7, and keys 1, 1 at the times 4, 9. -/
example (H : List UInt8 → Nat) (fwd ex : Bool) : ∃ out : List Int,
    align H (.tuple [byteKeys [1, 2, 1]]) (.tuple [byteKeys [1, 1]]) ⟨5, 4, 3, 1, [5, 6, 7]⟩ ⟨5, 4, 2, 1, [4, 9]⟩ fwd ex =
      some (.index .i32 (out.map some)) ∧ out.length = 3 := by
  obtain ⟨out, h, hl, _⟩ := align_matches_partial H (.tuple [byteKeys [1, 2, 1]]) (.tuple [byteKeys [1, 1]]) ⟨5, 4, 3, 1, [5, 6, 7]⟩
    ⟨5, 4, 2, 1, [4, 9]⟩ fwd ex 4 (by decide) (by decide) (by decide) (by simp [KeyArg.cols])
    (by intro c hc; simp [KeyArg.cols] at hc; subst hc; exact byteKeys_array _)
    (by intro c hc; simp [KeyArg.cols] at hc; subst hc; exact byteKeys_array _)
    (by simp [NoFilter]) (by simp [NoFilter]) (by simp [KeyArg.cols, byteKeys]) (by decide) ⟨by decide, by decide⟩ ⟨by decide, by decide⟩
    (by simp only [Sorted]; decide +kernel) (by simp only [Sorted]; decide +kernel)
  exact ⟨out, h, hl⟩

/-! ### Steps between times -/

/-- The distance of the times in memory is not looked at. -/
theorem steps_are_ignored (H : List UInt8 → Nat) (A B : KeyArg) (v1 v2 : Times) (s1 s2 : Nat) (fwd ex : Bool) :
    align H A B { v1 with step := s1 } { v2 with step := s2 } fwd ex = align H A B v1 v2 fwd ex := rfl

/-- Every second item of `[1, 9, 2, 9]`: times 1 and 2. The second one is the last before time 3, but the first one is returned. -/
theorem times_with_gaps_are_wrong (H : List UInt8 → Nat) :
    align H (.tuple [byteKeys [1]]) (.tuple [byteKeys [1, 1]]) ⟨5, 4, 1, 1, [3]⟩ ⟨5, 4, 2, 2, [1, 9, 2, 9]⟩ false true =
      some (.index .i32 [some 0]) ∧
    timesOf ⟨5, 4, 2, 2, [1, 9, 2, 9]⟩ = [1, 2] ∧
    Wanted false 5 true [byteKeys [1]] [byteKeys [1, 1]] ⟨5, 4, 1, 1, [3]⟩ ⟨5, 4, 2, 2, [1, 9, 2, 9]⟩ 0 (some 1) := by
  refine ⟨?_, by decide, ?_⟩
  · obtain ⟨out, h, hl, hs⟩ := align_matches_partial H (.tuple [byteKeys [1]]) (.tuple [byteKeys [1, 1]]) ⟨5, 4, 1, 1, [3]⟩
      ⟨5, 4, 2, 1, [1, 9, 2, 9]⟩ false true 4 (by decide) (by decide) (by decide) (by simp [KeyArg.cols])
      (by intro c hc; simp [KeyArg.cols] at hc; subst hc; exact byteKeys_array _)
      (by intro c hc; simp [KeyArg.cols] at hc; subst hc; exact byteKeys_array _)
      (by simp [NoFilter]) (by simp [NoFilter]) (by simp [KeyArg.cols, byteKeys]) (by decide) ⟨by decide, by decide⟩ ⟨by decide, by decide⟩
      (by simp only [Sorted]; decide +kernel) (by simp only [Sorted]; decide +kernel)
    have h' : align H (.tuple [byteKeys [1]]) (.tuple [byteKeys [1, 1]]) ⟨5, 4, 1, 1, [3]⟩ ⟨5, 4, 2, 2, [1, 9, 2, 9]⟩ false true =
      some (.index .i32 (out.map some)) := h
    rw [h']
    match out, hl with
    | [x], _ =>
      have hx := hs 0 x rfl
      simp only [IndexOf, Wanted, Bool.false_eq_true, if_false, BackwardAt] at hx
      have el0 : Eligible (validTime 5) (earlier 5) true (rowsOf (KeyArg.tuple [byteKeys [1]]).cols 1)
          (rowsOf (KeyArg.tuple [byteKeys [1, 1]]).cols 2) (timesOf ⟨5, 4, 1, 1, [3]⟩) (timesOf ⟨5, 4, 2, 1, [1, 9, 2, 9]⟩) 0 0 :=
        ⟨3, 1, by decide +kernel, by decide +kernel, by decide +kernel, by decide +kernel, by decide +kernel, by decide +kernel⟩
      rcases hx with ⟨_, hno⟩ | ⟨j, rfl, hj, hlast⟩
      · exact absurd el0 (hno 0)
      · have hj2 := eligible_lt hj
        simp [timesOf] at hj2
        have hj1 : j ≠ 1 := by
          rintro rfl
          obtain ⟨a, b, ha, hb, _, _, _, ht⟩ := hj
          have ha' : a = 3 := by simp [timesOf] at ha; exact ha.symm
          have hb' : b = 9 := by simp [timesOf] at hb; exact hb.symm
          subst ha' hb'
          revert ht
          decide +kernel
        have : j = 0 := by omega
        subst this
        rfl
  · simp only [Wanted, Bool.false_eq_true, if_false, BackwardAt]
    refine ⟨⟨3, 2, by decide +kernel, by decide +kernel, by decide +kernel, by decide +kernel, by decide +kernel, by decide +kernel⟩, ?_⟩
    intro l hl h
    have := eligible_lt h
    simp [timesOf] at this
    omega

/-! ### What is refused -/

/-- Keys with rows of different sizes, keys which do not fit together, and times of other lengths are refused. -/
theorem align_unfit (H : List UInt8 → Nat) (A B : KeyArg) (v1 v2 : Times) (fwd ex : Bool) (nA nB : Nat)
    (hA0 : A.cols ≠ []) (hB0 : B.cols ≠ []) (hA : ∀ c ∈ A.cols, IsArray nA c) (hB : ∀ c ∈ B.cols, IsArray nB c)
    (hfA : NoFilter A) (hfB : NoFilter B)
    (h : (A.cols.map (·.width)).sum ≠ (B.cols.map (·.width)).sum ∨ v1.len ≠ nA ∨ v2.len ≠ nB) :
    align H A B v1 v2 fwd ex = some (.error 0) := by
  obtain ⟨p, hp, hpr, hpw, hpk⟩ := prepared hA0 hA hfA
  obtain ⟨q, hq, hqr, hqw, hqk⟩ := prepared hB0 hB hfB
  rw [align, hp, hq]
  simp only [hpr, hqr, hpw, hqw]
  by_cases h1 : (A.cols.map (·.width)).sum ≠ (B.cols.map (·.width)).sum
  · rw [if_pos h1]
  · rw [if_neg h1]
    split; · rfl
    split; · rfl
    by_cases h2 : v1.len ≠ nA
    · rw [if_pos h2]
    · rw [if_neg h2, if_pos (by rcases h with h | h | h <;> first | exact absurd h h1 | exact absurd h h2 | exact h)]

example (H : List UInt8 → Nat) : align H (.tuple [byteKeys [1]]) (.tuple [byteKeys [1, 1]]) ⟨5, 4, 2, 1, [3, 4]⟩ ⟨5, 4, 2, 1, [3, 4]⟩ true true =
    some (.error 0) :=
  align_unfit H _ _ _ _ _ _ 1 2 (by simp [KeyArg.cols]) (by simp [KeyArg.cols])
    (by intro c hc; simp [KeyArg.cols] at hc; subst hc; exact byteKeys_array _)
    (by intro c hc; simp [KeyArg.cols] at hc; subst hc; exact byteKeys_array _)
    (by simp [NoFilter]) (by simp [NoFilter]) (by decide)

/-- The checks of the types of the times. -/
theorem types_of_pairs {v1 v2 : Times} (h1 : HasSize v1) (h2 : HasSize v2) :
    (¬ dtypeOf v1.ty < 0 ∧ sameTypes v1 v2 = true ∧ (timeTy (dtypeOf v1.ty)).isSome) ↔ (v1.ty, v2.ty) ∈ acceptedPairs := by
  obtain ⟨t1, n1, l1, s1, m1⟩ := v1
  obtain ⟨t2, n2, l2, s2, m2⟩ := v2
  simp only [HasSize] at h1 h2
  simp only [sameTypes]
  have big : ∀ t : Int, t = 18 ∨ t = 19 ∨ t = 20 → (timeTy (dtypeOf t)).isSome = false ∧ ¬ dtypeOf t ≤ 10 ∧ dtypeOf t = t := by
    rintro t (rfl | rfl | rfl) <;> decide
  have pairs : ∀ p ∈ acceptedPairs, p.1 ≤ 12 ∧ p.2 ≠ 18 ∧ p.2 ≠ 19 ∧ p.2 ≠ 20 := by decide
  rcases h1 with h1 | h1
  · rcases h2 with h2 | h2
    · have key : ∀ p ∈ sizedTypes, ∀ q ∈ sizedTypes,
          ((¬ dtypeOf p.1 < 0 ∧ (decide (dtypeOf p.1 = dtypeOf q.1) || (decide (dtypeOf p.1 ≤ 10) && decide (dtypeOf q.1 ≤ 10) &&
              decide (dtypeOf p.1 % 2 = dtypeOf q.1 % 2) && decide (p.2 = q.2))) = true ∧ (timeTy (dtypeOf p.1)).isSome) ↔
            (p.1, q.1) ∈ acceptedPairs) := by decide +kernel
      exact key (t1, n1) h1 (t2, n2) h2
    · obtain ⟨_, b2, b3⟩ := big t2 h2
      constructor
      · rintro ⟨_, hs, ht⟩
        simp [b2] at hs
        rw [hs, b3] at ht
        rw [← b3] at ht
        rw [(big t2 h2).1] at ht
        cases ht
      · intro h
        have := pairs _ h
        simp only at this
        omega
  · constructor
    · rintro ⟨_, _, ht⟩
      rw [(big t1 h1).1] at ht
      cases ht
    · intro h
      have := pairs _ h
      simp only at this
      omega

/-- Times of two types are refused unless the pair of their types is in the list. -/
theorem align_types (H : List UInt8 → Nat) (A B : KeyArg) (v1 v2 : Times) (fwd ex : Bool) (h1 : HasSize v1) (h2 : HasSize v2)
    (hp : ∃ p, prepare A = some (some p)) (hq : ∃ q, prepare B = some (some q)) (h : (v1.ty, v2.ty) ∉ acceptedPairs) :
    align H A B v1 v2 fwd ex = some (.error 0) ∨ align H A B v1 v2 fwd ex = some (.error 1) := by
  obtain ⟨p, hp⟩ := hp
  obtain ⟨q, hq⟩ := hq
  rw [align, hp, hq]
  simp only
  by_cases a : p.width ≠ q.width; · rw [if_pos a]; exact Or.inl rfl
  rw [if_neg a]
  by_cases b : dtypeOf v1.ty < 0; · rw [if_pos b]; exact Or.inl rfl
  rw [if_neg b]
  by_cases c : sameTypes v1 v2 = true
  · rw [if_neg (by simp [c])]
    by_cases d : v1.len ≠ p.rows; · rw [if_pos d]; exact Or.inl rfl
    rw [if_neg d]
    by_cases e : v2.len ≠ q.rows; · rw [if_pos e]; exact Or.inl rfl
    rw [if_neg e]
    cases f : timeTy (dtypeOf v1.ty) with
    | none => exact Or.inr rfl
    | some tt => exact absurd ((types_of_pairs h1 h2).mp ⟨b, c, by rw [f]; rfl⟩) h
  · rw [if_pos (by simpa using c)]; exact Or.inl rfl

/-- Dates on the left are refused, also if the right times are dates too. -/
theorem left_dates_are_refused (H : List UInt8 → Nat) (A B : KeyArg) (v1 v2 : Times) (fwd ex : Bool)
    (hp : ∃ p, prepare A = some (some p)) (hq : ∃ q, prepare B = some (some q)) (hd : v1.ty = 21 ∨ v1.ty = 22) :
    align H A B v1 v2 fwd ex = some (.error 0) := by
  obtain ⟨p, hp⟩ := hp
  obtain ⟨q, hq⟩ := hq
  have : dtypeOf v1.ty < 0 := by rcases hd with h | h <;> rw [h] <;> decide
  rw [align, hp, hq]
  simp only
  split
  · rfl
  · rfl

/-- Dates on the right of 64-bit integers are merged as if they were integers. -/
example (H : List UInt8 → Nat) : ∃ out : List Int,
    align H (.tuple [byteKeys [1]]) (.tuple [byteKeys [1, 1]]) ⟨7, 8, 1, 1, [5]⟩ ⟨21, 8, 2, 1, [4, 9]⟩ false true =
      some (.index .i32 (out.map some)) ∧ out.length = 1 := by
  obtain ⟨out, h, hl, _⟩ := align_matches_partial H (.tuple [byteKeys [1]]) (.tuple [byteKeys [1, 1]]) ⟨7, 8, 1, 1, [5]⟩
    ⟨21, 8, 2, 1, [4, 9]⟩ false true 8 (by decide) (by decide) (by decide) (by simp [KeyArg.cols])
    (by intro c hc; simp [KeyArg.cols] at hc; subst hc; exact byteKeys_array _)
    (by intro c hc; simp [KeyArg.cols] at hc; subst hc; exact byteKeys_array _)
    (by simp [NoFilter]) (by simp [NoFilter]) (by simp [KeyArg.cols, byteKeys]) (by decide) ⟨by decide, by decide⟩ ⟨by decide, by decide⟩
    (by simp only [Sorted]; decide +kernel) (by simp only [Sorted]; decide +kernel)
  exact ⟨out, h, hl⟩

/-- Times of 16 bits are refused only after the index was allocated: it is lost. -/
theorem refused_times_lose_memory (H : List UInt8 → Nat) (A B : KeyArg) (v1 v2 : Times) (fwd ex : Bool) (nA nB : Nat)
    (hA0 : A.cols ≠ []) (hB0 : B.cols ≠ []) (hA : ∀ c ∈ A.cols, IsArray nA c) (hB : ∀ c ∈ B.cols, IsArray nB c)
    (hfA : NoFilter A) (hfB : NoFilter B) (hw : (A.cols.map (·.width)).sum = (B.cols.map (·.width)).sum)
    (h1 : v1.len = nA) (h2 : v2.len = nB) (ht : v1.ty = v2.ty) (h5 : 0 ≤ v1.ty ∧ v1.ty < 5 ∨ 12 < v1.ty ∧ v1.ty ≤ 20) :
    align H A B v1 v2 fwd ex = some (.error 1) := by
  obtain ⟨p, hp, hpr, hpw, hpk⟩ := prepared hA0 hA hfA
  obtain ⟨q, hq, hqr, hqw, hqk⟩ := prepared hB0 hB hfB
  have hd : dtypeOf v1.ty = v1.ty := by rw [dtypeOf, if_neg (by omega)]
  have htt : timeTy v1.ty = none := by
    rw [timeTy, if_neg (by omega), if_neg (by omega), if_neg (by omega), if_neg (by omega), if_neg (by omega), if_neg (by omega)]
  rw [align, hp, hq]
  simp only [hpr, hqr, hpw, hqw]
  rw [if_neg (by simp [hw]), hd, if_neg (by omega), if_neg (by simp [sameTypes, ht]), if_neg (by simp [h1]), if_neg (by simp [h2]), htt]

example (H : List UInt8 → Nat) : align H (.tuple [byteKeys [1]]) (.tuple [byteKeys [1, 1]]) ⟨3, 2, 1, 1, [3]⟩ ⟨3, 2, 2, 1, [3, 4]⟩ true true =
    some (.error 1) :=
  refused_times_lose_memory H _ _ _ _ _ _ 1 2 (by simp [KeyArg.cols]) (by simp [KeyArg.cols])
    (by intro c hc; simp [KeyArg.cols] at hc; subst hc; exact byteKeys_array _)
    (by intro c hc; simp [KeyArg.cols] at hc; subst hc; exact byteKeys_array _)
    (by simp [NoFilter]) (by simp [NoFilter]) (by simp [KeyArg.cols, byteKeys]) rfl rfl rfl (by decide)

/-! ### `MergeBinnedAndSorted` -/

/-- Only times of the types int32 and int64 are merged. -/
theorem binned_types (k1 k2 : KeyCol) (v1 v2 : Times) (uniq : Int) (h : v1.ty ≠ 5 ∧ v1.ty ≠ 7 ∧ v1.ty ≠ 9) :
    mergeBinned k1 k2 v1 v2 uniq = some (.error 0) ∨ mergeBinned k1 k2 v1 v2 uniq = some (.error 1) := by
  have hb : binTy (dtypeOf v1.ty) = none := by
    rw [binTy, dtypeOf]
    split
    · rfl
    · rw [if_neg (by omega), if_neg (by omega)]
  rw [mergeBinned]
  split; · exact Or.inl rfl
  split; · exact Or.inl rfl
  rw [hb]; exact Or.inr rfl

/-- Floats are among the types which the message of the exception says are accepted; they are refused, and the index is lost. -/
theorem binned_floats_are_refused (k1 k2 : KeyCol) (v1 v2 : Times) (uniq : Int) (h : v1.ty = 11 ∨ v1.ty = 12) (hs : v2.ty = v1.ty) :
    mergeBinned k1 k2 v1 v2 uniq = some (.error 1) := by
  rw [mergeBinned, sameTypes, hs]
  rcases h with h | h <;> rw [h] <;> rfl

example : mergeBinned (byteKeys [0]) (byteKeys [0]) ⟨12, 8, 1, 1, [0]⟩ ⟨12, 8, 1, 1, [0]⟩ 1 = some (.error 1) :=
  binned_floats_are_refused _ _ _ _ _ (Or.inr rfl) rfl

theorem binKey_spec {ty : Int} {t : IT} {n : Nat} {k : KeyCol} (hb : binTy ty = some t) (hk : IsArray n k) (hw : k.width = t.bits / 8)
    {size : Nat} {i : Nat} (hi : i < n) (h0 : 0 ≤ numberOf ty (leWord (item k i))) :
    binKey t size k.data i = (numberOf ty (leWord (item k i))).toNat := by
  have e : t.wrap (leWord (item k i)) = numberOf ty (leWord (item k i)) := by
    rw [binTy] at hb
    split at hb
    · next h => cases hb; rw [wrap_i64, numberOf, if_neg (by omega), if_pos h]
    · split at hb
      · next h => cases hb; rw [wrap_i32, numberOf, if_pos h]
      · cases hb
  rw [binKey, ← hw, cellAt_item hk hi]
  simp only [e]
  rw [if_pos h0]

theorem ordered_all_int (t : IT) : Ordered (fun _ => true) (TimeTy.int t).lt (TimeTy.int t).same := by
  refine ⟨?_, ?_, ?_, ?_⟩
  · intro x _; simp [TimeTy.lt]
  · intro x y z _ _ _ h1 h2; simp [TimeTy.lt] at *; omega
  · intro x y _ _; simp [TimeTy.lt, TimeTy.same]; omega
  · intro x y z _ _ _ h1 h2; simp [TimeTy.same] at *; omega

theorem eligible_toNat (lt : Nat → Nat → Bool) {K1 K2 : List Int} {val1 val2 : List Nat} (h1 : ∀ x ∈ K1, 0 ≤ x) (h2 : ∀ x ∈ K2, 0 ≤ x)
    (i j : Nat) : Eligible (fun _ => true) lt true (K1.map Int.toNat) (K2.map Int.toNat) val1 val2 i j ↔
      Eligible (fun _ => true) lt true K1 K2 val1 val2 i j := by
  have key : (K1.map Int.toNat)[i]? = (K2.map Int.toNat)[j]? ↔ K1[i]? = K2[j]? := by
    rw [List.getElem?_map, List.getElem?_map]
    cases a : K1[i]? with
    | none => cases b : K2[j]? <;> simp
    | some x =>
      cases b : K2[j]? with
      | none => simp
      | some y =>
        have := h1 x (List.mem_of_getElem? a)
        have := h2 y (List.mem_of_getElem? b)
        simp only [Option.map_some, Option.some.injEq]
        omega
  simp only [Eligible, key]

/-- **C129** for binned keys, as far as it holds: keys of the type of the times, as many times as keys, all right keys the same, and no
more left rows than right rows (`hsame`). Invalid times are merged as the least numbers. -/
theorem merge_binned_partial (k1 k2 : KeyCol) (v1 v2 : Times) (uniq : Int) (hty : v1.ty = 5 ∨ v1.ty = 7 ∨ v1.ty = 9)
    (hsz : v1.item = (if v1.ty = 5 then 4 else 8) ∧ v2.item = v1.item) (hs : (v1.ty, v2.ty) ∈ acceptedPairs)
    (hk1 : IsArray v1.len k1) (hk2 : IsArray v2.len k2) (hw : k1.width = v1.item ∧ k2.width = v1.item)
    (p1 : Times.Packed v1) (p2 : Times.Packed v2) (hu : uniq < 2 ^ 31 ∧ v1.len < 2 ^ 31 ∧ v2.len < 2 ^ 31)
    (hr : ∀ x ∈ keysOf v1.ty k1 ++ keysOf v1.ty k2, 0 ≤ x ∧ x < uniq)
    (s1 : Sorted (fun _ => true) (earlier v1.ty) (timesOf v1)) (s2 : Sorted (fun _ => true) (earlier v1.ty) (timesOf v2))
    (hsame : ∀ i j, i < v1.len → j < v2.len → (keysOf v1.ty k2)[i]? = (keysOf v1.ty k2)[j]?) :
    ∃ out : List Int, mergeBinned k1 k2 v1 v2 uniq = some (.index (if v1.ty = 5 then .i32 else .i64) (out.map some)) ∧
      out.length = v1.len ∧ ∀ (i : Nat) x, out[i]? = some x →
        IndexOf (if v1.ty = 5 then -2 ^ 31 else -2 ^ 63) (BackwardAt (Eligible (fun _ => true) (earlier v1.ty) true (keysOf v1.ty k1)
          (keysOf v1.ty k2) (timesOf v1) (timesOf v2) i)) x := by
  obtain ⟨t, hbt, hbits, hlt, hhi, hinv, hit⟩ : ∃ t, binTy v1.ty = some t ∧ v1.item = t.bits / 8 ∧ (TimeTy.int t).lt = earlier v1.ty ∧
      2 ^ 31 - 1 ≤ t.hi ∧ t.inv = (if v1.ty = 5 then -2 ^ 31 else -2 ^ 63) ∧ t = (if v1.ty = 5 then .i32 else .i64) := by
    rcases hty with h | h | h
    · exact ⟨.i32, by rw [h]; rfl, by rw [hsz.1, h]; rfl, by rw [h]; funext x y; simp [TimeTy.lt, earlier, numberOf, wrap_i32], by decide,
        by rw [h]; rfl, by rw [h]; rfl⟩
    · exact ⟨.i64, by rw [h]; rfl, by rw [hsz.1, h]; rfl, by rw [h]; funext x y; simp [TimeTy.lt, earlier, numberOf, wrap_i64], by decide,
        by rw [h]; rfl, by rw [h]; rfl⟩
    · exact ⟨.i64, by rw [h]; rfl, by rw [hsz.1, h]; rfl, by rw [h]; funext x y; simp [TimeTy.lt, earlier, numberOf, wrap_i64], by decide,
        by rw [h]; rfl, by rw [h]; rfl⟩
  have hd : dtypeOf v1.ty = v1.ty := by rw [dtypeOf, if_neg (by omega)]
  have hsame' := sameTypes_of_pair hsz.2.symm hs
  have hkeys : ∀ (k : KeyCol) (n : Nat), IsArray n k → k.width = t.bits / 8 → (∀ x ∈ keysOf v1.ty k, 0 ≤ x ∧ x < uniq) →
      (List.range k.rows).map (binKey t uniq.toNat k.data) = (keysOf v1.ty k).map Int.toNat := by
    intro k n hk hwk hx
    rw [keysOf, List.map_map]
    apply List.map_congr_left
    intro i hi
    have hin : i < n := by rw [← hk.1]; exact List.mem_range.mp hi
    exact binKey_spec hbt hk hwk hin (hx _ (List.mem_map.mpr ⟨i, hi, rfl⟩)).1
  have r1 : ∀ x ∈ keysOf v1.ty k1, 0 ≤ x ∧ x < uniq := fun x hx => hr x (List.mem_append.mpr (Or.inl hx))
  have r2 : ∀ x ∈ keysOf v1.ty k2, 0 ≤ x ∧ x < uniq := fun x hx => hr x (List.mem_append.mpr (Or.inr hx))
  have e1 := hkeys k1 _ hk1 (hw.1.trans hbits) r1
  have e2 := hkeys k2 _ hk2 (hw.2.trans hbits) r2
  have lk1 : (keysOf v1.ty k1).length = v1.len := by simp [keysOf, hk1.1]
  have lk2 : (keysOf v1.ty k2).length = v2.len := by simp [keysOf, hk2.1]
  have lt1 : (timesOf v1).length = v1.len := by simp [timesOf]
  have lt2 : (timesOf v2).length = v2.len := by simp [timesOf]
  have small : ∀ (K : List Int), (∀ x ∈ K, 0 ≤ x ∧ x < uniq) → ∀ k ∈ K.map Int.toNat, k < uniq.toNat := by
    intro K hK k hk
    obtain ⟨x, hx, rfl⟩ := List.mem_map.mp hk
    have := hK x hx
    omega
  obtain ⟨outs, ho, hl, hspec⟩ := categorical_partial uniq.toNat (ordered_all_int t) (key1 := (keysOf v1.ty k1).map Int.toNat)
    (key2 := (keysOf v1.ty k2).map Int.toNat) (val1 := timesOf v1) (val2 := timesOf v2) (by simp [lk1, lt1]) (by simp [lk2, lt2])
    (small _ r1) (small _ r2) (by rw [hlt]; exact s1) (by rw [hlt]; exact s2)
    (by
      intro i j hi hj
      simp only [List.length_map, lk1, lk2] at hi hj
      rw [List.getElem?_map, List.getElem?_map, hsame i j hi hj])
  have q1 := p1.1
  have q2 := p2.1
  refine ⟨outs.map (locOut t), ?_, by simp [hl, lt1], ?_⟩
  · rw [mergeBinned, hd, if_neg (by omega), if_neg (by simp [hsame']), hbt]
    simp only
    rw [if_neg (by rw [hk1.1, hk2.1]; omega), e1, e2, hk1.1, hk2.1, ← timesOf_packed p1, ← timesOf_packed p2, ho, ← hit]
    simp [Function.comp_def]
  · intro i x hx
    rw [List.getElem?_map] at hx
    cases hoi : outs[i]? with
    | none => rw [hoi] at hx; cases hx
    | some o =>
      rw [hoi] at hx
      simp only [Option.map_some, Option.some.injEq] at hx
      subst hx
      have hB := hspec i o hoi
      rw [hlt] at hB
      have hB := (backwardAt_congr (eligible_toNat (earlier v1.ty) (fun x hx => (r1 x hx).1) (fun x hx => (r2 x hx).1) i) o).mp hB
      cases o with
      | none => exact Or.inl ⟨by rw [← hinv]; rfl, hB⟩
      | some j =>
        refine Or.inr ⟨j, ?_, hB⟩
        have hj := eligible_lt hB.1
        rw [lt2] at hj
        rw [locOut]
        have hb : 0 < t.bits := by rw [hit]; split <;> decide
        apply IT.wrap_of_inRange _ hb
        have hlo : t.lo ≤ 0 := by rw [hit]; split <;> decide
        rw [IT.InRange]
        omega

/-- int32 keys. -/
def intKeys (l : List UInt8) : KeyCol := ⟨l.length, 4, false, l.flatMap fun b => [b, 0, 0, 0]⟩

example : ∃ out : List Int, mergeBinned (intKeys [0, 1]) (intKeys [1, 1]) ⟨5, 4, 2, 1, [4, 9]⟩ ⟨5, 4, 2, 1, [5, 6]⟩ 2 =
    some (.index .i32 (out.map some)) ∧ out.length = 2 := by
  obtain ⟨out, h, hl, _⟩ := merge_binned_partial (intKeys [0, 1]) (intKeys [1, 1]) ⟨5, 4, 2, 1, [4, 9]⟩ ⟨5, 4, 2, 1, [5, 6]⟩ 2
    (by decide) (by decide) (by decide) (by simp only [IsArray]; decide) (by simp only [IsArray]; decide) (by decide)
    ⟨by decide, by decide⟩ ⟨by decide, by decide⟩ (by decide) (by decide +kernel)
    (by simp only [Sorted]; decide +kernel) (by simp only [Sorted]; decide +kernel)
    (by
      have : keysOf 5 (intKeys [1, 1]) = [1, 1] := by decide +kernel
      rw [this]
      intro i j hi hj
      simp only at hi hj
      match i, j, hi, hj with
      | 0, 0, _, _ => rfl
      | 0, 1, _, _ => rfl
      | 1, 0, _, _ => rfl
      | 1, 1, _, _ => rfl)
  exact ⟨out, h, hl⟩

/-- Left rows of category 0 are matched with right row 1, of category 1. -/
theorem binned_wrong_category :
    mergeBinned (intKeys [0, 0]) (intKeys [0, 1]) ⟨5, 4, 2, 1, [9, 9]⟩ ⟨5, 4, 2, 1, [1, 2]⟩ 2 = some (.index .i32 [some 1, some 1]) ∧
    keysOf 5 (intKeys [0, 0]) = [0, 0] ∧ keysOf 5 (intKeys [0, 1]) = [0, 1] := by decide +kernel

/-- The type of the keys is not looked at: keys of one byte (the usual case for few categories) are read as int32. The four keys 0, 1, 0,
1 are taken for one key which is outside of the table. -/
theorem narrow_keys_are_read_as_wide :
    mergeBinned (byteKeys [0, 1, 0, 1]) (byteKeys [0, 1, 0, 1]) ⟨5, 4, 4, 1, [1, 2, 3, 4]⟩ ⟨5, 4, 4, 1, [1, 2, 3, 4]⟩ 2 = none := by decide +kernel

/-- Keys of 32 bits are read past their end for times of 64 bits. -/
theorem keys_read_outside :
    mergeBinned (intKeys [0]) (intKeys [0]) ⟨7, 8, 1, 1, [1]⟩ ⟨7, 8, 1, 1, [1]⟩ 1 = none := by decide +kernel

/-- The lengths of the times are not looked at: fewer times than keys are read past their end. -/
theorem short_times_read_outside (k1 k2 : KeyCol) (v1 v2 : Times) (uniq : Int) (hty : v1.ty = 5 ∨ v1.ty = 7 ∨ v1.ty = 9)
    (hs : v2.ty = v1.ty) (h : v1.mem.length < k1.rows ∨ v2.mem.length < k2.rows) : mergeBinned k1 k2 v1 v2 uniq = none := by
  have hd : dtypeOf v1.ty = v1.ty := by rw [dtypeOf, if_neg (by omega)]
  obtain ⟨t, hb⟩ : ∃ t, binTy v1.ty = some t := by
    rcases hty with h | h | h <;> rw [h] <;> exact ⟨_, rfl⟩
  rw [mergeBinned, hd, if_neg (by omega), if_neg (by simp [sameTypes, hs]), hb]
  simp only
  rw [if_pos (by rcases h with h | h <;> simp [h])]

example : mergeBinned (intKeys [0, 0]) (intKeys [0]) ⟨5, 4, 1, 1, [1]⟩ ⟨5, 4, 1, 1, [1]⟩ 1 = none :=
  short_times_read_outside _ _ _ _ _ (by decide) rfl (by decide)

/-- An invalid key (the least integer) is outside of the table. -/
theorem invalid_keys_outside :
    mergeBinned ⟨1, 4, false, [0, 0, 0, 128]⟩ (intKeys [0]) ⟨5, 4, 1, 1, [1]⟩ ⟨5, 4, 1, 1, [1]⟩ 1 = none := by decide +kernel

/-- An invalid time of the left is matched as the least number: with an invalid time of the right. -/
theorem invalid_times_match :
    mergeBinned (intKeys [0]) (intKeys [0]) ⟨5, 4, 1, 1, [2147483648]⟩ ⟨5, 4, 1, 1, [2147483648]⟩ 1 = some (.index .i32 [some 0]) ∧
    validTime 5 2147483648 = false := by decide +kernel

end Riptide.Asof
