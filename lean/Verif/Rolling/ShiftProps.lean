import Verif.Rolling.Props
/-! Shift, difference and cumulative count within groups (C29). -/
namespace Riptide.Rolling
open Spec Pack.Spec

variable {T U S : Type}

/-! ## Count -/

theorem countBin_run {P : Packed} {i : Int} {rows : List Nat} {f : Int} (hB : BinAt P i rows f) (w : Int) :
    ∃ l, countBin P w i = some l ∧
      BinWrites rows (fun k => if 0 ≤ w then (k : Int) else (rows.length : Int) - 1 - k) l := by
  unfold countBin
  rw [hB.first, hB.count]
  simp only [Option.bind_some]
  by_cases hw : w < 0
  · rw [if_pos hw]
    obtain ⟨s1, l1, e1, _, m1⟩ := emitLoop_down (g := countStep) hB
      (fun k s => s = (rows.length : Int) - k)
      (fun k => if 0 ≤ w then (k : Int) else (rows.length : Int) - 1 - k) 0 rows.length (by omega) (by omega)
      (fun k _ _ s r _ hs => ⟨s + 1, by
        unfold countStep
        rw [if_neg (by omega)]
        congr 2
        omega, by omega⟩) 0 [] (by omega)
    have e0 : f - 1 = f + ((0 : Nat) : Int) - 1 := by omega
    rw [e0, e1]
    refine ⟨[] ++ l1, rfl, fun x => ?_⟩
    rw [List.nil_append, m1]
    constructor
    · rintro ⟨k, r, _, _, hr, e⟩; exact ⟨k, r, hr, e⟩
    · rintro ⟨k, r, hr, e⟩
      exact ⟨k, r, by omega, (List.getElem?_eq_some_iff.1 hr).1, hr, e⟩
  · rw [if_neg hw]
    obtain ⟨s1, l1, e1, _, m1⟩ := emitLoop_up (g := countStep) hB (fun k s => s = (k : Int))
      (fun k => if 0 ≤ w then (k : Int) else (rows.length : Int) - 1 - k) 0 rows.length (by omega) (by omega)
      (fun k _ _ s r _ hs => ⟨s + 1, by
        unfold countStep
        rw [if_pos (by omega), hs], by omega⟩) 0 [] (by omega)
    have e0 : f + ((0 : Nat) : Int) = f := by omega
    rw [e0] at e1
    rw [e1]
    refine ⟨[] ++ l1, rfl, fun x => ?_⟩
    rw [List.nil_append, m1]
    constructor
    · rintro ⟨k, r, _, _, hr, e⟩; exact ⟨k, r, hr, e⟩
    · rintro ⟨k, r, hr, e⟩
      exact ⟨k, r, by omega, (List.getElem?_eq_some_iff.1 hr).1, hr, e⟩

/-- **C29**, count: the row at position `k` of its group gets `k`, or the number of rows after it when
the window is negative; rows of bin 0 get the invalid value; every row is written.  For all windows. -/
theorem accumCount_value {keys : List Int} {bins : Nat} {P : Packed} (hb : 0 < bins)
    (hS : Slices keys bins P.group P.first P.count)
    (hk : ∀ (i : Nat) (k : Int), keys[i]? = some k → 0 ≤ k ∧ k < (bins : Int)) (w : Int) :
    ∃ out, accumCount keys.length P w 0 bins = some out ∧ out.length = keys.length ∧
      (∀ (b k r : Nat), b < bins → (rowsOf keys b)[k]? = some r → out[r]? = some (some (if b = 0 then IT.i32.inv
        else if 0 ≤ w then (k : Int) else ((rowsOf keys b).length : Int) - 1 - k))) ∧
      ∀ r, r < keys.length → ∃ v, out[r]? = some (some v) := by
  obtain ⟨ws, e, out, ho, h1, h2, h3⟩ := rolling_run hb hS hk IT.i32.inv (countBin P w)
    (fun b k => if 0 ≤ w then (k : Int) else ((rowsOf keys b).length : Int) - 1 - k)
    fun b _ hb2 => by
      obtain ⟨f, hB⟩ := binAt_of_slices hS hb2
      exact countBin_run hB w
  refine ⟨out, ?_, h1, h2, h3⟩
  unfold accumCount
  rw [e]
  exact ho

example : accumCount 4 exPacked 1 0 3 = some [some 0, some 0, some 1, some 2] := by decide
example : accumCount 4 exPacked (-1) 0 3 = some [some 2, some 0, some 1, some 0] := by decide

/-! ## Shift -/

/-- What a shift by `w` should give at position `k` of a group. -/
theorem shifted_pos {k w n : Nat} (hk : k < n) :
    shifted k (w : Int) n = if w ≤ k then some (k - w) else none := by
  unfold shifted
  by_cases h : w ≤ k
  · rw [if_pos h, if_pos (by omega)]
    congr 1
    omega
  · rw [if_neg h, if_neg (by omega)]

theorem shifted_neg {k w n : Nat} :
    shifted k (-(w : Int)) n = if k + w < n then some (k + w) else none := by
  unfold shifted
  by_cases h : k + w < n
  · rw [if_pos h, if_pos (by omega)]
    congr 1
    omega
  · rw [if_neg h, if_neg (by omega)]

theorem shiftBin_run {keys : List Int} {src : List T} {bins : Nat} {P : Packed} {w : Int}
    (hG : Grouped keys bins P w.natAbs) (hl : src.length = keys.length) (inv : T) {b : Nat}
    (hb : b < bins) :
    ∃ l, shiftBin inv src P w (b : Int) = some l ∧ BinWrites (rowsOf keys b) (fun k =>
      ((shifted k w (rowsOf keys b).length).bind fun p => (groupVals keys src b)[p]?).getD inv) l := by
  obtain ⟨f, hB, h64, hV, h64', hV'⟩ := grouped_fits hG hb
  unfold shiftBin
  by_cases hw : 0 ≤ w
  · rw [if_pos hw]
    obtain ⟨m, rfl⟩ : ∃ m : Nat, w = (m : Int) := ⟨w.toNat, by omega⟩
    rw [Int.natAbs_natCast] at h64 hV
    refine forward_run hB m h64 hV (fun _ _ => True) _ () trivial ?_ ?_
    · intro k hk s r hr _
      refine ⟨s, ?_, trivial⟩
      show some (s, inv) = _
      rw [shifted_pos (List.getElem?_eq_some_iff.1 hr).1, if_neg (by omega)]
      rfl
    · intro k hk s r hr _
      have hlt := (List.getElem?_eq_some_iff.1 hr).1
      refine ⟨s, ?_, trivial⟩
      rw [shifted_pos hlt, if_pos hk]
      obtain ⟨v, hv1, hv2⟩ := srcAt_group (src := src) hl hB (k := k - m) (by omega)
      unfold shiftStep
      rw [show f + (k : Int) - (m : Int) = f + ((k - m : Nat) : Int) by omega, hv1]
      simp only [Option.bind_some]
      rw [hv2]
      rfl
  · rw [if_neg hw]
    obtain ⟨m, rfl⟩ : ∃ m : Nat, w = -(m : Int) := ⟨(-w).toNat, by omega⟩
    rw [Int.natAbs_neg, Int.natAbs_natCast] at h64' hV'
    rw [Int.neg_neg]
    refine backward_run hB m h64' hV' _ ?_ ?_
    · intro k hk r hr
      show some ((), inv) = _
      rw [shifted_neg, if_neg (by omega)]
      rfl
    · intro k hk r hr
      rw [shifted_neg, if_pos hk]
      obtain ⟨v, hv1, hv2⟩ := srcAt_group (src := src) hl hB (k := k + m) hk
      unfold shiftStep
      rw [show f + (k : Int) - -(m : Int) = f + ((k + m : Nat) : Int) by omega, hv1]
      simp only [Option.bind_some]
      rw [hv2]
      rfl

/-- **C29**, shift: the row at position `k` of its group gets the value `w` rows earlier in the group
(later when `w` is negative), or the invalid value if there is no such row; rows of bin 0 get the
invalid value; every row is written.  Missing from the full statement: the guard on the window in
`Grouped` (`accumShift_huge`). -/
theorem accumShift_value_partial {keys : List Int} {src : List T} {bins : Nat} {P : Packed} {w : Int}
    (hG : Grouped keys bins P w.natAbs) (hl : src.length = keys.length) (inv : T) :
    ∃ out, accumShift inv src P w 0 bins = some out ∧ out.length = keys.length ∧
      (∀ (b k r : Nat), b < bins → (rowsOf keys b)[k]? = some r → out[r]? = some (some (if b = 0 then inv else
        ((shifted k w (rowsOf keys b).length).bind fun p => (groupVals keys src b)[p]?).getD inv))) ∧
      ∀ r, r < keys.length → ∃ v, out[r]? = some (some v) := by
  obtain ⟨ws, e, out, ho, h1, h2, h3⟩ := rolling_run hG.pos hG.slices hG.keysIn inv
    (shiftBin inv src P w) (fun b k =>
      ((shifted k w (rowsOf keys b).length).bind fun p => (groupVals keys src b)[p]?).getD inv)
    fun b _ hb2 => shiftBin_run hG hl inv hb2
  refine ⟨out, ?_, h1, h2, h3⟩
  unfold accumShift
  rw [e]
  simp only [Option.bind_some]
  rw [hl]
  exact ho

example : accumShift 0 [10, 20, 30, 40] exPacked 1 0 3 = some [some 0, some 0, some 10, some 30] := by
  decide
example : accumShift 0 [10, 20, 30, 40] exPacked (-2) 0 3 = some [some 40, some 0, some 0, some 0] := by
  decide
/-- The guard can be met with a negative window. -/
example : Grouped [1, 2, 1, 1] 3 exPacked (-2 : Int).natAbs := { exPacked_grouped with small := by decide }

/-- A window of 2^32 with int32 index arrays reads out of bounds. -/
theorem accumShift_huge : accumShift 0 [10, 20, 30, 40] exPacked (2 ^ 32) 0 3 = none := by decide

/-! ## Difference -/

/-- The difference of the value at `k` and the one at the shifted position. -/
def diffVal (sub : T → T → U) (inv : U) (vals : List T) (w : Int) (k : Nat) : U :=
  (((shifted k w vals.length).bind fun p => vals[p]?).bind fun y => vals[k]?.map fun x => sub x y).getD inv

theorem rd_group {keys : List Int} {src : List T} (hl : src.length = keys.length) {b k r : Nat}
    (hr : (rowsOf keys b)[k]? = some r) :
    ∃ x, rdS src (r : Int) = some x ∧ (groupVals keys src b)[k]? = some x := by
  have hlt : r < src.length := by have := rowsOf_lt hr; omega
  refine ⟨src[r], ?_, ?_⟩
  · rw [rdS_nat, List.getElem?_eq_getElem hlt]
  · rw [(groupVals_eq hl b).2 k r hr, List.getElem?_eq_getElem hlt]

theorem diffOneBin_run {keys : List Int} {src : List T} {P : Packed} {b : Nat} {f : Int}
    (hB : BinAt P (b : Int) (rowsOf keys b) f) (hl : src.length = keys.length) (sub : T → T → U) (inv : U) :
    ∃ l, diffOneBin sub inv src P (b : Int) = some l ∧
      BinWrites (rowsOf keys b) (diffVal sub inv (groupVals keys src b) 1) l := by
  have hlen := (groupVals_eq (src := src) hl b).1
  unfold diffOneBin
  rw [hB.first, hB.count]
  simp only [Option.bind_some]
  by_cases h0 : (rowsOf keys b).length = 0
  · rw [if_neg (by omega)]
    refine ⟨[], rfl, fun x => ?_⟩
    have : rowsOf keys b = [] := List.eq_nil_of_length_eq_zero h0
    rw [this]
    simp
  · rw [if_pos (by omega)]
    have h0' : 0 < (rowsOf keys b).length := by omega
    have hr0 : (rowsOf keys b)[0]? = some (rowsOf keys b)[0] := List.getElem?_eq_getElem h0'
    have hg0 := hB.group 0 _ hr0
    obtain ⟨x0, hx0, hv0⟩ := rd_group hl hr0
    rw [show f + ((0 : Nat) : Int) = f by omega] at hg0
    rw [hg0]
    simp only [Option.bind_some]
    rw [hx0]
    simp only [Option.bind_some]
    obtain ⟨s1, l1, e1, _, m1⟩ := emitLoop_up (g := diffOneStep sub src) hB
      (fun k s => (groupVals keys src b)[k - 1]? = some s)
      (diffVal sub inv (groupVals keys src b) 1) 1 (rowsOf keys b).length (by omega) (by omega)
      (fun k hk1 hk2 s r hr hs => by
        obtain ⟨x, hx, hv⟩ := rd_group hl hr
        refine ⟨x, ?_, hv⟩
        unfold diffOneStep
        rw [hx]
        show some (x, sub x s) = _
        unfold diffVal
        have := shifted_pos (w := 1) (n := (groupVals keys src b).length) (k := k) (by omega)
        rw [show ((1 : Nat) : Int) = 1 from rfl] at this
        rw [this, if_pos hk1]
        simp only [Option.bind_some]
        rw [hs]
        simp only [Option.bind_some]
        rw [hv]
        rfl) x0 [(((rowsOf keys b)[0] : Int), inv)] hv0
    rw [show f + ((1 : Nat) : Int) = f + 1 from rfl] at e1
    rw [e1]
    refine ⟨[(((rowsOf keys b)[0] : Int), inv)] ++ l1, rfl, fun x => ?_⟩
    have hd0 : diffVal sub inv (groupVals keys src b) 1 0 = inv := by
      unfold diffVal
      have := shifted_pos (w := 1) (n := (groupVals keys src b).length) (k := 0) (by omega)
      rw [show ((1 : Nat) : Int) = 1 from rfl] at this
      rw [this, if_neg (by omega)]
      rfl
    rw [List.mem_append, m1]
    constructor
    · rintro (h | ⟨k, r, _, _, hr, e⟩)
      · exact ⟨0, _, hr0, by rw [hd0]; simpa using h⟩
      · exact ⟨k, r, hr, e⟩
    · rintro ⟨k, r, hr, e⟩
      by_cases hk : k = 0
      · subst hk
        rw [hr0] at hr
        cases hr
        rw [hd0] at e
        exact .inl (by simpa using e)
      · exact .inr ⟨k, r, by omega, (List.getElem?_eq_some_iff.1 hr).1, hr, e⟩

theorem diffBin_run {keys : List Int} {src : List T} {bins : Nat} {P : Packed} {w : Int}
    (hG : Grouped keys bins P w.natAbs) (hl : src.length = keys.length) (sub : T → T → U) (inv : U)
    {b : Nat} (hb : b < bins) :
    ∃ l, diffBin sub inv src P w (b : Int) = some l ∧
      BinWrites (rowsOf keys b) (diffVal sub inv (groupVals keys src b) w) l := by
  obtain ⟨f, hB, h64, hV, h64', hV'⟩ := grouped_fits hG hb
  have hlen := (groupVals_eq (src := src) hl b).1
  unfold diffBin
  by_cases h1 : w = 1
  · subst h1
    rw [if_pos rfl]
    exact diffOneBin_run hB hl sub inv
  rw [if_neg h1]
  by_cases hw : 0 ≤ w
  · rw [if_pos hw]
    obtain ⟨m, rfl⟩ : ∃ m : Nat, w = (m : Int) := ⟨w.toNat, by omega⟩
    rw [Int.natAbs_natCast] at h64 hV
    refine forward_run hB m h64 hV (fun _ _ => True) _ () trivial ?_ ?_
    · intro k hk s r hr _
      refine ⟨s, ?_, trivial⟩
      show some (s, inv) = _
      unfold diffVal
      rw [hlen, shifted_pos (List.getElem?_eq_some_iff.1 hr).1, if_neg (by omega)]
      rfl
    · intro k hk s r hr _
      have hlt := (List.getElem?_eq_some_iff.1 hr).1
      refine ⟨s, ?_, trivial⟩
      unfold diffVal
      rw [hlen, shifted_pos hlt, if_pos hk]
      obtain ⟨v, hv1, hv2⟩ := srcAt_group (src := src) hl hB (k := k - m) (by omega)
      obtain ⟨x, hx, hvx⟩ := rd_group hl hr
      unfold diffStep
      rw [hx, show f + (k : Int) - (m : Int) = f + ((k - m : Nat) : Int) by omega]
      simp only [Option.bind_some]
      rw [hv1, hv2]
      simp only [Option.bind_some]
      rw [hvx]
      rfl
  · rw [if_neg hw]
    obtain ⟨m, rfl⟩ : ∃ m : Nat, w = -(m : Int) := ⟨(-w).toNat, by omega⟩
    rw [Int.natAbs_neg, Int.natAbs_natCast] at h64' hV'
    rw [Int.neg_neg]
    refine backward_run hB m h64' hV' _ ?_ ?_
    · intro k hk r hr
      show some ((), inv) = _
      unfold diffVal
      rw [hlen, shifted_neg, if_neg (by omega)]
      rfl
    · intro k hk r hr
      unfold diffVal
      rw [hlen, shifted_neg, if_pos hk]
      obtain ⟨v, hv1, hv2⟩ := srcAt_group (src := src) hl hB (k := k + m) hk
      obtain ⟨x, hx, hvx⟩ := rd_group hl hr
      unfold diffStep
      rw [hx, show f + (k : Int) - -(m : Int) = f + ((k + m : Nat) : Int) by omega]
      simp only [Option.bind_some]
      rw [hv1, hv2]
      simp only [Option.bind_some]
      rw [hvx]
      rfl

/-- **C29**, diff: the row at position `k` of its group gets its value minus the one `w` rows earlier
(later when `w` is negative), or the invalid value if there is no such row.  Guard as for shift. -/
theorem accumDiff_value_partial {keys : List Int} {src : List T} {bins : Nat} {P : Packed} {w : Int}
    (hG : Grouped keys bins P w.natAbs) (hl : src.length = keys.length) (sub : T → T → U) (inv : U) :
    ∃ out, accumDiff sub inv src P w 0 bins = some out ∧ out.length = keys.length ∧
      (∀ (b k r : Nat), b < bins → (rowsOf keys b)[k]? = some r → out[r]? = some (some (if b = 0 then inv else
        (((shifted k w (groupVals keys src b).length).bind fun p => (groupVals keys src b)[p]?).bind
          fun y => (groupVals keys src b)[k]?.map fun x => sub x y).getD inv))) ∧
      ∀ r, r < keys.length → ∃ v, out[r]? = some (some v) := by
  obtain ⟨ws, e, out, ho, h1, h2, h3⟩ := rolling_run hG.pos hG.slices hG.keysIn inv
    (diffBin sub inv src P w) (fun b k => diffVal sub inv (groupVals keys src b) w k)
    fun b _ hb2 => diffBin_run hG hl sub inv hb2
  refine ⟨out, ?_, h1, h2, h3⟩
  unfold accumDiff
  rw [e]
  simp only [Option.bind_some]
  rw [hl]
  exact ho

example : accumDiff (fun x y : Int => x - y) 0 [10, 20, 35, 40] exPacked 1 0 3 =
    some [some 0, some 0, some 25, some 5] := by decide
example : accumDiff (fun x y : Int => x - y) 0 [10, 20, 35, 40] exPacked (-2) 0 3 =
    some [some (-30), some 0, some 0, some 0] := by decide

end Riptide.Rolling
