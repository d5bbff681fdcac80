import Verif.Window.CallProps
/-! Where the call `TimeWindow` goes wrong (C144), and examples for what it answers. -/
namespace Riptide.Window.Call
open Riptide.Nums Riptide.Work Riptide.Window Riptide.Window.Call.Spec

/-- `n` numbers one after the other. -/
def line (type item n : Nat) : Arr := ⟨type, ⟨[n], [(item : Int)], item⟩, false⟩

/-- Arithmetic for examples. -/
def toyOp (_ : Nat) (f : Fn) (s x : Nat) : Nat :=
  match f with
  | .sum => s + x
  | .prod => s * x

/-- Four int8 and their times. -/
example : Good (line 1 1 4) (line 7 8 4) .i8 (intMem .i8 0 [1, -2, 4, 8]) (intMem .i64 0 [10, 11, 11, 15]) [1, -2, 4, 8] [10, 11, 11, 15] :=
  ⟨by decide +kernel, by decide, by decide, by decide +kernel, by decide +kernel, by decide, by decide, by decide +kernel, by decide, by decide +kernel⟩
example : (∀ i, i < 4 → Fits .sum (window [1, -2, 4, 8] [10, 11, 11, 15] 1 i)) ∧ (∀ i, i < 4 → Fits .prod (window [1, -2, 4, 8] [10, 11, 11, 15] 1 i)) := by
  decide +kernel
example : call toyOp (line 1 1 4) (intMem .i8 0 [1, -2, 4, 8]) (line 7 8 4) (intMem .i64 0 [10, 11, 11, 15]) 0 1 none =
      .ints 7 [some 1, some (-1), some 3, some 8] ∧
    call toyOp (line 1 1 4) (intMem .i8 0 [1, -2, 4, 8]) (line 7 8 4) (intMem .i64 0 [10, 11, 11, 15]) 1 1 none =
      .ints 7 [some 1, some (-2), some (-8), some 8] := by decide +kernel
/-- The times as `long long`, the values as uint64 whose sum does not fit. -/
example : Good (line 10 8 2) (line 9 8 2) .u64 (intMem .u64 0 [2 ^ 64 - 1, 3]) (intMem .i64 0 [-5, -4]) [2 ^ 64 - 1, 3] [-5, -4] :=
  ⟨by decide +kernel, by decide, by decide, by decide +kernel, by decide +kernel, by decide, by decide, by decide +kernel, by decide, by decide +kernel⟩
example : call toyOp (line 10 8 2) (intMem .u64 0 [2 ^ 64 - 1, 3]) (line 9 8 2) (intMem .i64 0 [-5, -4]) 0 1 none = .ints 8 [some (2 ^ 64 - 1), some 2] := by
  decide +kernel
/-- Floats. -/
example : Plain (line 12 8 3) ∧ floatBytes (line 12 8 3).type = some 8 ∧ Bits 8 (line 12 8 3) (bitMem 8 0 [5, 7, 11]) [5, 7, 11] ∧
    call toyOp (line 12 8 3) (bitMem 8 0 [5, 7, 11]) (line 7 8 3) (intMem .i64 0 [0, 1, 2]) 0 1 none = .floats 12 [some 5, some 12, some 18] := by
  decide +kernel
/-- Values in two dimensions with times in one. -/
example : call toyOp ⟨5, ⟨[2, 2], [8, 4], 4⟩, false⟩ (intMem .i32 0 [1, 2, 4, 8]) (line 7 8 4) (intMem .i64 0 [0, 1, 2, 3]) 0 1 none =
    .ints 7 [some 1, some 3, some 6, some 12] := by decide +kernel
example : call toyOp (line 21 8 1) (intMem .i64 0 [1]) (line 7 8 1) (intMem .i64 0 [1]) 0 1 none = .none ∧
    call toyOp (line 1 1 1) (intMem .i8 0 [1]) (line 7 8 1) (intMem .i64 0 [1]) 2 1 none = .none ∧
    call toyOp (line 1 1 1) (intMem .i8 0 [1]) (line 21 8 1) (intMem .i64 0 [1]) 0 1 none = .timeType ∧
    call toyOp (line 1 1 1) (intMem .i8 0 [1]) (line 7 8 2) (intMem .i64 0 [1, 2]) 0 1 none = .lengths := by decide +kernel

/-- C144, false of the code: of every second value the call reads the first half of all values. -/
theorem strided_values_wrong :
    Ints .i64 ⟨7, ⟨[2], [16], 8⟩, false⟩ (intMem .i64 0 [1, 2, 4, 8]) [1, 4] ∧ Ints .i64 (line 7 8 2) (intMem .i64 0 [0, 1]) [0, 1] ∧
    call toyOp ⟨7, ⟨[2], [16], 8⟩, false⟩ (intMem .i64 0 [1, 2, 4, 8]) (line 7 8 2) (intMem .i64 0 [0, 1]) 0 5 none = .ints 7 [some 1, some 3] ∧
    total .sum (window [1, 4] [0, 1] 5 1) = 5 := by decide +kernel

/-- C144, false of the code: the same for the times. -/
theorem strided_times_wrong :
    Ints .i64 (line 7 8 2) (intMem .i64 0 [1, 4]) [1, 4] ∧ Ints .i64 ⟨7, ⟨[2], [16], 8⟩, false⟩ (intMem .i64 0 [0, 3, 9, 12]) [0, 9] ∧
    call toyOp (line 7 8 2) (intMem .i64 0 [1, 4]) ⟨7, ⟨[2], [16], 8⟩, false⟩ (intMem .i64 0 [0, 3, 9, 12]) 0 5 none = .ints 7 [some 1, some 5] ∧
    total .sum (window [1, 4] [0, 9] 5 1) = 4 := by decide +kernel

/-- C144, false of the code: of values in reverse order the call reads what lies behind the array. -/
theorem reversed_undefined :
    Ints .i64 ⟨7, ⟨[2], [-8], 8⟩, false⟩ (intMem .i64 (-8) [1, 2]) [2, 1] ∧ Ints .i64 (line 7 8 2) (intMem .i64 0 [0, 1]) [0, 1] ∧
    call toyOp ⟨7, ⟨[2], [-8], 8⟩, false⟩ (intMem .i64 (-8) [1, 2]) (line 7 8 2) (intMem .i64 0 [0, 1]) 0 5 none = .undefined := by decide +kernel

/-- C144, false of the code: of values in Fortran order the rows are those of the memory. -/
theorem fortran_wrong :
    Ints .i64 ⟨7, ⟨[2, 2], [8, 16], 8⟩, false⟩ (intMem .i64 0 [1, 2, 4, 8]) [1, 4, 2, 8] ∧
    call toyOp ⟨7, ⟨[2, 2], [8, 16], 8⟩, false⟩ (intMem .i64 0 [1, 2, 4, 8]) (line 7 8 4) (intMem .i64 0 [0, 1, 2, 3]) 0 1 none =
      .ints 7 [some 1, some 3, some 6, some 12] ∧
    (List.range 4).map (fun i => total .sum (window [1, 4, 2, 8] [0, 1, 2, 3] 1 i)) = [1, 5, 6, 10] := by decide +kernel

/-- C144, false of the code: the order of the bytes is not looked at. -/
theorem swapped_wrong :
    Ints .i16 ⟨3, ⟨[2], [2], 2⟩, true⟩ (memOf 0 [0#8, 1#8, 0#8, 2#8]) [1, 2] ∧
    call toyOp ⟨3, ⟨[2], [2], 2⟩, true⟩ (memOf 0 [0#8, 1#8, 0#8, 2#8]) (line 7 8 2) (intMem .i64 0 [0, 1]) 0 1 none =
      .ints 7 [some 256, some 768] := by decide +kernel

/-- C144, false of the code: riptide's invalid value of an integer type is added like a number, and the sum is not invalid. -/
theorem invalid_value_wrong :
    Good (line 1 1 2) (line 7 8 2) .i8 (intMem .i8 0 [IT.i8.inv, 5]) (intMem .i64 0 [0, 1]) [IT.i8.inv, 5] [0, 1] ∧
    call toyOp (line 1 1 2) (intMem .i8 0 [IT.i8.inv, 5]) (line 7 8 2) (intMem .i64 0 [0, 1]) 0 1 none = .ints 7 [some (-128), some (-123)] ∧
    IT.i64.inv ≠ -128 ∧ IT.i64.inv ≠ -123 :=
  ⟨⟨by decide +kernel, by decide, by decide, by decide +kernel, by decide +kernel, by decide, by decide, by decide +kernel, by decide, by decide +kernel⟩,
    by decide +kernel, by decide, by decide⟩

/-- C144, false of the code: with an invalid int64 in a window any negative value overflows. -/
theorem invalid_int64_undefined :
    Ints .i64 (line 7 8 2) (intMem .i64 0 [IT.i64.inv, -1]) [IT.i64.inv, -1] ∧
    call toyOp (line 7 8 2) (intMem .i64 0 [IT.i64.inv, -1]) (line 7 8 2) (intMem .i64 0 [0, 1]) 0 1 none = .undefined := by decide +kernel

/-- C144, false of the code: an invalid time is 2^63 before all others which are not negative, and the difference of times overflows. -/
theorem invalid_time_undefined (flop : Nat → Fn → Nat → Nat → Nat) (m tm : Mem) (t : Int) (ht : 0 ≤ t) (hm : Ints .i64 (line 7 8 2) tm [IT.i64.inv, t])
    (delta : Int) (workers : Nat) (nt : Bool) (par : Option (List Nat)) (hp : ChunkSched workers 2 nt par) :
    IT.i64.inv ≤ t ∧ call flop (line 7 8 2) m (line 7 8 2) tm 0 delta par = .undefined := by
  refine ⟨Int.le_trans (by decide : IT.i64.inv ≤ 0) ht, ?_⟩
  obtain ⟨_, h⟩ := plain_ints (t := .i64) (by decide) (by decide) hm
  have h0 : intAt .i64 tm 0 = some IT.i64.inv := h 0 _ rfl
  have h1 : intAt .i64 tm 1 = some t := h 1 _ rfl
  have hr : row (intOp .sum .i64) (intAt .i64 m) (intAt .i64 tm) delta 1 = none := by
    unfold row
    cases intAt .i64 m 1 with
    | none => rfl
    | some x =>
      rw [Option.bind_some, back, h0, h1]
      show (if ¬ IT.i64.InRange (t - IT.i64.inv) then none else _) = none
      rw [if_pos]
      intro h
      have := h.2
      have e1 : IT.i64.hi = 9223372036854775807 := by decide
      have e2 : IT.i64.inv = -9223372036854775808 := by decide
      omega
  have e := call_run flop (a := line 7 8 2) (b := line 7 8 2) (m := m) (tm := tm) rfl (.inl rfl) (k := .int .i64 .i64 7) rfl .sum delta par
  show call flop (line 7 8 2) m (line 7 8 2) tm (code .sum) delta par = .undefined
  rw [e]
  unfold run rows
  simp only
  rw [show (line 7 8 2).lay.len = 2 from rfl, elemWork_none (by decide : 1 < 2) hr hp]
  rfl
example : Ints .i64 (line 7 8 2) (intMem .i64 0 [IT.i64.inv, 0]) [IT.i64.inv, 0] := by decide +kernel

/-- C144, false of the code: going back ends at the first row outside of the window, so that with times which fall rows are missed. -/
theorem unsorted_wrong :
    call toyOp (line 7 8 3) (intMem .i64 0 [1, 2, 4]) (line 7 8 3) (intMem .i64 0 [10, 0, 10]) 0 1 none = .ints 7 [some 1, some 3, some 4] ∧
    (List.range 3).map (fun i => total .sum (window [1, 2, 4] [10, 0, 10] 1 i)) = [1, 3, 5] := by decide +kernel

/-- C144, false of the code: with a negative delta no row is in its own window, but it is added. -/
theorem negative_delta_wrong :
    call toyOp (line 7 8 1) (intMem .i64 0 [7]) (line 7 8 1) (intMem .i64 0 [10]) 0 (-1) none = .ints 7 [some 7] ∧
    window [7] [10] (-1) 0 = [] := by decide +kernel

end Riptide.Window.Call
