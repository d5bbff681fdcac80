import Verif.OneInput.Bad
/-! C138: witnesses and examples. -/
namespace Riptide.OneInput
open Riptide.Unary Riptide.Binary Riptide.OneInput.Spec

/-- A row of `n` items of `s` bytes. -/
def line (n s : Nat) : Lay := ⟨[n], [(s : Int)], s⟩
/-- Items of `s` bytes side by side. -/
def items (s : Nat) (xs : List Int) : Int → Int := fun p => xs.getD (p / s).toNat 0
/-- No square root is taken. -/
def noSq : FT → Nat → Nat := fun _ _ => 0

/-- 0.5. -/
def half : Int := 0x3FE0000000000000
/-- -1.5. -/
def negOneHalf : Int := 0xBFF8000000000000
/-- 1.0. -/
def one : Int := 0x3FF0000000000000

/-- C138: five halves: four become 0, the last becomes 1. -/
theorem round_wrong : call noSq 208 12 (line 5 8) (items 8 (List.replicate 5 half)) none = .array [some 0, some 0, some 0, some 0, some one] := by
  decide +kernel

/-- C138: the absolute values of five times -1. -/
theorem abs_int64_wrong : call noSq 201 7 (line 5 8) (items 8 (List.replicate 5 (-1))) none =
    .array [some (2 ^ 63 - 1), some (2 ^ 63 - 1), some (2 ^ 63 - 1), some (2 ^ 63 - 1), some 1] := by
  decide +kernel

/-- C138: the smallest number of 32 bits: it stays in a register, and its absolute value is undefined behind the registers. -/
theorem abs_smallest : call noSq 201 5 (line 9 4) (items 4 (List.replicate 8 (-2 ^ 31) ++ [7])) none =
      .array (List.replicate 8 (some (-2 ^ 31)) ++ [some 7]) ∧
    call noSq 201 5 (line 9 4) (items 4 (List.replicate 8 7 ++ [-2 ^ 31])) none = .bad := by
  decide +kernel

/-- C138: rounding changes integers above 2^53, and has no result at the upper end of the type. -/
theorem round_ints_wrong : call noSq 208 7 (line 1 8) (items 8 [2 ^ 53 + 1]) none = .array [some (2 ^ 53)] ∧
    call noSq 205 8 (line 1 8) (items 8 [2 ^ 64 - 1]) none = .bad ∧ call noSq 205 7 (line 1 8) (items 8 [2 ^ 63 - 1]) none = .bad := by
  decide +kernel

/-- C138: the same item again and again (distance 0): all results are stored into the first item, the others are left as they were. -/
theorem broadcast_wrong : call noSq 204 5 ⟨[3], [0], 4⟩ (items 4 [6]) none = .array [some (-7), none, none] := by decide +kernel

/-- C138: a given output with gaps: registers are stored over the gaps. Functions without registers respect them. -/
theorem given_strided : call noSq 205 12 (line 6 8) (items 8 (List.replicate 6 one)) (some (12, ⟨[6], [16], 8⟩)) = .bad ∧
    call noSq 204 7 (line 6 8) (items 8 [0, 1, 2, 3, 4, 5]) (some (7, ⟨[6], [16], 8⟩)) =
      .nothing [some (-1), some (-2), some (-3), some (-4), some (-5), some (-6)] := by
  decide +kernel

/-- C138: columns apart from each other (`direction` -1): the number of columns is taken for their distance in bytes. Two columns of two numbers,
16 bytes apart, read 2 bytes apart. -/
theorem columns_wrong : contig ⟨[2, 2], [4, 16], 4⟩ = (-1, 4) ∧
    call noSq 204 5 ⟨[2, 2], [4, 16], 4⟩ (fun p => if p = 0 then 10 else if p = 4 then 11 else if p = 16 then 20 else if p = 20 then 21 else 655360)
      (some (5, line 4 4)) = .bad := by
  decide +kernel

/-- C138: an output whose items overlap (two numbers of four bytes, two bytes apart): the first is a mixture of both results, the second is whole. -/
theorem overlapping_output_wrong : contig ⟨[2], [2], 4⟩ = (0, 2) ∧
    call noSq 204 5 (line 2 4) (fun p => p + 5) (some (5, ⟨[2], [2], 4⟩)) = .nothing [none, some (-10)] := by
  decide +kernel

/-- C138: two rows of three numbers, 32 bytes apart, given output: the first of each row is computed, two are left. -/
example : contig ⟨[2, 3], [32, 4], 4⟩ = (1, 4) ∧ call noSq 204 5 ⟨[2, 3], [32, 4], 4⟩ (fun p => p) (some (5, line 6 4)) =
    .nothing [some (-1), none, none, some (-33), none, none] := by decide +kernel

/-- C138: without a given output the same call computes into an array nobody gets. -/
example : call noSq 204 5 ⟨[2, 3], [32, 4], 4⟩ (fun p => p) none = .nothing [] := by decide +kernel

/-- C138: an output of another type or length is not touched. -/
theorem given_refused (sq : FT → Nat → Nat) {fn ty gt : Nat} (hfn : fn ∈ valueFns) (hty : Number ty) {a o : Lay} (read : Int → Int)
    (h : gt ≠ ty ∨ o.len ≠ a.len) : call sq fn ty a read (some (gt, o)) = .nothing (List.replicate o.len none) := by
  obtain ⟨op, hop, hval⟩ := value_known hfn
  obtain ⟨t, k, hty, hk, -, -, h5⟩ := kern_known sq hty op
  unfold call
  simp only [hop, hty, hval, if_true, reduceCtorEq, and_false, if_false, second]
  rw [if_pos (h.imp id fun h => Ne.symm h)]

/-- C138: the tests want an output of `bool`; one of the type of the input is refused. -/
theorem given_refused_tests (sq : FT → Nat → Nat) {fn ty gt : Nat} (hfn : fn ∈ testFns) (hty : Number ty) {a o : Lay} (read : Int → Int)
    (h : gt ≠ 0) : call sq fn ty a read (some (gt, o)) = .nothing (List.replicate o.len none) := by
  obtain ⟨op, hop⟩ := op_known (List.mem_append_right valueFns hfn)
  have hv : op.value = false := by
    simp only [testFns, List.mem_cons, List.not_mem_nil, or_false] at hfn
    rcases hfn with rfl | rfl | rfl | rfl <;> (simp [opOf] at hop; subst hop; rfl)
  obtain ⟨t, k, hty, hk, -, -, h5⟩ := kern_known sq hty op
  unfold call
  simp only [hop, hty, hv, Bool.false_eq_true, reduceCtorEq, and_false, if_false, second]
  rw [if_pos (.inl h)]

/-! ## The theorems are not empty -/

example : FloatTy 12 .f64 ∧ (205, RoundOp.floor) ∈ [(205, RoundOp.floor), (206, RoundOp.ceil), (207, RoundOp.trunc)] ∧
    contig (line 5 8) = (0, ((line 5 8).item : Int)) ∧ (line 5 8).item = (1 + FT.f64.eb + FT.f64.mb) / 8 := by decide
example : contig ⟨[2, 3], [24, 8], 8⟩ = (0, 8) ∧ contig ⟨[2, 3], [8, 16], 8⟩ = (0, 8) := by decide
example : call noSq 205 12 ⟨[2, 3], [24, 8], 8⟩ (items 8 [half, negOneHalf, one, half, negOneHalf, one]) none =
    .array ([0, 0xC000000000000000, one, 0, 0xC000000000000000, one].map some) := by decide +kernel
example : call noSq 208 12 (line 6 8) (items 8 [half, negOneHalf, one, half, negOneHalf, half]) none =
    .array ([0, 0xC000000000000000, one, 0, 0xC000000000000000, one].map some) ∧ inRegister 4 6 3 ∧ ¬ inRegister 4 6 4 := by
  refine ⟨by decide +kernel, by unfold inRegister; decide, by unfold inRegister; decide⟩
example : ¬ EvenHalf .f64 negOneHalf.toNat ∧ EvenHalf .f64 half.toNat := by decide +kernel
example : call noSq 201 11 (line 9 4) (items 4 (List.replicate 9 0x80000000)) none = .array (List.replicate 9 (some 0)) := by decide +kernel
example : call noSq 201 1 (line 3 1) (items 1 [-128, -5, 5]) none = .array [some (-128), some 5, some 5] := by decide +kernel
example : call noSq 201 2 (line 3 1) (items 1 [200, 5, 0]) none = .array [some 200, some 5, some 0] := by decide +kernel
example : call noSq 202 7 (line 3 8) (items 8 [0, 5, -3]) none = .array [some (-1), some (-6), some 2] := by decide +kernel
example : call noSq 202 4 (line 3 2) (items 2 [0, 5, 65535]) none = .array [some 65535, some 65530, some 0] := by decide +kernel
example : call noSq 202 12 (line 1 8) (items 8 [one]) none = .array [some 0x7FF8000000000000] := by decide +kernel
example : call noSq 207 5 (line 3 4) (items 4 [0, 5, -3]) none = .array [some 0, some 5, some (-3)] := by decide +kernel
example : call noSq 605 1 (line 3 1) (items 1 [0, 5, -3]) none = .array [some 0, some 0, some 0] := by decide +kernel
example : call noSq 604 12 (line 3 8) (items 8 [one, half, one]) none = .bad := by decide +kernel
example : call noSq 205 12 ⟨[3], [16], 8⟩ (items 8 (List.replicate 6 one)) none = .bad := by decide +kernel
example : call noSq 205 12 (line 6 8) (items 8 (List.replicate 6 one)) (some (12, line 6 8)) = .nothing (List.replicate 6 (some one)) := by decide +kernel
example : call noSq 205 12 ⟨[2, 3], [24, 8], 8⟩ (items 8 (List.replicate 6 one)) (some (12, line 6 8)) = .bad := by decide +kernel
example : Number 12 ∧ Number 1 ∧ ¬ Number 18 ∧ ¬ Number 0 ∧ bytesOf 12 = 8 := by unfold Number; decide
example : call noSq 205 18 (line 2 5) (fun _ => 0) none = .never ∧ call noSq 205 18 (line 0 5) (fun _ => 0) none = .array [] := by decide +kernel
example : call noSq 203 12 (line 2 8) (fun _ => 0) none = .throws ∧ call noSq 201 0 (line 2 1) (fun _ => 0) none = .throws := by decide +kernel

end Riptide.OneInput
