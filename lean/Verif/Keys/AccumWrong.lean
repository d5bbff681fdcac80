import Verif.Keys.AccumProps
import Verif.Keys.Wrong
/-! Where `CombineAccum1Filter` and `CombineAccum2Filter` go wrong (C150), and examples for what they answer. -/
namespace Riptide.Keys
open Riptide.Nums Riptide.Keys.Spec Riptide.Work
open Riptide.Pack.Call (line)
open Riptide.Pack.Call.Spec (Keys)

/-- Everything is granted. -/
def plenty : Room := ⟨true, true, true, true⟩

/-! ## Examples -/

theorem pair_keys : Keys (line 1 1 3) .i8 (intMem .i8 0 [2, 0, 1]) [2, 0, 1] ∧ Keys (line 7 8 3) .i64 (intMem .i64 0 [0, 3, 3]) [0, 3, 3] :=
  ⟨⟨by decide, by decide, by decide +kernel, by decide +kernel⟩, ⟨by decide, by decide, by decide +kernel, by decide +kernel⟩⟩
example : Kept 3 (some (line 0 1 3, intMem .i8 0 [0, 1, 1])) [false, true, true] ∧ (∀ x ∈ ([2, 0, 1] : List Int), 0 ≤ x ∧ x ≤ 2) ∧
    (∀ x ∈ ([0, 3, 3] : List Int), 0 ≤ x ∧ x ≤ 3) := ⟨⟨two_flags, rfl⟩, by decide, by decide⟩
example : accum2 true (line 1 1 3) (intMem .i8 0 [2, 0, 1]) (line 7 8 3) (intMem .i64 0 [0, 3, 3]) 2 3 .pyNone none = .ok (.i8, [some 2, some 9, some 10]) ∧
    accum2 true (line 1 1 3) (intMem .i8 0 [2, 0, 1]) (line 7 8 3) (intMem .i64 0 [0, 3, 3]) 2 3 (.array (line 0 1 3) (intMem .i8 0 [0, 1, 1])) none =
      .ok (.i8, [some 0, some 9, some 10]) ∧
    accum2 true (line 1 1 3) (intMem .i8 0 [2, 0, 1]) (line 7 8 3) (intMem .i64 0 [0, 3, 3]) 2 39 .pyNone none = .ok (.i16, [some 2, some 9, some 10]) := by
  decide +kernel
example : accum2 true (line 1 1 3) (intMem .i8 0 [2, 0, 1]) (line 1 1 3) (intMem .i8 0 [2, 0, 1]) 2 3 .other none = .filterOther :=
  ((accum2_refused true (line 1 1 3) (line 1 1 3) _ _ 2 3 .other none (by decide)).2 rfl).2.2.1 rfl
example : accum2 true (line 2 1 3) (intMem .i8 0 [2, 0, 1]) (line 1 1 3) (intMem .i8 0 [2, 0, 1]) 2 3 .pyNone none = .typeRefused :=
  (((accum2_refused true (line 2 1 3) (line 1 1 3) _ _ 2 3 .pyNone none (by decide)).2 rfl).2.2.2 (.inl rfl)).2.1 (by decide) (by decide)
example : accum1 plenty (line 1 1 4) (intMem .i8 0 [3, 1, 3, 0]) 3 .pyNone = .ok ([1, 2, 1, 0], [0, 1], 2) ∧
    accum1 plenty (line 1 1 3) (intMem .i8 0 [3, 1, 3]) 3 (.array (line 0 1 3) (intMem .i8 0 [0, 1, 1])) = .ok ([0, 1, 2], [1, 2], 2) ∧
    accum1 plenty (line 1 1 3) (intMem .i8 0 [3, 1, 3]) (-1) .pyNone = .ok ([0, 0, 0], [], 0) := by decide +kernel
example : accum1 plenty (line 1 1 3) (intMem .i8 0 [3, 1, 3]) 2000000000 .pyNone = .tooMany :=
  ((accum1_refused plenty (line 1 1 3) _ 2000000000 .pyNone).2.2 (by intro f fm h; cases h) (by decide)).1 (by decide)

/-! ## Layouts which the calls do not look at -/

/-- C150, false of the code: every second key is 1, 2; the call reads the first two of all. -/
theorem strided_accum1_wrong :
    Ints .i8 ⟨1, ⟨[2], [2], 1⟩, false⟩ (intMem .i8 0 [1, 1, 2, 2]) [1, 2] ∧
    accum1 plenty ⟨1, ⟨[2], [2], 1⟩, false⟩ (intMem .i8 0 [1, 1, 2, 2]) 2 .pyNone = .ok ([1, 1], [0], 1) ∧
    accum1 plenty (line 1 1 2) (intMem .i8 0 [1, 2]) 2 .pyNone = .ok ([1, 2], [0, 1], 2) := by decide +kernel

/-- C150, false of the code: keys in the other order of bytes are taken for others, here for no group at all. -/
theorem swapped_accum1_wrong :
    Ints .i16 ⟨3, ⟨[2], [2], 2⟩, true⟩ (intMem .i16 0 [256, 512]) [1, 2] ∧
    accum1 plenty ⟨3, ⟨[2], [2], 2⟩, true⟩ (intMem .i16 0 [256, 512]) 2 .pyNone = .ok ([0, 0], [], 0) := by decide +kernel

/-- C150, false of the code: of keys read backwards both calls read behind the end. -/
theorem reversed_accum_undefined :
    Ints .i8 ⟨1, ⟨[2], [-1], 1⟩, false⟩ (intMem .i8 (-1) [1, 2]) [2, 1] ∧
    accum1 plenty ⟨1, ⟨[2], [-1], 1⟩, false⟩ (intMem .i8 (-1) [1, 2]) 2 .pyNone = .undefined ∧
    accum2 true ⟨1, ⟨[2], [-1], 1⟩, false⟩ (intMem .i8 (-1) [1, 2]) (line 1 1 2) (intMem .i8 0 [1, 2]) 2 2 .pyNone none = .undefined ∧
    accum2 true (line 1 1 2) (intMem .i8 0 [1, 2]) ⟨1, ⟨[2], [-1], 1⟩, false⟩ (intMem .i8 (-1) [1, 2]) 2 2 .pyNone none = .undefined := by decide +kernel

/-- C150, false of the code: the filter keeps the first of two rows; of its memory the call reads the two items in front, and keeps both. -/
theorem strided_accum_filter_wrong :
    Ints .i8 ⟨0, ⟨[2], [2], 1⟩, false⟩ (intMem .i8 0 [1, 1, 0, 0]) [1, 0] ∧
    accum1 plenty (line 1 1 2) (intMem .i8 0 [1, 2]) 2 (.array ⟨0, ⟨[2], [2], 1⟩, false⟩ (intMem .i8 0 [1, 1, 0, 0])) = .ok ([1, 2], [0, 1], 2) ∧
    accum2 true (line 1 1 2) (intMem .i8 0 [1, 2]) (line 1 1 2) (intMem .i8 0 [1, 1]) 2 2 (.array ⟨0, ⟨[2], [2], 1⟩, false⟩ (intMem .i8 0 [1, 1, 0, 0]))
      none = .ok (.i8, [some 4, some 5]) := by decide +kernel

/-- C150, false of the code: two equal matrices `[[1, 0], [2, 2]]`, the first in Fortran order and the second in C order. Of equal matrices every pair is
`x * 3 + x`; the call pairs the items as they lie in memory. -/
theorem fortran_pairs_wrong :
    Ints .i8 ⟨1, ⟨[2, 2], [1, 2], 1⟩, false⟩ (intMem .i8 0 [1, 2, 0, 2]) [1, 0, 2, 2] ∧
    Ints .i8 ⟨1, ⟨[2, 2], [2, 1], 1⟩, false⟩ (intMem .i8 0 [1, 0, 2, 2]) [1, 0, 2, 2] ∧
    accum2 true ⟨1, ⟨[2, 2], [1, 2], 1⟩, false⟩ (intMem .i8 0 [1, 2, 0, 2]) ⟨1, ⟨[2, 2], [2, 1], 1⟩, false⟩ (intMem .i8 0 [1, 0, 2, 2]) 2 2 .pyNone none =
      .ok (.i8, [some 4, some 2, some 6, some 8]) := by decide +kernel

/-- C150, false of the code: of the matrix `[[1, 0], [2, 2]]` in Fortran order the first 2 is item 2 of the rows one after the other; the call answers its
place in memory, at which item 1 lies for a reader in C order, a 0. -/
theorem fortran_first_rows_wrong :
    Ints .i8 ⟨1, ⟨[2, 2], [1, 2], 1⟩, false⟩ (intMem .i8 0 [1, 2, 0, 2]) [1, 0, 2, 2] ∧
    accum1 plenty ⟨1, ⟨[2, 2], [1, 2], 1⟩, false⟩ (intMem .i8 0 [1, 2, 0, 2]) 2 .pyNone = .ok ([1, 2, 0, 2], [0, 1], 2) ∧
    accum1 plenty ⟨1, ⟨[2, 2], [2, 1], 1⟩, false⟩ (intMem .i8 0 [1, 0, 2, 2]) 2 .pyNone = .ok ([1, 0, 2, 2], [0, 2], 2) := by decide +kernel

/-! ## Filters, sizes and memory -/

/-- C150, false of the code: a filter which is neither an array nor `None`, such as a list of booleans, is passed over by `CombineAccum1Filter` without
a word, for all keys; `CombineAccum2Filter` refuses it. -/
theorem odd_filter_passed_over (room : Room) (a : Arr) (m : Mem) (max : Int) : accum1 room a m max .other = accum1 room a m max .pyNone := rfl

/-- C150, false of the code: without memory for the shorter array of first rows a list with a missing item is returned while an error is set. -/
theorem short_memory_breaks_list :
    accum1 { plenty with shorter := false } (line 1 1 2) (intMem .i8 0 [1, 1]) 2 .pyNone = .broken ∧
    accum1 { plenty with shorter := false } (line 1 1 2) (intMem .i8 0 [2, 1]) 2 .pyNone = .ok ([1, 2], [0, 1], 2) := by decide +kernel

/-- C150, false of the code: without memory for the table a null pointer is cleared, whatever the keys of a signed type are. -/
theorem no_table_undefined {a : Arr} {t : IT} {m : Mem} {keys : List Int} (k : Keys a t m keys) (max : Int) (h0 : 0 ≤ max) (h1 : max < 2000000000) :
    accum1 { plenty with table := false } a m max .pyNone = .undefined := by
  unfold accum1
  simp only [badFilter1]
  rw [if_neg (by
      rw [Decidable.not_not]
      unfold IT.InRange
      rw [show IT.i64.lo = -9223372036854775808 from by decide, show IT.i64.hi = 9223372036854775807 from by decide]
      omega), if_neg (by omega), keyType_some k]
  simp only
  rw [if_neg (by decide), if_pos (by simp; omega)]

/-- C150, false of the code: two negative maxima are taken, one is not; and the maxima are multiplied before anything is looked at. -/
theorem negative_maxima_taken :
    accum2 true (line 1 1 2) (intMem .i8 0 [1, 2]) (line 1 1 2) (intMem .i8 0 [1, 1]) (-3) (-3) .pyNone none = .ok (.i8, [some (-1), some 0]) ∧
    accum2 true (line 1 1 2) (intMem .i8 0 [1, 2]) (line 1 1 2) (intMem .i8 0 [1, 1]) (-3) 3 .pyNone none = .tooMany ∧
    accum2 true (line 1 1 2) (intMem .i8 0 [1, 2]) (line 1 1 3) (intMem .i8 0 [1, 1, 1]) (2 ^ 32) (2 ^ 32) .pyNone none = .undefined ∧
    accum1 plenty (line 1 1 2) (intMem .i8 0 [1, 2]) (2 ^ 63 - 1) .pyNone = .undefined := by decide +kernel

/-- C150, false of the code: numbers outside of the maxima are not refused; two pairs which differ get the same number. -/
theorem outside_pairs_collide :
    accum2 true (line 1 1 2) (intMem .i8 0 [2, -1]) (line 1 1 2) (intMem .i8 0 [0, 1]) 2 3 .pyNone none = .ok (.i8, [some 2, some 2]) ∧
    accum2 true (line 1 1 2) (intMem .i8 0 [3, 0]) (line 1 1 2) (intMem .i8 0 [0, 1]) 2 3 (.array (line 0 1 2) (intMem .i8 0 [1, 1])) none =
      .ok (.i8, [some 3, some 3]) := by decide +kernel

end Riptide.Keys
