import Verif.Quick.CallProps
import Verif.Pack.CallWrong
/-! Where `IsSorted`, `SortInPlace`, `Sort` and `SortInPlaceIndirect` go wrong (C151), and examples for what they answer. -/
namespace Riptide.Quick.Call
open Riptide.Nums Riptide.Sort
open Riptide.Quick.Call.Spec
open Riptide.Quick.Spec (FloatLe)
open Riptide.Pack.Call (line)

deriving instance DecidableEq for Riptide.Sort.Column
deriving instance DecidableEq for Except

/-- An array with few rows is checked at once. -/
theorem small_call (workers : Nat) {a : Arr} {m : Mem} {c : Column} {b : Bool} (h : prepare a m = .ok c) (hl : c.len < Work.big)
    (hb : segResult c 0 c.len = b) : SortedCall workers false a m (.flag b) := by
  subst hb
  exact .run c _ h (.direct (.inl hl))

/-! ## Examples -/

example : SortedCall 3 false (line 3 2 3) (intMem .i16 0 [-5, 2, 2]) (.flag true) :=
  small_call 3 (c := .ints true [-5, 2, 2]) (by decide +kernel) (by decide) (by decide)
example : Ints .i16 (line 3 2 3) (intMem .i16 0 [-5, 2, 2]) [-5, 2, 2] ∧ IntType 3 .i16 := by decide +kernel
/-- `1`, `NaN`, `2`. -/
example : SortedCall 3 false (line 11 4 3) (bitMem 4 0 [0x3F800000, 0x7FC00000, 0x40000000]) (.flag false) :=
  small_call 3 (c := .floats .f32 true [0x3F800000, 0x7FC00000, 0x40000000]) (by decide +kernel) (by decide) (by decide)
example : Bits 4 (line 11 4 3) (bitMem 4 0 [0x3F800000, 0x7FC00000, 0x40000000]) [0x3F800000, 0x7FC00000, 0x40000000] ∧ FloatType 11 .f32 4 := by
  decide +kernel
/-- `"a"`, `"ab"`, `"b"`. -/
example : SortedCall 3 false (line 18 2 3) (bitMem 1 0 [97, 0, 97, 98, 98, 0]) (.flag true) :=
  small_call 3 (c := .strs true [[97, 0], [97, 98], [98, 0]]) (by decide +kernel) (by decide) (by decide)
example : Rows 1 2 (line 18 2 3) (bitMem 1 0 [97, 0, 97, 98, 98, 0]) [[97, 0], [97, 98], [98, 0]] ∧ TextType 18 1 := by decide +kernel
/-- The same in unicode. -/
example : SortedCall 3 false (line 19 8 2) (bitMem 4 0 [97, 0, 97, 8364]) (.flag true) :=
  small_call 3 (c := .strs true [[97, 0], [97, 8364]]) (by decide +kernel) (by decide) (by decide)
example : Rows 4 2 (line 19 8 2) (bitMem 4 0 [97, 0, 97, 8364]) [[97, 0], [97, 8364]] ∧ TextType 19 4 := by decide +kernel
example : SortedCall 3 false (line 20 2 3) (bitMem 1 0 [1, 0, 1, 0, 0, 1]) (.flag true) ∧
    Rows 1 2 (line 20 2 3) (bitMem 1 0 [1, 0, 1, 0, 0, 1]) [[1, 0], [1, 0], [0, 1]] :=
  ⟨small_call 3 (c := .voids true [[1, 0], [1, 0], [0, 1]]) (by decide +kernel) (by decide) (by decide +kernel), by decide +kernel⟩
/-- Every second item, and one row only. -/
example : SortedCall 3 false ⟨3, ⟨[2], [4], 2⟩, false⟩ (intMem .i16 0 [1, 2, 3, 4]) .layout := .early _ (by decide)
example : SortedCall 3 false ⟨3, ⟨[1], [4], 2⟩, false⟩ (intMem .i16 0 [7]) (.flag true) :=
  small_call 3 (c := .ints true [7]) (by decide +kernel) (by decide) (by decide)
example : SortedCall 3 false ⟨3, ⟨[1, 1], [2, 2], 2⟩, false⟩ (intMem .i16 0 [7]) .layout ∧
    SortedCall 3 false (line 14 8 1) (intMem .i64 0 [7]) .typeRefused := ⟨.early _ (by decide), .early _ (by decide)⟩

example : sortInPlace true 1 [0] [] (line 3 2 3) (intMem .i16 0 [2, -5, 2]) = .items (.ints [-5, 2, 2]) ∧
    sortInPlace true 2 [0] [] ⟨2, ⟨[2, 2], [2, 1], 1⟩, false⟩ (intMem .u8 0 [200, 3, 4, 1]) = .items (.ints [1, 3, 4, 200]) ∧
    sortInPlace true 3 [] [0] (line 11 4 3) (bitMem 4 0 [0x7FC00000, 0x40000000, 0x3F800000]) = .items (.floats .f32 [0x3F800000, 0x40000000, 0x7FC00000]) ∧
    sortInPlace true 2 [0] [] (line 0 1 3) (intMem .i8 0 [1, 0, 1]) = .items (.ints [0, 1, 1]) := by decide +kernel
example : Plain ⟨2, ⟨[2, 2], [2, 1], 1⟩, false⟩ ∧ Ints .u8 ⟨2, ⟨[2, 2], [2, 1], 1⟩, false⟩ (intMem .u8 0 [200, 3, 4, 1]) [200, 3, 4, 1] := by decide +kernel
example : sortCopy true true 1 [0] [] (line 3 2 3) (intMem .i16 0 [2, -5, 2]) = .items (.ints [-5, 2, 2]) ∧
    sortCopy true true 1 [0] [0] (line 18 1 3) (bitMem 1 0 [98, 97, 98]) = .items (.bytes 3 [97, 98, 98]) := by decide +kernel
example : indirect true (line 5 4 4) (intMem .i32 0 [0, 1, 2, 2]) (line 7 8 3) (intMem .i64 0 [2, 0, 1]) = .items [some 1, some 2, some 0, some 0] := by
  decide +kernel
example : Ints .i32 (line 5 4 4) (intMem .i32 0 [0, 1, 2, 2]) [0, 1, 2, 2] ∧ Ints .i64 (line 7 8 3) (intMem .i64 0 [2, 0, 1]) [2, 0, 1] ∧
    Plain (line 5 4 4) ∧ Plain (line 7 8 3) ∧ ((3 : Nat) : Int) ≤ IT.i32.hi + 1 := by decide +kernel
example : indirect true (line 7 8 3) (intMem .i64 0 [0, 1, 2]) (line 5 4 3) (intMem .i32 0 [2, 0, 1]) = .unchanged :=
  indirect_other_types true _ _ _ _ (by decide)
example : indirect false (line 7 8 3) (intMem .i64 0 [0, 1, 2]) (line 7 8 3) (intMem .i64 0 [2, 0, 1]) = .undefined :=
  indirect_no_memory _ _ _ _ (by decide) (by decide)

/-! ## `IsSorted` -/

/-- C151, false of the code: 1 and 256 in the other order of bytes are in order, and the answer is that they are not; with 256 and 1 it is the other way
round. -/
theorem isSorted_swapped_wrong :
    (Ints .i16 ⟨3, ⟨[2], [2], 2⟩, true⟩ (intMem .i16 0 [256, 1]) [1, 256] ∧
      SortedCall 3 false ⟨3, ⟨[2], [2], 2⟩, true⟩ (intMem .i16 0 [256, 1]) (.flag false)) ∧
    (Ints .i16 ⟨3, ⟨[2], [2], 2⟩, true⟩ (intMem .i16 0 [1, 256]) [256, 1] ∧
      SortedCall 3 false ⟨3, ⟨[2], [2], 2⟩, true⟩ (intMem .i16 0 [1, 256]) (.flag true)) :=
  ⟨⟨by decide +kernel, small_call 3 (c := .ints true [256, 1]) (by decide +kernel) (by decide) (by decide)⟩,
    ⟨by decide +kernel, small_call 3 (c := .ints true [1, 256]) (by decide +kernel) (by decide) (by decide)⟩⟩

/-- C151, false of the code: the structures (0, 1) and (1, 0) of two bytes are in order byte by byte, and the answer is that they are not. -/
theorem isSorted_structures_wrong :
    Rows 1 2 (line 20 2 2) (bitMem 1 0 [0, 1, 1, 0]) [[0, 1], [1, 0]] ∧ ([0, 1] : List Nat) < [1, 0] ∧
    SortedCall 3 false (line 20 2 2) (bitMem 1 0 [0, 1, 1, 0]) (.flag false) :=
  ⟨by decide +kernel, by decide, small_call 3 (c := .voids true [[0, 1], [1, 0]]) (by decide +kernel) (by decide) (by decide +kernel)⟩

/-! ## `SortInPlace` and `Sort` -/

/-- C151, false of the code: every second item is 3, 1; the call sorts 3 and its neighbour 9, so that 3, 1 stays, and the copy has the neighbour in it. -/
theorem sortInPlace_strided_wrong :
    Ints .i8 ⟨1, ⟨[2], [2], 1⟩, false⟩ (intMem .i8 0 [3, 9, 1]) [3, 1] ∧
    sortInPlace true 1 [0] [] ⟨1, ⟨[2], [2], 1⟩, false⟩ (intMem .i8 0 [3, 9, 1]) = .items (.ints [3, 9]) ∧
    sortCopy true true 1 [0] [] ⟨1, ⟨[2], [2], 1⟩, false⟩ (intMem .i8 0 [3, 9, 1]) = .items (.ints [3, 9]) := by decide +kernel

/-- C151, false of the code: of items read backwards those behind the last are sorted. -/
theorem sortInPlace_reversed_undefined :
    Ints .i8 ⟨1, ⟨[2], [-1], 1⟩, false⟩ (intMem .i8 (-1) [1, 2]) [2, 1] ∧
    sortInPlace true 1 [0] [] ⟨1, ⟨[2], [-1], 1⟩, false⟩ (intMem .i8 (-1) [1, 2]) = .undefined ∧
    sortCopy true true 1 [0] [] ⟨1, ⟨[2], [-1], 1⟩, false⟩ (intMem .i8 (-1) [1, 2]) = .undefined := by decide +kernel

/-- C151, false of the code: 1 and 256 in the other order of bytes are in order before the call, and not afterwards. -/
theorem sortInPlace_swapped_wrong :
    Ints .i16 ⟨3, ⟨[2], [2], 2⟩, true⟩ (intMem .i16 0 [256, 1]) [1, 256] ∧
    sortInPlace true 1 [0] [] ⟨3, ⟨[2], [2], 2⟩, true⟩ (intMem .i16 0 [256, 1]) = .items (.ints [1, 256]) ∧
    Ints .i16 ⟨3, ⟨[2], [2], 2⟩, true⟩ (intMem .i16 0 [1, 256]) [256, 1] := by decide +kernel

/-- C151, false of the code: a matrix in Fortran order which is in order becomes one which is not, because memory is sorted. The copy by `Sort` is in C order
and so in order. -/
theorem sortInPlace_fortran_wrong :
    Ints .i8 ⟨1, ⟨[2, 2], [1, 2], 1⟩, false⟩ (intMem .i8 0 [1, 3, 2, 4]) [1, 2, 3, 4] ∧
    sortInPlace true 1 [0, 0] [] ⟨1, ⟨[2, 2], [1, 2], 1⟩, false⟩ (intMem .i8 0 [1, 3, 2, 4]) = .items (.ints [1, 2, 3, 4]) ∧
    Ints .i8 ⟨1, ⟨[2, 2], [1, 2], 1⟩, false⟩ (intMem .i8 0 [1, 2, 3, 4]) [1, 3, 2, 4] := by decide +kernel

/-- C151, false of the code: of the strings "ba", "ab" the first two characters are sorted, so that the first becomes "ab"; unicode stays as it is. -/
theorem sortInPlace_texts_wrong :
    Rows 1 2 (line 18 2 2) (bitMem 1 0 [98, 97, 97, 98]) [[98, 97], [97, 98]] ∧
    sortInPlace true 1 [] [0] (line 18 2 2) (bitMem 1 0 [98, 97, 97, 98]) = .items (.bytes 2 [97, 98, 97, 98]) ∧
    sortInPlace true 1 [] [0] (line 19 4 2) (bitMem 4 0 [98, 97]) = .items .other ∧
    sortCopy true true 1 [] [0] (line 18 2 2) (bitMem 1 0 [98, 97, 97, 98]) = .undefined := by decide +kernel

/-- C151, false of the code: bytes of booleans which are neither 0 nor 1, as a view of other bytes has them, are read as `bool`. -/
theorem sortInPlace_bool_undefined : sortInPlace true 1 [0] [] (line 0 1 2) (intMem .i8 0 [2, 1]) = .undefined := by decide +kernel

/-- C151, false of the code: every second key is 0, 1; the call replaces 0 and its neighbour. -/
theorem indirect_strided_wrong :
    Ints .i32 ⟨5, ⟨[2], [8], 4⟩, false⟩ (intMem .i32 0 [0, 0, 1]) [0, 1] ∧
    indirect true ⟨5, ⟨[2], [8], 4⟩, false⟩ (intMem .i32 0 [0, 0, 1]) (line 5 4 2) (intMem .i32 0 [1, 0]) = .items [some 1, some 1] ∧
    indirect true (line 5 4 2) (intMem .i32 0 [0, 1]) (line 5 4 2) (intMem .i32 0 [1, 0]) = .items [some 1, some 0] := by decide +kernel

/-- C151, false of the code: a key outside of the order reads outside of the scratch array, one which is missing in the order reads what lay there. -/
theorem indirect_unchecked :
    indirect true (line 5 4 1) (intMem .i32 0 [2]) (line 5 4 2) (intMem .i32 0 [1, 0]) = .undefined ∧
    indirect true (line 5 4 1) (intMem .i32 0 [1]) (line 5 4 2) (intMem .i32 0 [0, 0]) = .items [none] ∧
    indirect true (line 5 4 1) (intMem .i32 0 [0]) (line 5 4 2) (intMem .i32 0 [0, 2]) = .undefined := by decide +kernel

end Riptide.Quick.Call
