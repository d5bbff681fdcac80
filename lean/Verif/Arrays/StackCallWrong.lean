import Verif.Arrays.StackCallText
/-! # Cases of C156, and where `HStack`, `HomogenizeArrays` and `GetUpcastNum` go wrong -/
namespace Riptide.Nums.Stack
open Riptide.Nums Riptide.Arrays Riptide.Nums.Info Riptide.Binary Spec
open Riptide.Convert.Call (Wide)
open Riptide.Convert.Call.Spec (whole real size)
open Riptide.Mask.Call.Spec (inC)

instance (ty : Nat) (v : Int) : Decidable (Value ty v) := by
  unfold Value
  cases whole ty with
  | some t => exact inferInstanceAs (Decidable (t.InRange v))
  | none => exact inferInstanceAs (Decidable (if ty = 0 then _ else _))
instance (ty : Nat) (sw : Bool) (m : Mem) (o v : Int) : Decidable (HasVal ty sw m o v) := inferInstanceAs (Decidable (_ ∧ _))
instance (a : Arr) (m : Mem) (vs : List Int) : Decidable (Vals a m vs) := decAllAt _ _ vs
instance (a : Arr) (m : Mem) (xs : List (List (BitVec 8))) : Decidable (Strs a m xs) :=
  @decAllAt _ _ (fun o x => inferInstanceAs (Decidable (x.length = a.lay.item ∧ Has m o x))) _ xs

/-- Some arithmetic for `long double`. -/
def w0 : Wide := ⟨fun _ _ x => some x, fun _ => true, fun x => decide (x = 0), 0⟩

/-- Every second item from the end of four numbers of 32 bits. -/
def back : Arr := ⟨5, ⟨[2], [-8], 4⟩, false⟩
def backMem : Mem := intMem .i32 (-8) [7, 99, -2147483648]
/-- Three bytes. -/
def bytes : Arr := ⟨1, ⟨[3], [1], 1⟩, false⟩
def bytesMem : Mem := intMem .i8 0 [1, -128, 3]
/-- Booleans. -/
def bools : Arr := ⟨0, ⟨[2], [1], 1⟩, false⟩
def boolsMem : Mem := intMem .i8 0 [0, 1]
/-- No numbers. -/
def nothing : Arr := ⟨1, ⟨[0], [1], 1⟩, false⟩
def noMem : Mem := fun _ => none
/-- One complex number, and one object. -/
def complexes : Arr := ⟨15, ⟨[1], [16], 16⟩, false⟩
def objects : Arr := ⟨17, ⟨[1], [8], 8⟩, false⟩
/-- Two strings of two bytes. -/
def words : Arr := ⟨18, ⟨[2], [2], 2⟩, false⟩
def wordsMem : Mem := bitMem 1 0 [97, 98, 99, 100]
/-- One string of one character. -/
def chars : Arr := ⟨19, ⟨[2], [4], 4⟩, false⟩
def charsMem : Mem := bitMem 4 0 [97, 98]
/-- Strings of one byte in two rows and two columns, in Fortran order. -/
def square : Arr := ⟨18, ⟨[2, 2], [1, 2], 1⟩, false⟩
def squareMem : Mem := bitMem 1 0 [97, 99, 98, 100]
/-- The same numbers of 16 bits in the order of bytes of other machines. -/
def other : Arr := ⟨3, ⟨[1], [2], 2⟩, true⟩
def otherMem : Mem := bitMem 1 0 [0, 1]

theorem back_numbers : Numbers back backMem [-2147483648, 7] :=
  ⟨⟨2, by decide, rfl, -8, rfl, by decide⟩, by decide, rfl, rfl, by decide +kernel⟩
theorem bytes_numbers : Numbers bytes bytesMem [1, -128, 3] :=
  ⟨⟨3, by decide, rfl, 1, rfl, by decide⟩, by decide, rfl, rfl, by decide +kernel⟩
theorem bools_numbers : Numbers bools boolsMem [0, 1] :=
  ⟨⟨2, by decide, rfl, 1, rfl, by decide⟩, by decide, rfl, rfl, by decide +kernel⟩
theorem words_texts : Texts 18 words wordsMem [[97, 98], [99, 100]] :=
  ⟨.inl ⟨2, by decide, rfl, 2, rfl, by decide⟩, rfl, by decide +kernel⟩

example : ∀ v ∈ [-2147483648, (7 : Int)], Able w0 back.type 5 v := fun _ _ => .inl rfl
example : StackSched 3 false [2, 3] [0, 1] := .serial (.inr (by decide))
example : hstackCall w0 plenty (listOf [(back, backMem, ()), (bytes, bytesMem, ())]) (-1) [0, 1] =
    .nums 5 [some (-2147483648), some 7, some 1, some (-2147483648), some 3] := by decide +kernel
example : hstackCall w0 plenty (listOf [(back, backMem, ()), (bytes, bytesMem, ())]) 1 [1, 0] =
    .nums 1 [some (-128), some 7, some 1, some (-128), some 3] := by decide +kernel
example : hstackCall w0 plenty (listOf [(words, wordsMem, ()), (square, squareMem, ())]) (-1) [0, 1] =
    .strs 18 2 [some [97, 98], some [99, 100], some [97, 0], some [99, 0], some [98, 0], some [100, 0]] := by decide +kernel
example : homogenizeCall w0 true (fun _ => true) (listOf [(back, backMem, ()), (back, backMem, ())]) (.number 9) =
    .list [.made 9 [-9223372036854775808, 7], .made 9 [-9223372036854775808, 7]] := by decide +kernel
example : homogenizeCall w0 true (fun _ => true) (listOf [(back, backMem, ()), (back, backMem, ())]) (.number (-1)) = .list [.same 0, .same 1] := by
  decide +kernel
example : upcastNum true (fun _ => true) (listOf [(bytes, bytesMem, ()), (bools, boolsMem, ())]) = .num 1 := by decide +kernel

/-- C156 is false of the code. Strings of two dimensions in Fortran order come column by column, where numpy lists them row by row, and as numbers are refused:
`[[a, b], [c, d]]` gives a, c, b, d. -/
theorem square_wrong : Strs square squareMem [[97], [98], [99], [100]] ∧
    hstackCall w0 plenty (listOf [(square, squareMem, ())]) (-1) [0] = .strs 18 1 [some [97], some [99], some [98], some [100]] := by
  refine ⟨by decide +kernel, by decide +kernel⟩

/-- Numbers of two dimensions are refused, those without dimensions are undefined behaviour. -/
theorem dims_refused : hstackCall w0 plenty (.items [.array ⟨1, ⟨[1, 3], [3, 1], 1⟩, false⟩ bytesMem]) (-1) [0] = .error ∧
    hstackCall w0 plenty (.items [.array ⟨1, ⟨[], [], 1⟩, false⟩ bytesMem]) (-1) [0] = .undefined := by
  refine ⟨by decide +kernel, by decide +kernel⟩

/-- The order of bytes is lost: 1 becomes 256. -/
theorem swapped_wrong : Vals other otherMem [1] ∧ hstackCall w0 plenty (listOf [(other, otherMem, ())]) (-1) [0] = .nums 3 [some 256] := by
  refine ⟨by decide +kernel, by decide +kernel⟩

/-- A slice which `HStack` takes is refused by `GetUpcastNum`, which copies nothing. -/
theorem upcast_refuses_slice : upcastNum true (fun _ => true) (listOf [(back, backMem, ())]) = .error ∧
    hstackCall w0 plenty (listOf [(back, backMem, ())]) (-1) [0] = .nums 5 [some (-2147483648), some 7] := by
  refine ⟨by decide +kernel, by decide +kernel⟩

/-- A slice of one item is refused by all. -/
theorem one_slice_refused : hstackCall w0 plenty (.items [.array ⟨5, ⟨[1], [8], 4⟩, false⟩ backMem]) (-1) [0] = .error ∧
    homogenizeCall w0 true (fun _ => true) (.items [.array ⟨5, ⟨[1], [8], 4⟩, false⟩ backMem]) (.number 5) = .error := by
  refine ⟨by decide +kernel, by decide +kernel⟩

/-- `None` counts as booleans for the common type, which makes it a float beside unsigned numbers of 64 bits; `HStack` refuses it. -/
theorem none_counts : upcastNum true (fun _ => true) (.items [.pyNone, .array ⟨8, ⟨[0], [8], 8⟩, false⟩ noMem]) = .num 12 ∧
    upcastNum true (fun _ => true) (.items [.array ⟨8, ⟨[0], [8], 8⟩, false⟩ noMem]) = .num 8 ∧
    hstackCall w0 plenty (.items [.pyNone, .array nothing noMem]) (-1) [0, 1] = .error := by
  refine ⟨by decide +kernel, by decide +kernel, by decide +kernel⟩

/-- `HomogenizeArrays` follows the null pointer of `None` beside an empty array of another type; alone it answers a list with an exception set. -/
theorem homogenize_none : homogenizeCall w0 true (fun _ => true) (.items [.pyNone, .array nothing noMem]) (.number (-1)) = .undefined ∧
    homogenizeCall w0 true (fun _ => true) (.items [.pyNone]) (.number (-1)) = .pending := by
  refine ⟨by decide +kernel, by decide +kernel⟩

/-- Without a common type `HomogenizeArrays` answers `NULL` without an exception: no arrays, or complex numbers. -/
theorem homogenize_silent : homogenizeCall w0 true (fun _ => true) (.items []) (.number (-1)) = .silent ∧
    homogenizeCall w0 true (fun _ => true) (.items [.array complexes noMem]) (.number (-1)) = .silent ∧
    hstackCall w0 plenty (.items []) (-1) [] = .error := by
  refine ⟨by decide +kernel, by decide +kernel, by decide +kernel⟩

/-- One array of objects, or strings to be made numbers: a C++ exception or a call through a null pointer. -/
theorem homogenize_undefined : homogenizeCall w0 true (fun _ => true) (.items [.array objects noMem]) (.number (-1)) = .undefined ∧
    homogenizeCall w0 true (fun _ => true) (.items [.array words wordsMem]) (.number 5) = .undefined ∧
    homogenizeCall w0 true (fun _ => true) (.items [.array words wordsMem, .array bools boolsMem]) (.number (-1)) = .undefined := by
  refine ⟨by decide +kernel, by decide +kernel, by decide +kernel⟩

/-- Strings of bytes beside strings of characters: a list is made although an exception is set; one kind alone is given back. -/
theorem homogenize_texts : homogenizeCall w0 true (fun _ => true) (.items [.array words wordsMem, .array chars charsMem]) (.number (-1)) = .pending ∧
    homogenizeCall w0 true (fun _ => true) (.items [.array words wordsMem]) (.number (-1)) = .list [.same 0] := by
  refine ⟨by decide +kernel, by decide +kernel⟩

/-- The type which is passed is cut to 32 bits, and if it is no number at all a list is made although an exception is set. -/
theorem homogenize_type : homogenizeCall w0 true (fun _ => true) (.items [.array bytes bytesMem]) (.number 4294967301) = .list [.made 5 [1, -2147483648, 3]] ∧
    homogenizeCall w0 true (fun _ => true) (.items [.array bytes bytesMem]) .other = .pending ∧
    homogenizeCall w0 true (fun _ => true) (.items [.array bytes bytesMem]) (.number 9223372036854775808) = .pending ∧
    homogenizeCall w0 true (fun _ => true) (.items [.array bytes bytesMem]) (.number 14) = .error ∧
    homogenizeCall w0 true (fun _ => true) (.items [.array bytes bytesMem]) (.number (-2)) = .error := by
  refine ⟨by decide +kernel, by decide +kernel, by decide +kernel, by decide +kernel, by decide +kernel⟩

/-- False becomes invalid in `HomogenizeArrays`, and not in `HStack`. -/
theorem homogenize_false_invalid : homogenizeCall w0 true (fun _ => true) (.items [.array bools boolsMem]) (.number 5) = .list [.made 5 [-2147483648, 1]] ∧
    hstackCall w0 plenty (.items [.array bools boolsMem]) 5 [0] = .nums 5 [some 0, some 1] := by
  refine ⟨by decide +kernel, by decide +kernel⟩

/-- What `HStack` refuses: strings beside numbers or to be made numbers, both kinds of strings, objects, complex numbers, and numbers which are no type. -/
theorem hstack_refuses : hstackCall w0 plenty (.items [.array words wordsMem, .array bytes bytesMem]) (-1) [0, 1] = .error ∧
    hstackCall w0 plenty (.items [.array words wordsMem]) 5 [0] = .error ∧
    hstackCall w0 plenty (.items [.array words wordsMem, .array chars charsMem]) (-1) [0, 1] = .error ∧
    hstackCall w0 plenty (.items [.array objects noMem]) (-1) [0] = .error ∧
    hstackCall w0 plenty (.items [.array complexes noMem]) (-1) [0] = .error ∧
    hstackCall w0 plenty (.items [.array bytes bytesMem]) 14 [0] = .error ∧
    hstackCall w0 plenty (.items [.array bytes bytesMem]) (-2) [0] = .error ∧
    hstackCall w0 plenty (.items [.other]) (-1) [0] = .error := by
  refine ⟨by decide +kernel, by decide +kernel, by decide +kernel, by decide +kernel, by decide +kernel, by decide +kernel, by decide +kernel, by decide +kernel⟩

/-- Without memory: the answer is an exception for the result, and undefined for the list of offsets, which is not looked at. -/
theorem no_room : hstackCall w0 { plenty with result := false } (listOf [(bytes, bytesMem, ())]) (-1) [0] = .error ∧
    hstackCall w0 { plenty with result := false } (listOf [(words, wordsMem, ())]) (-1) [0] = .error ∧
    hstackCall w0 { plenty with work := false } (listOf [(bytes, bytesMem, ())]) (-1) [0] = .undefined ∧
    hstackCall w0 { plenty with work := false } (listOf [(words, wordsMem, ())]) (-1) [0] = .undefined ∧
    hstackCall w0 { plenty with work := false } (.items [.pyNone]) (-1) [0] = .error ∧
    hstackCall w0 { plenty with table := false } (.items []) (-1) [] = .silent ∧
    hstackCall w0 { plenty with table := false } (.items [.pyNone]) (-1) [0] = .undefined ∧
    hstackCall w0 { plenty with copies := fun _ => false } (listOf [(back, backMem, ())]) (-1) [0] = .error ∧
    hstackCall w0 { plenty with work := false } (.items []) 5 [] = .nums 5 [] := by
  refine ⟨by decide +kernel, by decide +kernel, by decide +kernel, by decide +kernel, by decide +kernel, by decide +kernel, by decide +kernel, by decide +kernel,
    by decide +kernel⟩

/-- Strings of no bytes become strings of one. -/
theorem empty_strings : hstackCall w0 plenty (.items [.array ⟨18, ⟨[2], [0], 0⟩, false⟩ noMem]) (-1) [0] = .strs 18 1 [some [0], some [0]] := by decide +kernel

/-- A single array instead of a list, and a conversion whose value does not fit: an item of memory which is not there is undefined behaviour. -/
theorem one_array_taken : hstackCall w0 plenty (.one bytes bytesMem) (-1) [0] = .nums 1 [some 1, some (-128), some 3] ∧
    hstackCall w0 plenty (.one bytes noMem) (-1) [0] = .undefined ∧ hstackCall w0 plenty .other (-1) [0] = .error ∧
    homogenizeCall w0 true (fun _ => true) .other (.number 5) = .error ∧
    homogenizeCall w0 true (fun _ => true) (.items [.array ⟨1, ⟨[1, 3], [3, 1], 1⟩, false⟩ bytesMem]) (.number 5) = .error := by
  refine ⟨by decide +kernel, by decide +kernel, by decide +kernel, by decide +kernel, by decide +kernel⟩

end Riptide.Nums.Stack
