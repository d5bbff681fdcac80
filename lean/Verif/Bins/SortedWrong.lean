import Verif.Bins.SortedProps
/-! Where `NanInfCountFromSort` and `BinsToCutsSorted` go wrong (C148), and cases which meet the conditions of the theorems. -/
namespace Riptide.Bins.Sorted
open Riptide.Nums Riptide.Nums.Info

/-- An array of one dimension without gaps. -/
def vec (type item n : Nat) : Arr := ⟨type, ⟨[n], [item], item⟩, false⟩

/-- float64: 2, NaN, 1, infinity, minus infinity. -/
def five : List Nat := [0x4000000000000000, 0x7FF8000000000000, 0x3FF0000000000000, 0x7FF0000000000000, 0xFFF0000000000000]

/-- Their order. -/
def order5 : List Nat := [4, 2, 0, 3, 1]

/-- float64: 0, 1, 2. -/
def edges3 : List Nat := [0, 0x3FF0000000000000, 0x4000000000000000]

/-- The memory of the values, of the edges and of the index. -/
def fiveMem : Mem := bitMem 8 0 five
/-- The memory of the edges. -/
def edgeMem : Mem := bitMem 8 0 edges3
/-- The memory of an int32 index. -/
def idxMem (l : List Int) : Mem := intMem .i32 0 l

/-! ## Cases -/

example : IsFloats FT.f64 (vec 12 8 5) fiveMem five ∧ IsFloats FT.f64 (vec 12 8 3) edgeMem edges3 ∧ IsIndex (vec 5 4 5) (idxMem [4, 2, 0, 3, 1]) order5 ∧
    Sorts (Sort.floatLt FT.f64 true) five order5 ∧ Edges edges3 ∧ Plain (vec 12 8 5) ∧ OneDim (vec 12 8 5) 5 :=
  ⟨⟨rfl, Or.inr ⟨rfl, rfl, rfl, by decide +kernel⟩⟩, ⟨rfl, Or.inr ⟨rfl, rfl, rfl, by decide +kernel⟩⟩, ⟨rfl, Or.inl ⟨rfl, rfl, by decide +kernel⟩⟩,
    Sorts.of_check 0 (by decide) (by decide +kernel), ⟨by decide +kernel, by decide +kernel⟩, by decide, by decide, rfl, 8, rfl, by simp⟩

/-- The counts of the five, and their labels. -/
theorem five_cut :
    nanInf true (fun _ => true) [.arg (.array (vec 12 8 5) fiveMem), .arg (.array (vec 5 4 5) (idxMem [4, 2, 0, 3, 1]))] = .done (1, 1, 1) ∧
    cuts true (vec 12 8 5) fiveMem (vec 12 8 3) edgeMem (vec 5 4 5) (idxMem [4, 2, 0, 3, 1]) 1 1 1 =
      .done [some 3, some 0, some 2, some 0, some 0] := ⟨by decide +kernel, by decide +kernel⟩

example : IsInts .i16 (vec 3 2 3) (intMem .i16 0 [5, -32768, 4]) [5, -32768, 4] ∧ Sorts (Sort.intLt true) [5, -32768, 4] [1, 2, 0] :=
  ⟨⟨rfl, by decide, rfl, rfl, by decide +kernel⟩, Sorts.of_check 0 (by decide) (by decide +kernel)⟩

/-- Integers, unsigned integers and booleans. -/
theorem ints_counted_call :
    nanInf true (fun _ => true) [.arg (.array (vec 3 2 3) (intMem .i16 0 [5, -32768, 4])), .arg (.array (vec 7 8 3) (intMem .i64 0 [1, 2, 0]))] = .done (0, 0, 1) ∧
    nanInf true (fun _ => true) [.arg (.array (vec 4 2 3) (intMem .u16 0 [5, 65535, 4])), .arg (.array (vec 9 8 3) (intMem .i64 0 [2, 0, 1]))] = .done (0, 1, 0) ∧
    nanInf true (fun _ => true) [.arg (.array (vec 0 1 2) (intMem .i8 0 [0, 1])), .arg (.array (vec 5 4 2) (idxMem [0, 1]))] = .done (0, 0, 0) ∧
    nanInf true (fun _ => true) [.list [.array (vec 11 4 2) (bitMem 4 0 [0x7FC00000, 0xFF800000]), .array (vec 5 4 2) (idxMem [1, 0])], .arg .other] =
      .done (1, 0, 1) := ⟨by decide +kernel, by decide +kernel, by decide +kernel, by decide +kernel⟩

/-- Labels of float32, of integers and of values below the first edge. -/
theorem other_types_cut :
    cuts true (vec 11 4 2) (bitMem 4 0 [0x40000000, 0xBF800000]) (vec 12 8 3) edgeMem (vec 5 4 2) (idxMem [1, 0]) 0 0 0 = .done [some 3, some 1] ∧
    cuts true (vec 3 2 3) (intMem .i16 0 [2, -32768, 1]) (vec 12 8 3) edgeMem (vec 7 8 3) (intMem .i64 0 [1, 2, 0]) 0 0 1 = .done [some 3, some 0, some 2] ∧
    IsDoubles (vec 11 4 2) (bitMem 4 0 [0x40000000, 0xBF800000]) [0x4000000000000000, 0xBFF0000000000000] :=
  ⟨by decide +kernel, by decide +kernel, Or.inr (Or.inl ⟨[0x40000000, 0xBF800000], ⟨rfl, Or.inl ⟨rfl, rfl, rfl, by decide +kernel⟩⟩, by decide +kernel⟩)⟩

/-! ## What is refused -/

/-- Edges of another type than float64 are refused, an index of another type than int32 and int64 and values of an unknown type are answered with `None`
only. -/
theorem cuts_types (room : Bool) (a b x : Arr) (m bm im : Mem) (nan inf neg : Int) :
    (b.type ≠ 12 → cuts room a m b bm x im nan inf neg = .failed) ∧
    (b.type = 12 → x.type ∉ [5, 7, 9] → cuts room a m b bm x im nan inf neg = .pyNone) ∧
    (b.type = 12 → x.type ∈ [5, 7, 9] → 13 < a.type → cuts room a m b bm x im nan inf neg = .pyNone) ∧
    (b.type = 12 → x.type ∈ [5, 7, 9] → a.type < 13 → room = false → cuts room a m b bm x im nan inf neg = .failed) := by
  have hx : ∀ k : Nat, k ∉ [5, 7, 9] → indexType k = none := by
    intro k hk
    simp only [List.mem_cons, List.not_mem_nil, or_false, not_or] at hk
    unfold indexType
    split <;> first | rfl | omega
  have hx2 : ∀ k : Nat, k ∈ [5, 7, 9] → ∃ U, indexType k = some U := by
    intro k hk
    simp only [List.mem_cons, List.not_mem_nil, or_false] at hk
    rcases hk with h | h | h <;> rw [h] <;> exact ⟨_, rfl⟩
  have hd : ∀ k : Nat, 13 < k → Call.dataType k = none := by
    intro k hk
    unfold Call.dataType
    split <;> first | rfl | omega
  have hd2 : ∀ k : Nat, k < 13 → ∃ T, Call.dataType k = some T := by
    intro k hk
    have : k = 0 ∨ k = 1 ∨ k = 2 ∨ k = 3 ∨ k = 4 ∨ k = 5 ∨ k = 6 ∨ k = 7 ∨ k = 8 ∨ k = 9 ∨ k = 10 ∨ k = 11 ∨ k = 12 := by omega
    rcases this with h | h | h | h | h | h | h | h | h | h | h | h | h <;> rw [h] <;> exact ⟨_, rfl⟩
  refine ⟨fun h => ?_, fun h1 h2 => ?_, fun h1 h2 h3 => ?_, fun h1 h2 h3 h4 => ?_⟩
  · unfold cuts; rw [if_pos h]
  · unfold cuts; rw [if_neg (by omega), hx _ h2]
  · obtain ⟨U, hU⟩ := hx2 _ h2
    unfold cuts; rw [if_neg (by omega), hU]; simp only; rw [if_neg (by omega), hd _ h3]
  · obtain ⟨U, hU⟩ := hx2 _ h2
    obtain ⟨T, hT⟩ := hd2 _ h3
    unfold cuts; rw [if_neg (by omega), hU]; simp only; rw [if_neg (by omega), hT]; simp only; rw [if_pos h4]

/-- C148, false of the code: three arrays, one array, arrays of different lengths and other objects set an exception but `None` is returned. -/
theorem counts_failed :
    nanInf true (fun _ => true) [.arg (.array (vec 12 8 5) fiveMem)] = .failed ∧
    nanInf true (fun _ => true) [.arg (.array (vec 1 1 1) (intMem .i8 0 [1])), .arg (.array (vec 1 1 1) (intMem .i8 0 [1])),
      .arg (.array (vec 1 1 1) (intMem .i8 0 [1]))] = .failed ∧
    nanInf true (fun _ => true) [.arg (.array (vec 12 8 5) fiveMem), .arg (.array (vec 5 4 4) (idxMem [4, 2, 0, 3]))] = .failed ∧
    nanInf true (fun _ => true) [.arg (.array (vec 12 8 5) fiveMem), .arg .other] = .failed ∧
    nanInf true (fun _ => true) [.arg (.array (vec 12 8 5) fiveMem), .list []] = .failed := by decide +kernel

/-- C148, false of the code: an index of another type, and values of a type without a function, are answered with `None` and no exception. -/
theorem counts_silent :
    nanInf true (fun _ => true) [.arg (.array (vec 12 8 5) fiveMem), .arg (.array (vec 6 4 5) (idxMem [4, 2, 0, 3, 1]))] = .pyNone ∧
    nanInf true (fun _ => true) [.arg (.array (vec 18 2 1) (intMem .i16 0 [1])), .arg (.array (vec 5 4 1) (idxMem [0]))] = .pyNone := by decide +kernel

/-! ## Where it goes wrong -/

/-- C148, false of the code: without arguments, or with an empty list, the length of the first array is read though there is none. -/
theorem no_arguments_undefined (room : Nat → Bool) (rest : List PyArg) :
    nanInf true room [] = .undefined ∧ nanInf true room (.list [] :: rest) = .undefined := ⟨rfl, rfl⟩

/-- C148, false of the code: `None` in place of the values is taken as no booleans. -/
theorem none_counted : nanInf true (fun _ => true) [.arg .pyNone, .arg (.array (vec 5 4 0) fun _ => none)] = .done (0, 0, 0) := by decide +kernel

/-- C148, false of the code: the index is not looked at: behind the values or before them memory is read. -/
theorem index_outside_undefined :
    nanInf true (fun _ => true) [.arg (.array (vec 12 8 1) (bitMem 8 0 [0x3FF0000000000000])), .arg (.array (vec 5 4 1) (idxMem [1]))] = .undefined ∧
    nanInf true (fun _ => true) [.arg (.array (vec 12 8 1) (bitMem 8 0 [0x3FF0000000000000])), .arg (.array (vec 5 4 1) (idxMem [-1]))] = .undefined ∧
    cuts true (vec 12 8 1) (bitMem 8 0 [0x3FF0000000000000]) (vec 12 8 3) edgeMem (vec 5 4 1) (idxMem [1]) 0 0 0 = .undefined ∧
    cuts true (vec 12 8 1) (bitMem 8 0 [0x3FF0000000000000]) (vec 12 8 3) edgeMem (vec 5 4 1) (idxMem [-1]) 0 0 0 = .undefined :=
  ⟨by decide +kernel, by decide +kernel, by decide +kernel, by decide +kernel⟩

/-- C148, false of the code: the rows of counted values and of those next to the array are written, too, without a look at them. -/
theorem counted_row_outside_undefined :
    cuts true (vec 12 8 1) (bitMem 8 0 [0xFFF0000000000000]) (vec 12 8 3) edgeMem (vec 5 4 1) (idxMem [1]) 0 0 1 = .undefined ∧
    cuts true (vec 12 8 1) (bitMem 8 0 [0x7FF8000000000000]) (vec 12 8 3) edgeMem (vec 5 4 1) (idxMem [1]) 1 0 0 = .undefined ∧
    cuts true (vec 12 8 1) (bitMem 8 0 [0x3FF0000000000000, 0x3FF0000000000000]) (vec 12 8 3) edgeMem (vec 5 4 1) (idxMem [1]) 0 0 0 = .undefined :=
  ⟨by decide +kernel, by decide +kernel, by decide +kernel⟩

/-- A list after the first argument is refused. -/
theorem second_list_refused :
    nanInf true (fun _ => true) [.arg (.array (vec 12 8 5) fiveMem), .list [.array (vec 5 4 5) (idxMem [4, 2, 0, 3, 1])]] = .failed ∧
    nanInf true (fun _ => true) [.arg .pyNone, .list [.array (vec 5 4 0) fun _ => none]] = .failed ∧
    nanInf true (fun _ => true) [.arg (.array (vec 12 8 0) fun _ => none), .list []] = .failed :=
  ⟨by decide +kernel, by decide +kernel, by decide +kernel⟩

/-- C148, false of the code: an index which is no order of the values: a NaN which is not last is not counted, and a row which is not in the index is not
written. -/
theorem index_no_order :
    nanInf true (fun _ => true) [.arg (.array (vec 12 8 2) (bitMem 8 0 [0x7FF8000000000000, 0])), .arg (.array (vec 5 4 2) (idxMem [0, 1]))] = .done (0, 0, 0) ∧
    cuts true (vec 12 8 2) (bitMem 8 0 [0x3FF0000000000000, 0]) (vec 12 8 3) edgeMem (vec 5 4 2) (idxMem [0, 0]) 0 0 0 = .done [some 2, none] :=
  ⟨by decide +kernel, by decide +kernel⟩

/-- C148, false of the code: the index is not compared with the values in length: a shorter one is read behind its end, of a longer one only the front
is taken. -/
theorem index_length :
    cuts true (vec 12 8 2) (bitMem 8 0 [0, 0x3FF0000000000000]) (vec 12 8 3) edgeMem (vec 5 4 1) (idxMem [0]) 0 0 0 = .undefined ∧
    cuts true (vec 12 8 1) (bitMem 8 0 [0x3FF0000000000000]) (vec 12 8 3) edgeMem (vec 5 4 2) (idxMem [0, 1]) 0 0 0 = .done [some 2] :=
  ⟨by decide +kernel, by decide +kernel⟩

/-- C148, false of the code: counts which are negative or more than the values lead outside of the index. -/
theorem counts_outside_undefined :
    cuts true (vec 12 8 1) (bitMem 8 0 [0]) (vec 12 8 3) edgeMem (vec 5 4 1) (idxMem [0]) 0 0 (-1) = .undefined ∧
    cuts true (vec 12 8 1) (bitMem 8 0 [0]) (vec 12 8 3) edgeMem (vec 5 4 1) (idxMem [0]) 0 (-1) 0 = .undefined ∧
    cuts true (vec 12 8 1) (bitMem 8 0 [0]) (vec 12 8 3) edgeMem (vec 5 4 1) (idxMem [0]) 2 0 0 = .undefined ∧
    cuts true (vec 12 8 1) (bitMem 8 0 [0]) (vec 12 8 3) edgeMem (vec 5 4 1) (idxMem [0]) 0 0 2 = .undefined ∧
    cuts true (vec 12 8 1) (bitMem 8 0 [0]) (vec 12 8 3) edgeMem (vec 5 4 1) (idxMem [0]) (2 ^ 63 - 1) 1 0 = .undefined ∧
    cuts true (vec 12 8 1) (bitMem 8 0 [0]) (vec 12 8 3) edgeMem (vec 5 4 1) (idxMem [0]) (-2 ^ 63) 0 0 = .undefined ∧
    cuts true (vec 12 8 1) (bitMem 8 0 [0]) (vec 12 8 3) edgeMem (vec 5 4 1) (idxMem [0]) 1 0 1 = .done [some 0] :=
  ⟨by decide +kernel, by decide +kernel, by decide +kernel, by decide +kernel, by decide +kernel, by decide +kernel, by decide +kernel⟩

theorem cutAll_no_edge {idx : Int → Option Int} {D : Nat → Option Nat} {k : Nat} {edge : Nat → Option Nat} {n : Nat} {nan inf neg : Int}
    (h : edge 0 = none) : cutAll idx D k edge n nan inf neg = none := by
  unfold cutAll
  split
  · rfl
  · rw [h]
    split
    · next h4 => cases h4
    · rfl

/-- C148, false of the code: without edges the first edge is read all the same. -/
theorem no_edges_undefined (a x : Arr) (m im : Mem) (nan inf neg : Int) (hx : x.type = 5) (ha : a.type = 12) :
    cuts true a m ⟨12, ⟨[0], [8], 8⟩, false⟩ (fun _ => none) x im nan inf neg = .undefined := by
  unfold cuts
  rw [if_neg (by simp), hx, ha]
  simp only [indexType, Call.dataType]
  rw [if_neg (by decide), if_neg (by decide)]
  rw [cutAll_no_edge rfl]
  rfl

/-- C148, false of the code: strides are not looked at by `BinsToCutsSorted`: of every second value the memory in between is taken. `NanInfCountFromSort`
makes a copy. -/
theorem strided_cuts_wrong :
    Bits 8 ⟨12, ⟨[2], [16], 8⟩, false⟩ (bitMem 8 0 [0, 0x3FF0000000000000, 0x4000000000000000]) [0, 0x4000000000000000] ∧
    cuts true ⟨12, ⟨[2], [16], 8⟩, false⟩ (bitMem 8 0 [0, 0x3FF0000000000000, 0x4000000000000000]) (vec 12 8 3) edgeMem (vec 5 4 2) (idxMem [0, 1]) 0 0 0 =
      .done [some 2, some 2] ∧
    cuts true (vec 12 8 2) (bitMem 8 0 [0, 0x4000000000000000]) (vec 12 8 3) edgeMem (vec 5 4 2) (idxMem [0, 1]) 0 0 0 = .done [some 2, some 3] ∧
    nanInf true (fun _ => true) [.arg (.array ⟨12, ⟨[2], [16], 8⟩, false⟩ (bitMem 8 0 [0, 0, 0x7FF0000000000000])), .arg (.array (vec 5 4 2) (idxMem [0, 1]))] =
      .done (0, 1, 0) := ⟨by decide +kernel, by decide +kernel, by decide +kernel, by decide +kernel⟩

/-- C148, false of the code: edges in steps, in reverse, and in the other order of bytes are read as they lie. -/
theorem strided_edges_wrong :
    Bits 8 ⟨12, ⟨[2], [16], 8⟩, false⟩ edgeMem [0, 0x4000000000000000] ∧
    cuts true (vec 12 8 1) (bitMem 8 0 [0x3FF0000000000000]) ⟨12, ⟨[2], [16], 8⟩, false⟩ edgeMem (vec 5 4 1) (idxMem [0]) 0 0 0 = .done [some 2] ∧
    cuts true (vec 12 8 1) (bitMem 8 0 [0x4000000000000000]) ⟨12, ⟨[2], [16], 8⟩, false⟩ edgeMem (vec 5 4 1) (idxMem [0]) 0 0 0 = .done [some 1] ∧
    cuts true (vec 12 8 1) (bitMem 8 0 [0x4000000000000000]) (vec 12 8 2) (bitMem 8 0 [0, 0x4000000000000000]) (vec 5 4 1) (idxMem [0]) 0 0 0 = .done [some 2] ∧
    Bits 8 ⟨12, ⟨[2], [-8], 8⟩, false⟩ (bitMem 8 (-8) [0x3FF0000000000000, 0]) [0, 0x3FF0000000000000] ∧
    cuts true (vec 12 8 1) (bitMem 8 0 [0x3FE0000000000000]) ⟨12, ⟨[2], [-8], 8⟩, false⟩ (bitMem 8 (-8) [0x3FF0000000000000, 0]) (vec 5 4 1) (idxMem [0]) 0 0 0 =
      .undefined := ⟨by decide +kernel, by decide +kernel, by decide +kernel, by decide +kernel, by decide +kernel, by decide +kernel⟩

/-- C148, false of the code: values in the other order of bytes are read as they lie. -/
theorem swapped_counts_wrong :
    Bits 8 ⟨12, ⟨[1], [8], 8⟩, true⟩ (bitMem 8 0 [0xF07F]) [0x7FF0000000000000] ∧
    nanInf true (fun _ => true) [.arg (.array ⟨12, ⟨[1], [8], 8⟩, true⟩ (bitMem 8 0 [0xF07F])), .arg (.array (vec 5 4 1) (idxMem [0]))] = .done (0, 0, 0) :=
  ⟨by decide +kernel, by decide +kernel⟩

/-- C148, false of the code: a slice of one item is refused by `NanInfCountFromSort`, for its distance. -/
theorem one_item_slice_failed :
    nanInf true (fun _ => true) [.arg (.array ⟨12, ⟨[1], [16], 8⟩, false⟩ fiveMem), .arg (.array (vec 5 4 1) (idxMem [0]))] = .failed := by decide +kernel

end Riptide.Bins.Sorted
