import Verif.Pack.CallProps
/-! Where `MakeiNext`, `GroupByPack32`, `GroupFromBinCount` and `BinCount` go wrong (C145), and examples for what they answer. -/
namespace Riptide.Pack.Call
open Riptide.Nums Riptide.Work Riptide.Pack.Spec Riptide.Pack.Call.Spec

/-- `n` numbers one after the other. -/
def line (type item n : Nat) : Arr := ⟨type, ⟨[n], [(item : Int)], item⟩, false⟩

/-- `malloc` with 2^40 bytes to give. -/
def some40 (bytes : Nat) : Bool := decide (bytes ≤ 2 ^ 40)

theorem line_keys : Keys (line 1 1 4) .i8 (intMem .i8 0 [1, 2, 1, -3]) [1, 2, 1, -3] :=
  ⟨by decide, by decide, by decide +kernel, by decide +kernel⟩
example : Gives some40 (IT.i8.bits / 8 * (2 + 1)) := by decide +kernel
example : makeiNext some40 (line 1 1 4) (intMem .i8 0 [1, 2, 1, -3]) 2 0 = .ok [some 2, some (-128), some (-128), none] ∧
    makeiNext some40 (line 1 1 4) (intMem .i8 0 [1, 2, 1, -3]) 2 7 = .ok [some (-128), some (-128), some 0, none] := by decide +kernel
example : makeiNext some40 (line 2 1 4) (intMem .i8 0 [1, 2, 1, -3]) 2 0 = .typeRefused := by decide +kernel

theorem line_keys64 : Keys (line 9 8 3) .i64 (intMem .i64 0 [1, 2, 1]) [1, 2, 1] := ⟨by decide, by decide, by decide +kernel, by decide +kernel⟩
theorem line_links : Keys (line 5 4 3) .i32 (intMem .i32 0 [2, -1, -1]) [2, -1, -1] := ⟨by decide, by decide, by decide +kernel, by decide +kernel⟩
/-- The hypotheses of `pack_partial` and `pack_links_partial`. -/
example : Gives some40 (4 * (2 + 1)) ∧ Gives some40 (4 * 3) ∧ (∀ (i : Nat) (x : Int), [1, 2, 1][i]? = some x → 0 ≤ x ∧ x ≤ ((2 : Nat) : Int)) := by
  refine ⟨by decide +kernel, by decide +kernel, ?_⟩
  intro i x h
  match i with
  | 0 | 1 | 2 => simp at h; omega
  | i + 3 => simp at h
example : Numbered [1, 2, 1] 2 := by
  refine ⟨?_, ?_, ?_⟩
  · intro i k h
    match i with
    | 0 | 1 | 2 => simp at h; omega
    | i + 3 => simp at h
  · intro b h1 h2
    have : b = 1 ∨ b = 2 := by omega
    rcases this with rfl | rfl
    · exact ⟨0, rfl⟩
    · exact ⟨1, rfl⟩
  · intro i b h1 h
    match i with
    | 0 => simp at h; omega
    | 1 => simp at h; exact ⟨0, by omega, by simp; omega⟩
    | 2 => simp at h; omega
    | i + 3 => simp at h
example : NextLink [1, 2, 1] (-1) 0 2 := .inl ⟨2, rfl, by omega, by decide, rfl, fun m h1 h2 => by
  have : m = 1 := by omega
  subst this; decide⟩
example : pack32 some40 (line 9 8 3) (intMem .i64 0 [1, 2, 1]) none 2 =
      .ok ([some 0, some 2, some 1], [some 0, some 0, some 2], [some 0, some 2, some 1]) ∧
    pack32 some40 (line 9 8 3) (intMem .i64 0 [1, 2, 1]) (some (line 5 4 3, intMem .i32 0 [2, -1, -1])) 2 =
      .ok ([some 0, some 2, some 1], [some (-1), some 0, some 2], [some 0, some 2, some 1]) := by decide +kernel
example : pack32 some40 (line 12 8 3) (intMem .i64 0 [1, 2, 1]) none 2 = .typeRefused ∧
    pack32 some40 (line 7 8 3) (intMem .i64 0 [1, 2, 1]) (some (line 5 4 2, intMem .i32 0 [2, -1])) 2 = .lengths := by decide +kernel

/-- Keys and counts for `GroupFromBinCount`. -/
example : CountsOf 3 (line 5 4 3) (intMem .i32 0 [0, 2, 1]) [0, 2, 1] ∧ (∀ b : Nat, b < 3 → ([0, 2, 1] : List Int)[b]? = some ([1, 2, 1].count (b : Int) : Int)) ∧
    groupFromCount (line 9 8 3) (intMem .i64 0 [1, 2, 1]) (line 5 4 3) (intMem .i32 0 [0, 2, 1]) 4 true
      (bandJob [1, 2, 1] [0, 2, 1] (0, 3)) = .ok ([some 0, some 2, some 1], [some 0, some 0, some 2]) := by
  refine ⟨⟨fun _ => ⟨rfl, by decide, by decide, by decide +kernel, by decide +kernel⟩, fun h => absurd h (by decide)⟩, by decide, by decide +kernel⟩
example : groupFromCount (line 9 8 3) (intMem .i64 0 [1, 2, 1]) (line 7 8 3) (intMem .i64 0 [0, 2, 1]) 4 true [] = .typeRefused := by decide +kernel
/-- `BinCount`. -/
example : ∀ x, x ≤ 31 * 3 * 8 → Gives some40 x := by
  intro x h
  unfold Gives some40
  simp
  omega
example : binCountCall some40 (line 9 8 3) (intMem .i64 0 [1, 2, 1]) 3 false true 4 [] [] = .ok (.one [0, 2, 1]) ∧
    binCountCall some40 (line 9 8 3) (intMem .i64 0 [1, 2, 1]) 3 true true 1 [0] (packJob [1, 2, 1] 3 (segmentBins 3 1 31) 0) =
      .ok (.three ([some 0, some 2, some 1], [some 0, some 2, some 1], [some 0, some 0, some 2])) := by decide +kernel

/-! ## Layouts which none of the calls looks at -/

/-- C145, false of the code: of every second key the call links the first half of all keys. -/
theorem strided_next_wrong :
    Ints .i8 ⟨1, ⟨[2], [2], 1⟩, false⟩ (intMem .i8 0 [1, 2, 1, 2]) [1, 1] ∧
    makeiNext some40 ⟨1, ⟨[2], [2], 1⟩, false⟩ (intMem .i8 0 [1, 2, 1, 2]) 2 0 = .ok [some (-128), some (-128)] ∧
    makeiNext some40 (line 1 1 2) (intMem .i8 0 [1, 1]) 2 0 = .ok [some 1, some (-128)] := by decide +kernel

/-- C145, false of the code: keys in the other order of bytes are other keys, and nothing is written. -/
theorem swapped_next_wrong :
    Ints .i16 ⟨3, ⟨[2], [2], 2⟩, true⟩ (intMem .i16 0 [256, 256]) [1, 1] ∧
    makeiNext some40 ⟨3, ⟨[2], [2], 2⟩, true⟩ (intMem .i16 0 [256, 256]) 2 0 = .ok [none, none] := by decide +kernel

/-- C145, false of the code: of every second key the call packs the first half of all keys. -/
theorem strided_pack_wrong :
    Ints .i8 ⟨1, ⟨[2], [2], 1⟩, false⟩ (intMem .i8 0 [1, 2, 1, 2]) [1, 1] ∧
    pack32 some40 ⟨1, ⟨[2], [2], 1⟩, false⟩ (intMem .i8 0 [1, 2, 1, 2]) none 2 =
      .ok ([some 0, some 1], [some 0, some 0, some 1], [some 0, some 1, some 1]) ∧
    rowsOf [1, 1] 2 = [] := by decide +kernel

/-- C145, false of the code: for keys in reverse order the call writes outside its scratch array or reads what lies behind the keys. -/
theorem reversed_pack_undefined :
    Ints .i8 ⟨1, ⟨[2], [-1], 1⟩, false⟩ (intMem .i8 (-1) [1, 2]) [2, 1] ∧
    pack32 some40 ⟨1, ⟨[2], [-1], 1⟩, false⟩ (intMem .i8 (-1) [1, 2]) none 2 = .undefined := by decide +kernel

/-- C145, false of the code: keys in the other order of bytes are written outside the scratch array. -/
theorem swapped_pack_undefined :
    Ints .i16 ⟨3, ⟨[1], [2], 2⟩, true⟩ (intMem .i16 0 [256]) [1] ∧
    pack32 some40 ⟨3, ⟨[1], [2], 2⟩, true⟩ (intMem .i16 0 [256]) none 1 = .undefined := by decide +kernel

/-- C145, false of the code: of every second key the first half of all keys is counted. -/
theorem strided_count_wrong :
    Ints .i8 ⟨1, ⟨[2], [2], 1⟩, false⟩ (intMem .i8 0 [1, 2, 1, 2]) [1, 1] ∧
    binCountCall some40 ⟨1, ⟨[2], [2], 1⟩, false⟩ (intMem .i8 0 [1, 2, 1, 2]) 3 false true 4 [] [] = .ok (.one [0, 1, 1]) := by decide +kernel

/-- C145, false of the code: keys in the other order of bytes are not counted. -/
theorem swapped_count_wrong :
    Ints .i16 ⟨3, ⟨[2], [2], 2⟩, true⟩ (intMem .i16 0 [256, 256]) [1, 1] ∧
    binCountCall some40 ⟨3, ⟨[2], [2], 2⟩, true⟩ (intMem .i16 0 [256, 256]) 3 false true 4 [] [] = .ok (.one [0, 0, 0]) := by decide +kernel

/-- C145, false of the code: of every second count the first half of all counts is used, and rows are written over each other. -/
theorem strided_counts_wrong :
    Ints .i32 ⟨5, ⟨[2], [8], 4⟩, false⟩ (intMem .i32 0 [1, 0, 1, 0]) [1, 1] ∧
    groupFromCount (line 1 1 2) (intMem .i8 0 [0, 1]) ⟨5, ⟨[2], [8], 4⟩, false⟩ (intMem .i32 0 [1, 0, 1, 0]) 4 true
      (bandJob [0, 1] [1, 0] (0, 2)) = .ok ([some 0, some 1], [some 0, some 2]) ∧
    groupFromCount (line 1 1 2) (intMem .i8 0 [0, 1]) (line 5 4 2) (intMem .i32 0 [1, 1]) 4 true
      (bandJob [0, 1] [1, 1] (0, 2)) = .ok ([some 0, some 1], [some 0, some 1]) := by decide +kernel

/-- Counts of type int64, as `numpy.bincount` gives them, are refused for up to 2000000000 rows. -/
theorem int64_counts_refused (a : Arr) (m : Mem) (n : Nat) (cm : Mem) (fw : Nat) (nt : Bool) (seq : List Ev) (h : a.lay.len ≤ 2000000000) :
    groupFromCount a m (line 7 8 n) cm fw nt seq = .typeRefused := by
  apply count_type_refused
  rw [if_neg (by omega)]
  show (7 : Nat) ≠ 5
  decide

/-! ## Types -/

/-- C145, false of the code: keys of another type, such as unsigned integers, are not refused: a null pointer is called. -/
theorem count_type_undefined (room : Nat → Bool) (a : Arr) (m : Mem) (unique : Int) (nt : Bool) (fw : Nat) (calls : List Nat) (seq : List Ev)
    (ht : a.type ∉ [1, 3, 5, 7, 9]) (hu : 0 < unique) (hn : 0 < a.lay.len) (hs : a.lay.len ≤ 32000) :
    binCountCall room a m unique false nt fw calls seq = .undefined := by
  have hc : cored a.lay.len unique.toNat false nt = false := by
    unfold cored
    simp
    omega
  unfold binCountCall
  rw [if_neg (by omega), if_neg (by omega), hc, if_neg (by simp), if_neg (by simp), keyType_none ht]
example : (line 6 4 3).type ∉ [1, 3, 5, 7, 9] ∧ binCountCall some40 (line 6 4 3) (intMem .u32 0 [1, 2, 1]) 3 false true 4 [] [] = .undefined := by decide +kernel

/-- C145, false of the code: the same in `GroupFromBinCount`. -/
theorem group_type_undefined (a c : Arr) (m cm : Mem) (fw : Nat) (nt : Bool) (seq : List Ev) (ht : a.type ∉ [1, 3, 5, 7, 9]) (hc : c.type = 5)
    (hs : a.lay.len ≤ 32000) : groupFromCount a m c cm fw nt seq = .undefined := by
  unfold groupFromCount
  rw [if_neg (by unfold outNo; rw [if_neg (by omega), hc]; decide)]
  split
  · rfl
  · rw [keyType_none ht]
    simp only
    rw [if_neg]
    unfold packBands
    rw [if_neg (by omega)]
    simp
example : groupFromCount (line 2 1 2) (intMem .u8 0 [0, 1]) (line 5 4 2) (intMem .i32 0 [1, 1]) 4 true [] = .undefined := by decide +kernel

/-- C145, false of the code: links of type int64 are read as int32, two for each; row 2 is never packed, or the chain has no end. -/
theorem int64_links_wrong :
    Ints .i64 (line 7 8 3) (intMem .i64 0 [-1, 2, -1]) [-1, 2, -1] ∧
    pack32 some40 (line 9 8 3) (intMem .i64 0 [1, 2, 2]) (some (line 7 8 3, intMem .i64 0 [-1, 2, -1])) 2 =
      .ok ([some 0, some 1, none], [some (-1), some 0, some 1], [some 0, some 1, some 1]) ∧
    Ints .i64 (line 7 8 3) (intMem .i64 0 [1, 2, -1]) [1, 2, -1] ∧
    pack32 some40 (line 9 8 3) (intMem .i64 0 [1, 1, 1]) (some (line 7 8 3, intMem .i64 0 [1, 2, -1])) 1 = .undefined := by decide +kernel

/-- C145, false of the code: links of type int8, such as `MakeiNext` gives for int8 keys, are read as int32 and beyond their end. -/
theorem int8_links_undefined :
    makeiNext some40 (line 1 1 2) (intMem .i8 0 [1, 1]) 1 0 = .ok [some 1, some (-128)] ∧
    pack32 some40 (line 1 1 2) (intMem .i8 0 [1, 1]) (some (line 1 1 2, intMem .i8 0 [1, -128])) 1 = .undefined := by decide +kernel

/-- C145, false of the code: the links which `MakeiNext` gives for int32 keys end with the smallest int32, not with -1, so that the packing reads
outside of them. -/
theorem own_links_undefined :
    makeiNext some40 (line 5 4 2) (intMem .i32 0 [1, 1]) 1 0 = .ok [some 1, some (-2147483648)] ∧
    pack32 some40 (line 5 4 2) (intMem .i32 0 [1, 1]) (some (line 5 4 2, intMem .i32 0 [1, -2147483648])) 1 = .undefined := by decide +kernel

/-! ## The number of groups, and memory -/

/-- C145, false of the code: without memory for the scratch array there is no error: the answer is never written. -/
theorem next_no_memory_unwritten (a : Arr) (m : Mem) (bins : Nat) (mode : Int) (hu : (bins : Int) < 2 ^ 63 - 1) (ht : a.type ∈ [1, 3, 5, 7, 9])
    (hi : a.lay.item ∈ [1, 2, 4, 8]) : makeiNext (fun _ => false) a m (bins : Int) mode = .ok (List.replicate a.lay.len none) := by
  have h1 : ∃ t, sizeType a.lay.item = some t := by
    simp only [List.mem_cons, List.not_mem_nil, or_false] at hi
    rcases hi with h | h | h | h <;> rw [h] <;> exact ⟨_, rfl⟩
  obtain ⟨t, h1⟩ := h1
  unfold makeiNext
  rw [if_neg (by simp only [List.mem_cons, List.not_mem_nil, or_false] at ht; omega), h1]
  simp only
  unfold nextKernel
  rw [if_neg (by simpa using bins_range hu)]
  simp [fmAlloc, Result.of]

/-- C145, false of the code: -1 groups leave the answer unwritten; -2 groups write the guard outside of its block. -/
theorem next_negative_wrong :
    makeiNext some40 (line 7 8 2) (intMem .i64 0 [1, 1]) (-1) 0 = .ok [none, none] ∧
    makeiNext some40 (line 7 8 2) (intMem .i64 0 [1, 1]) (-2) 0 = .undefined ∧
    makeiNext some40 (line 7 8 2) (intMem .i64 0 [1, 1]) (-4) 0 = .ok [none, none] := by decide +kernel

/-- C145, false of the code: 2^61 groups of int64 keys ask for 8 bytes, and are all marked in them. -/
theorem next_many_groups_undefined :
    makeiNext some40 (line 7 8 2) (intMem .i64 0 [1, 1]) (2 ^ 61) 0 = .undefined := by decide +kernel

/-- C145, false of the code: -1 groups are not refused, with or without links. -/
theorem pack_negative_undefined :
    pack32 some40 (line 7 8 2) (intMem .i64 0 [0, 0]) none (-1) = .undefined ∧
    pack32 some40 (line 7 8 2) (intMem .i64 0 [0, 0]) (some (line 5 4 2, intMem .i32 0 [1, -1])) (-1) = .undefined ∧
    pack32 some40 (line 7 8 2) (intMem .i64 0 [0, 0]) (some (line 5 4 2, intMem .i32 0 [1, -1])) (-2) = .failed :=
  ⟨by decide +kernel, by decide +kernel, by decide +kernel⟩

/-- C145, false of the code: -7 groups ask for a scratch array of nearly 2^64 bytes; without links it is written to though there is none. -/
theorem pack_negative_null_undefined : pack32 some40 (line 7 8 2) (intMem .i64 0 [0, 0]) none (-7) = .undefined := by decide +kernel

/-- C145, false of the code: without memory for its scratch array the packing writes to a null pointer. -/
theorem pack_no_memory_undefined (a : Arr) (m : Mem) (bins : Nat) (hu : (bins : Int) < 2 ^ 63 - 1) (ht : a.type ∈ [1, 3, 5, 7, 9]) :
    pack32 (fun _ => false) a m none (bins : Int) = .undefined := by
  have h1 : ∃ t, keyType a.type = some t := by
    simp only [List.mem_cons, List.not_mem_nil, or_false] at ht
    rcases ht with h | h | h | h | h <;> rw [h] <;> exact ⟨_, rfl⟩
  obtain ⟨t, h1⟩ := h1
  unfold pack32
  rw [if_neg (by simpa using bins_range hu)]
  simp only
  rw [h1, if_neg (by simp [fmAlloc])]
  simp only
  unfold packNoLinks
  rw [if_pos (by right; right; simp [fmAlloc, Alloc.cap]; omega)]

/-- C145, false of the code: without memory for the counts of the cores, `NULL` is returned and no exception is set. -/
theorem count_no_memory_silent (a : Arr) (m : Mem) (unique : Int) (nt : Bool) (fw : Nat) (calls : List Nat) (seq : List Ev)
    (hu : 0 < unique) (hn : 0 < a.lay.len) : binCountCall (fun _ => false) a m unique true nt fw calls seq = .silent := by
  unfold binCountCall
  rw [if_neg (by omega), if_neg (by omega), if_pos ⟨by simp [cored], by simp [fmAlloc]⟩]

end Riptide.Pack.Call
