import Verif.Arrays.InfoProps
/-! Where the list of arrays is not taken as it should be (C147), and cases which meet the conditions of the theorems. -/
namespace Riptide.Nums.Info
open Riptide.Nums

/-- An array of one dimension. -/
def vec (type item : Nat) (n : Nat) (s : Int) : Arr := ⟨type, ⟨[n], [s], item⟩, false⟩

/-- Every second int16 and two int8, both of two rows. -/
def two : List Arg := [.array (vec 3 2 2 4) (intMem .i16 0 [7, 8, 9, 10]), .array (vec 1 1 2 1) (intMem .i8 0 [5, 6])]

/-- What an entry tells, with its bytes. -/
structure Seen where
  there : Bool
  type : Nat
  item : Nat
  ndim : Nat
  len : Nat
  copied : Bool
  bytes : List (Option (BitVec 8))
deriving DecidableEq

/-- What a result tells. -/
def seen : Result → Option (List Seen × Nat)
  | .ok l total => some (l.map fun e => ⟨e.there, e.type, e.item, e.ndim, e.len, e.copied, (List.range (e.len * e.item)).map fun (k : Nat) => e.data k⟩, total)
  | _ => none

/-- Whether a result is an exception, `NULL` without one, or undefined behaviour. -/
def kind : Result → Nat
  | .refused => 0
  | .silent => 1
  | .undefined => 2
  | .ok .. => 3

theorem kind_refused {r : Result} : kind r = 0 ↔ r = .refused := by cases r <;> simp [kind]

theorem kind_silent {r : Result} : kind r = 1 ↔ r = .silent := by cases r <;> simp [kind]

theorem kind_undefined {r : Result} : kind r = 2 ↔ r = .undefined := by cases r <;> simp [kind]

/-! ## Cases -/

example : ∀ x ∈ two, Row 2 x := by
  intro x hx
  simp only [two, List.mem_cons, List.not_mem_nil, or_false] at hx
  rcases hx with rfl | rfl
  · exact ⟨by decide, rfl, 4, rfl, by simp⟩
  · exact ⟨by decide, rfl, 1, rfl, by simp⟩

example : Bits 2 (vec 3 2 2 4) (intMem .i16 0 [7, 8, 9, 10]) [7, 9] := by decide +kernel

/-- The strided array is copied, the other one is taken as it is. -/
theorem two_built : seen (build true (fun _ => true) true true (.items two)) =
    some ([⟨true, 3, 2, 1, 2, true, [some 7, some 0, some 9, some 0]⟩, ⟨true, 1, 1, 1, 2, false, [some 5, some 6]⟩], 3) := by decide +kernel

example : Row 0 .pyNone ∧ Row 0 (.array (vec 3 2 0 2) fun _ => none) := ⟨rfl, by decide, rfl, 2, rfl, by simp⟩

/-! ## What is refused -/

/-- Anything but an array, a list and a tuple is refused. -/
theorem other_refused (table : Bool) (room : Nat → Bool) (checkrows convert : Bool) : build table room checkrows convert .other = .refused := rfl

theorem entries_error {checkrows convert : Bool} {room : Nat → Bool} {x : Arg} {b : Bool} (l r : List Arg) (i : Nat) (es : List Entry)
    (hl : entries checkrows convert room i l = .ok es) (hx : entry checkrows convert (room (i + l.length)) x = .error b) :
    entries checkrows convert room i (l ++ x :: r) = .error b := by
  induction l generalizing i es with
  | nil =>
    show entries checkrows convert room i (x :: r) = _
    unfold entries
    simp only [List.length_nil, Nat.add_zero] at hx
    rw [hx]
  | cons y l ih =>
    show entries checkrows convert room i (y :: (l ++ x :: r)) = _
    unfold entries at hl ⊢
    cases hy : entry checkrows convert (room i) y with
    | error e => rw [hy] at hl; cases hl
    | ok e =>
      rw [hy] at hl
      simp only at hl ⊢
      cases hr : entries checkrows convert room (i + 1) l with
      | error e => rw [hr] at hl; cases hl
      | ok fs =>
        rw [ih (i + 1) fs hr (by simpa [Nat.add_comm, Nat.add_left_comm] using hx)]

/-- The first item of a list which is neither an array nor `None` is refused. -/
theorem other_item_refused (room : Nat → Bool) (checkrows convert : Bool) (l r : List Arg) (es : List Entry)
    (h : entries checkrows convert room 0 l = .ok es) : build true room checkrows convert (.items (l ++ .other :: r)) = .refused := by
  unfold build
  simp only [Obj.list]
  rw [if_neg (by decide), entries_error l r 0 es h rfl]

/-- An array of a type numpy got later, as a date, is refused, whatever is asked for. -/
theorem date_refused (room : Nat → Bool) (checkrows convert : Bool) (a : Arr) (m : Mem) (h : 20 < a.type) :
    build true room checkrows convert (.one a m) = .refused := by
  have : entry checkrows convert (room 0) (.array a m) = .error true := by
    unfold entry
    simp only
    unfold taken ensure
    split
    · next _ ht =>
      rfl
    · next b mb c ht =>
      have hb : b.type = a.type := by
        split at ht
        · split at ht
          · cases ht; rfl
          · split at ht
            · cases ht; rfl
            · cases ht
        · cases ht; rfl
      unfold entryOf
      rw [if_pos (by omega)]
  unfold build
  simp only [Obj.list]
  rw [if_neg (by decide)]
  unfold entries
  rw [this]

/-- Without memory for the copy of a strided array there is an exception. -/
theorem no_copy_refused : build true (fun _ => false) true true (.items two) = .refused := kind_refused.1 (by decide +kernel)

/-- Arrays of different lengths are refused with the check of rows only. -/
theorem lengths_refused :
    build true (fun _ => true) true true (.items [.array (vec 1 1 2 1) (intMem .i8 0 [5, 6]), .array (vec 1 1 1 1) (intMem .i8 0 [5])]) = .refused ∧
    seen (build true (fun _ => true) false true (.items [.array (vec 1 1 2 1) (intMem .i8 0 [5, 6]), .array (vec 1 1 1 1) (intMem .i8 0 [5])])) =
      some ([⟨true, 1, 1, 1, 2, false, [some 5, some 6]⟩, ⟨true, 1, 1, 1, 1, false, [some 5]⟩], 2) :=
  ⟨kind_refused.1 (by decide +kernel), by decide +kernel⟩

/-- A matrix is refused with the check of rows only; `None` beside an array with rows is refused. -/
theorem matrix_refused :
    build true (fun _ => true) true true (.one ⟨1, ⟨[2, 2], [2, 1], 1⟩, false⟩ (intMem .i8 0 [1, 2, 3, 4])) = .refused ∧
    seen (build true (fun _ => true) false true (.one ⟨1, ⟨[2, 2], [2, 1], 1⟩, false⟩ (intMem .i8 0 [1, 2, 3, 4]))) =
      some ([⟨true, 1, 1, 2, 4, false, [some 1, some 2, some 3, some 4]⟩], 1) ∧
    build true (fun _ => true) true true (.items [.array (vec 1 1 2 1) (intMem .i8 0 [5, 6]), .pyNone]) = .refused :=
  ⟨kind_refused.1 (by decide +kernel), by decide +kernel, kind_refused.1 (by decide +kernel)⟩

/-- Without conversion a strided array of one dimension is refused. -/
theorem strided_refused (room : Nat → Bool) (checkrows : Bool) (type item n : Nat) (s : Int) (m : Mem) (hs : s ≠ item) (hn : 0 < n) :
    build true room checkrows false (.one (vec type item n s) m) = .refused := by
  unfold build
  simp only [Obj.list]
  rw [if_neg (by decide)]
  have : entry checkrows false (room 0) (.array (vec type item n s) m) = .error true := by
    unfold entry taken
    simp only [Bool.false_eq_true, if_false]
    unfold entryOf
    by_cases h : 20 < (vec type item n s).type
    · rw [if_pos h]
    · rw [if_neg h]
      show (if checkrows = true ∧ (vec type item n s).lay.dims.length ≠ 1 then _ else if s ≠ item ∧ 0 < (vec type item n s).lay.len ∧
        (vec type item n s).lay.dims.length = 1 then _ else _) = _
      rw [if_neg (by simp [vec]), if_pos ⟨hs, by simpa [vec, Binary.Lay.len, Binary.prod] using hn, by simp [vec]⟩]
  unfold entries
  rw [this]

/-! ## Where it goes wrong -/

/-- C147, false of the code: for an array without dimensions the first distance is read through a null pointer, before the number of dimensions is
looked at. -/
theorem scalar_array_undefined (room : Nat → Bool) (checkrows convert : Bool) (type item : Nat) (m : Mem) (h : type ≤ 20) :
    build true room checkrows convert (.one ⟨type, ⟨[], [], item⟩, false⟩ m) = .undefined := by
  have h1 : taken convert (room 0) ⟨type, ⟨[], [], item⟩, false⟩ m = some (⟨type, ⟨[], [], item⟩, false⟩, m, false) := by
    unfold taken ensure
    cases convert
    · rfl
    · simp [Binary.Lay.cContig, Binary.sameStrides, Binary.cStrides]
  unfold build
  simp only [Obj.list]
  rw [if_neg (by decide)]
  unfold entries entry
  simp only
  rw [h1]
  simp only
  unfold entryOf
  rw [if_neg (by simp only; omega)]

/-- C147, false of the code: a slice with one item, as `a[::2]` of two items, is contiguous for numpy and is not copied, and is refused for its
distance. -/
theorem one_item_slice_refused :
    Bits 2 (vec 3 2 1 4) (intMem .i16 0 [7, 8]) [7] ∧
    build true (fun _ => true) true true (.one (vec 3 2 1 4) (intMem .i16 0 [7, 8])) = .refused ∧
    build true (fun _ => true) false true (.one (vec 3 2 1 4) (intMem .i16 0 [7, 8])) = .refused :=
  ⟨by decide +kernel, kind_refused.1 (by decide +kernel), kind_refused.1 (by decide +kernel)⟩

/-- A slice with one item is refused always, if its distance is not the size of an item. -/
theorem one_item_refused (room : Nat → Bool) (checkrows convert : Bool) (type item : Nat) (s : Int) (m : Mem) (hs : s ≠ item) :
    build true room checkrows convert (.one (vec type item 1 s) m) = .refused := by
  cases convert with
  | false => exact strided_refused room checkrows type item 1 s m hs (by omega)
  | true =>
    have h1 : taken true (room 0) (vec type item 1 s) m = some (vec type item 1 s, m, false) := by
      unfold taken ensure
      simp [vec, Binary.Lay.cContig, Binary.sameStrides, Binary.cStrides]
    have h2 := strided_refused room checkrows type item 1 s m hs (by omega)
    unfold build at h2 ⊢
    simp only [Obj.list] at h2 ⊢
    unfold entries entry at h2 ⊢
    simp only at h2 ⊢
    rw [h1]
    exact h2

/-- C147, false of the code: `None` alone, and `None` beside empty arrays, is accepted without an array. -/
theorem none_accepted :
    seen (build true (fun _ => true) true true (.items [.pyNone])) = some ([⟨false, 0, 0, 0, 0, false, []⟩], 0) ∧
    seen (build true (fun _ => true) true true (.items [.array (vec 3 2 0 2) fun _ => none, .pyNone])) =
      some ([⟨true, 3, 2, 1, 0, false, []⟩, ⟨false, 0, 0, 0, 0, false, []⟩], 2) := by decide +kernel

/-- An empty list is accepted. -/
theorem no_arrays_accepted (room : Nat → Bool) (checkrows convert : Bool) : build true room checkrows convert (.items []) = .ok [] 0 := rfl

/-- A cube of int8 with axes in another order, every second item of its memory. -/
def cube : Arr := ⟨1, ⟨[2, 2, 2], [4, 8, 2], 1⟩, false⟩

/-- The memory of the cube. -/
def cubeMem : Mem := intMem .i8 0 [0, 100, 1, 100, 2, 100, 3, 100, 4, 100, 5, 100, 6, 100, 7, 100]

/-- C147, false of the code: the copy of an array with axes in another order keeps this order, so that it is contiguous in neither order either, and
its items do not lie one after the other. -/
theorem permuted_copy_wrong :
    Bits 1 cube cubeMem [0, 1, 4, 5, 2, 3, 6, 7] ∧
    seen (build true (fun _ => true) false true (.one cube cubeMem)) =
      some ([⟨true, 1, 1, 3, 8, true, [some 0, some 1, some 2, some 3, some 4, some 5, some 6, some 7]⟩], 1) ∧
    ((copyOf cube cubeMem).1.lay.cContig || (copyOf cube cubeMem).1.lay.fContig) = false ∧
    Bits 1 (copyOf cube cubeMem).1 (copyOf cube cubeMem).2 [0, 1, 4, 5, 2, 3, 6, 7] := by decide +kernel

/-- C147, false of the code: without conversion a matrix with strides is accepted as if its items lay one after the other. -/
theorem strided_matrix_accepted :
    Bits 1 ⟨1, ⟨[2, 2], [4, 2], 1⟩, false⟩ (intMem .i8 0 [1, 2, 3, 4, 5, 6, 7, 8]) [1, 3, 5, 7] ∧
    seen (build true (fun _ => true) false false (.one ⟨1, ⟨[2, 2], [4, 2], 1⟩, false⟩ (intMem .i8 0 [1, 2, 3, 4, 5, 6, 7, 8]))) =
      some ([⟨true, 1, 1, 2, 4, false, [some 1, some 2, some 3, some 4]⟩], 1) := by decide +kernel

/-- C147, false of the code: the order of bytes is not kept, nor turned by the copy. -/
theorem swapped_copy_kept :
    Bits 2 ⟨3, ⟨[2], [4], 2⟩, true⟩ (intMem .i16 0 [256, 0, 512, 0]) [1, 2] ∧
    seen (build true (fun _ => true) true true (.one ⟨3, ⟨[2], [4], 2⟩, true⟩ (intMem .i16 0 [256, 0, 512, 0]))) =
      seen (build true (fun _ => true) true true (.one ⟨3, ⟨[2], [4], 2⟩, false⟩ (intMem .i16 0 [256, 0, 512, 0]))) := by decide +kernel

/-- C147, false of the code: without memory for the entries the first array is written through a null pointer; for an empty list `NULL` is returned
without an exception. -/
theorem no_table_undefined (room : Nat → Bool) (checkrows convert : Bool) (a : Arr) (m : Mem) (l : List Arg) :
    build false room checkrows convert (.items (.array a m :: l)) = .undefined ∧
    build false room checkrows convert (.items (.pyNone :: l)) = .undefined ∧
    build false room checkrows convert (.items (.other :: l)) = .refused ∧
    build false room checkrows convert (.items []) = .silent := ⟨rfl, rfl, rfl, rfl⟩

/-- Two memory layouts of a strided array: reversed, and repeated by a distance of 0. -/
theorem odd_strides_built :
    seen (build true (fun _ => true) true true (.one (vec 1 1 3 (-1)) (intMem .i8 (-2) [1, 2, 3]))) = some ([⟨true, 1, 1, 1, 3, true, [some 3, some 2, some 1]⟩], 1) ∧
    seen (build true (fun _ => true) true true (.one (vec 3 2 3 0) (intMem .i16 0 [9]))) =
      some ([⟨true, 3, 2, 1, 3, true, [some 9, some 0, some 9, some 0, some 9, some 0]⟩], 2) := by decide +kernel

end Riptide.Nums.Info
