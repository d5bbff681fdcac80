import Verif.Arrays.AssignCallPut
/-! Where `SetItem`, `PutMask` and `ApplyRows` go wrong (C158), and arrays for which they do not. -/
namespace Riptide.Nums.Assign
open Spec Riptide.Nums Riptide.Arrays Riptide.Binary Riptide.Work
open Riptide.Nums.Stack.Spec (HasVal)
open Riptide.Convert.Call (Wide)

/-- Bytes of the memory after a call. -/
def after : Reply → Int → Nat → List (Option (BitVec 8))
  | .done M, o, n => bytes M o n
  | _, _, _ => []

theorem after_done {r : Reply} {o : Int} {n : Nat} {l : List (Option (BitVec 8))} (h : after r o n = l) (hl : l ≠ []) : ∃ M, r = .done M ∧ bytes M o n = l := by
  cases r with
  | done M => exact ⟨M, rfl, h⟩
  | error => exact absurd h.symm hl
  | refused p => exact absurd h.symm hl
  | undefined => exact absurd h.symm hl

/-- Whether a call had no defined behaviour. -/
def lost : Reply → Bool
  | .undefined => true
  | _ => false

theorem of_lost {r : Reply} (h : lost r = true) : r = .undefined := by
  cases r with
  | undefined => rfl
  | _ => cases h

theorem bytes_at {M : Mem} {o : Int} {n : Nat} {l : List (Option (BitVec 8))} (h : bytes M o n = l) {k m : Nat} (hk : k + m ≤ n) : bytes M (o + k) m = (l.drop k).take m := by
  subst h
  apply List.ext_getElem?
  intro i
  unfold bytes
  by_cases hi : i < m
  · rw [List.getElem?_take, if_pos hi, List.getElem?_drop, List.getElem?_map, List.getElem?_map, List.getElem?_range hi, List.getElem?_range (by omega)]
    simp only [Option.map_some]
    congr 2; omega
  · rw [List.getElem?_eq_none (by simp; omega), List.getElem?_eq_none (by simp; omega)]

/-- Bytes from 0 on. -/
def ram (l : List (BitVec 8)) : Mem := memOf 0 l

/-- An array of one dimension. -/
def line (base : Int) (type n : Nat) (stride : Int) (item : Nat) : View := ⟨base, type, ⟨[n], [stride], item⟩, false, true, 1⟩

/-- A machine for which casts of floats are not looked at. -/
def wide : Wide := ⟨fun _ _ x => some x, fun _ => true, fun x => decide (x = 0), 0⟩

/-! ### SetItem -/

/-- Three arrays of the same type, one after the other in memory: `[1, 2, 3]`, the mask `[T, F, T]`, and `[8, 9]`. -/
def good : Mem := ram [1, 2, 3, 1, 0, 1, 8, 9]

example : after (setItem true good (.three (.array (line 0 1 3 1 1)) (.array (line 3 0 3 1 1)) (.array (line 6 1 2 1 1))) [] []) 0 8 =
    [some 8, some 2, some 9, some 1, some 0, some 1, some 8, some 9] := by decide +kernel
theorem packed_line {M : Mem} {base : Int} {type n item : Nat} (h : ∀ (i : Nat), i < item * n → (M (base + i)).isSome = true) : Packed M (line base type n item item) := by
  have e : (line base type n item item).lay.len = n := by show n * 1 = n; omega
  refine ⟨rfl, ?_, ?_⟩
  · intro k hk
    have e2 : Riptide.Mask.Call.Spec.inC [n] [(item : Int)] = (List.range n).map fun (i : Nat) => (i : Int) * (item : Int) := Riptide.Nums.Info.inC_one n item
    show (Riptide.Mask.Call.Spec.inC [n] [(item : Int)])[k]? = some ((k : Int) * (item : Int))
    have hk' : k < (Riptide.Mask.Call.Spec.inC [n] [(item : Int)]).length := hk
    rw [e2] at hk' ⊢
    rw [List.getElem?_map, List.getElem?_range (by simpa using hk')]
    rfl
  · intro p h1 h2
    rw [e] at h2
    have := h (p - base).toNat (by show (p - base).toNat < item * n; have h2 : p < base + ((item * n : Nat) : Int) := h2; have h1 : base ≤ p := h1; omega)
    rw [show base + ((p - base).toNat : Int) = p from by have h1 : base ≤ p := h1; omega] at this
    exact this
theorem good_trio : Trio good (line 0 1 3 1 1) (line 3 0 3 1 1) (line 6 1 2 1 1) :=
  ⟨packed_line (item := 1) (by decide), packed_line (item := 1) (by decide), packed_line (item := 1) (by decide), rfl, rfl, .inl (by decide), .inl (by decide)⟩
/-- The hypotheses of `set_item_partial` can be met, with both of its outcomes. -/
example : ∃ M', setItem true good (.three (.array (line 0 1 3 1 1)) (.array (line 3 0 3 1 1)) (.array (line 6 1 2 1 1))) [0] [0] = .done M' ∧
    Assigned good (line 0 1 3 1 1) (line 3 0 3 1 1) (line 6 1 2 1 1) M' :=
  (set_item_partial good_trio rfl rfl rfl (.inl rfl) (workers := 1) (nt := true) (.direct rfl) (.direct rfl)).1 (by decide)

/-- C158 is false of the code: when no array can be made of the value, the exception is left set and the answer is `False`. -/
theorem set_item_leaves_exception (room : Bool) (M : Mem) (arr mask : Given) (c1 c2 : List Nat) : setItem room M (.three arr mask (.made none)) c1 c2 = .refused true := by
  cases arr <;> cases mask <;> rfl

/-- C158 is false of the code: the strides are not looked at. The rows of the array are at 0 and 2; the second value goes to the byte between them. -/
theorem set_item_ignores_strides : ∃ M', setItem true (ram [1, 2, 3, 4, 1, 1, 8, 9]) (.three (.array (line 0 1 2 2 1)) (.array (line 4 0 2 1 1)) (.array (line 6 1 2 1 1))) [] [] =
      .done M' ∧ bytes M' 0 4 = [some 8, some 9, some 3, some 4] ∧ ¬Assigned (ram [1, 2, 3, 4, 1, 1, 8, 9]) (line 0 1 2 2 1) (line 4 0 2 1 1) (line 6 1 2 1 1) M' := by
  obtain ⟨M', h1, h2⟩ := after_done (show after (setItem true (ram [1, 2, 3, 4, 1, 1, 8, 9]) (.three (.array (line 0 1 2 2 1)) (.array (line 4 0 2 1 1)) (.array (line 6 1 2 1 1))) [] [])
    0 4 = [some 8, some 9, some 3, some 4] by decide +kernel) (by simp)
  refine ⟨M', h1, h2, ?_⟩
  intro ha
  have hr := ha.rest 1 (by decide)
  have := bytes_at h2 (k := 1) (m := 1) (by omega)
  simp [bytes] at this
  rw [hr] at this
  revert this
  decide

/-- C158 is false of the code: rows of an array which goes backwards are outside of its memory. -/
theorem set_item_backwards : setItem true (ram [1, 2, 3]) (.three (.array (line 1 1 2 (-1) 1)) (.array ⟨2, 0, ⟨[2], [0], 1⟩, false, true, 1⟩) (.array (line 0 1 2 1 1))) [] [] = .undefined := by
  exact of_lost (by decide +kernel)

/-- C158 is false of the code: an array which may not be written to is. -/
theorem set_item_writes_read_only : ∃ M', setItem true good (.three (.array { line 0 1 3 1 1 with writable := false }) (.array (line 3 0 3 1 1)) (.array (line 6 1 2 1 1))) [] [] =
    .done M' ∧ bytes M' 0 3 = [some 8, some 2, some 9] :=
  after_done (by decide +kernel) (by simp)

/-- C158 is false of the code: the order of bytes is not looked at. The value 1 becomes 256. -/
theorem set_item_ignores_byte_order : ∃ M', setItem true (ram [0, 0, 1, 0, 1]) (.three (.array (line 0 3 1 2 2)) (.array (line 2 0 1 1 1))
      (.array { line 3 3 1 2 2 with swapped := true })) [] [] = .done M' ∧
    HasInt .i16 true (ram [0, 0, 1, 0, 1]) 3 1 ∧ HasInt .i16 false M' 0 256 ∧ ¬Assigned (ram [0, 0, 1, 0, 1]) (line 0 3 1 2 2) (line 2 0 1 1 1) { line 3 3 1 2 2 with swapped := true } M' := by
  obtain ⟨M', h1, h2⟩ := after_done (show after (setItem true (ram [0, 0, 1, 0, 1]) (.three (.array (line 0 3 1 2 2)) (.array (line 2 0 1 1 1))
      (.array { line 3 3 1 2 2 with swapped := true })) [] []) 0 2 = [some 0, some 1] by decide +kernel) (by simp)
  have e0 : M' 0 = some 0 := by have := bytes_at h2 (k := 0) (m := 1) (by omega); simpa [bytes] using this
  have e1 : M' 1 = some 1 := by have := bytes_at h2 (k := 1) (m := 1) (by omega); simpa [bytes] using this
  refine ⟨M', h1, by decide +kernel, ⟨by decide, by decide, ?_⟩, ?_⟩
  · intro j hj
    have hj' : j < 2 := hj
    have : j = 0 ∨ j = 1 := by omega
    rcases this with rfl | rfl
    · exact e0
    · exact e1
  · intro ha
    obtain ⟨q, hq, hb⟩ := ha.row 0 0 (by decide) (by decide)
    have hq' : (3 : Int) = q := by
      have : (places { line 3 3 1 2 2 with swapped := true })[0]? = some 3 := by decide
      have hq2 : (places { line 3 3 1 2 2 with swapped := true })[0]? = some q := hq
      rw [this] at hq2
      exact Option.some.inj hq2
    subst hq'
    have hb2 : bytes M' 0 2 = ordered (line 0 3 1 2 2) { line 3 3 1 2 2 with swapped := true } (bytes (ram [0, 0, 1, 0, 1]) 3 2) := hb
    rw [h2] at hb2
    revert hb2
    decide

/-- C158 is false of the code: of dates only the type is compared. One day becomes one nanosecond. -/
theorem set_item_ignores_units : ∃ M', setItem true (ram [0, 0, 0, 0, 0, 0, 0, 0, 1, 1, 0, 0, 0, 0, 0, 0, 0]) (.three (.array { line 0 21 1 8 8 with unit := 24 }) (.array (line 8 0 1 1 1))
      (.array { line 9 21 1 8 8 with unit := 86400 })) [] [] = .done M' ∧ bytes M' 0 8 = [some 1, some 0, some 0, some 0, some 0, some 0, some 0, some 0] :=
  after_done (by decide +kernel) (by simp)

/-- C158 is false of the code: values which are part of the array are changed before they are used. `a[1:][all] = a[:3]` for `a = [1, 2, 3, 4]` gives `[1, 1, 1, 1]`. -/
theorem set_item_overlap : ∃ M', setItem true (ram [1, 2, 3, 4, 1, 1, 1]) (.three (.array (line 1 1 3 1 1)) (.array (line 4 0 3 1 1)) (.array (line 0 1 3 1 1))) [] [] = .done M' ∧
    bytes M' 0 4 = [some 1, some 1, some 1, some 1] ∧ ¬Assigned (ram [1, 2, 3, 4, 1, 1, 1]) (line 1 1 3 1 1) (line 4 0 3 1 1) (line 0 1 3 1 1) M' := by
  obtain ⟨M', h1, h2⟩ := after_done (show after (setItem true (ram [1, 2, 3, 4, 1, 1, 1]) (.three (.array (line 1 1 3 1 1)) (.array (line 4 0 3 1 1)) (.array (line 0 1 3 1 1))) [] [])
    0 4 = [some 1, some 1, some 1, some 1] by decide +kernel) (by simp)
  refine ⟨M', h1, h2, ?_⟩
  intro ha
  obtain ⟨q, hq, hb⟩ := ha.row 2 3 (by decide) (by decide)
  have hq' : (2 : Int) = q := by
    have : (places (line 0 1 3 1 1))[2]? = some 2 := by decide
    have hq2 : (places (line 0 1 3 1 1))[2]? = some q := hq
    rw [this] at hq2
    exact Option.some.inj hq2
  subst hq'
  have hb2 : bytes M' 3 1 = bytes (ram [1, 2, 3, 4, 1, 1, 1]) 2 1 := hb
  have := bytes_at h2 (k := 3) (m := 1) (by omega)
  rw [show (0 : Int) + ((3 : Nat) : Int) = 3 from rfl, hb2] at this
  revert this
  decide

/-- Texts of three bytes which overlap are copied with `memcpy`. -/
theorem set_item_overlapping_texts : setItem true (ram [1, 2, 3, 4, 5, 1]) (.three (.array (line 2 18 1 3 3)) (.array (line 5 0 1 1 1)) (.array (line 0 18 1 3 3))) [] [] = .undefined := by
  exact of_lost (by decide +kernel)

/-! ### PutMask -/

/-- `[7, 8, 9]` in 16 bits, the mask `[T, F, T]`, and `[-128, 1, 4]` in 8 bits: the first is riptide's invalid. -/
def puts : Mem := ram [7, 0, 8, 0, 9, 0, 1, 0, 1, 128, 1, 4]

example : after (putMask wide (fun _ => false) puts (.three (.array (line 0 3 3 2 2)) (.array (line 6 0 3 1 1)) (.array (line 9 1 3 1 1))) none) 0 6 =
    [some 0, some 128, some 8, some 0, some 4, some 0] := by decide +kernel
theorem puts_trio : Trio puts (line 0 3 3 2 2) (line 6 0 3 1 1) (line 9 1 3 1 1) :=
  ⟨packed_line (item := 2) (by decide), packed_line (item := 1) (by decide), packed_line (item := 1) (by decide), rfl, rfl, .inl (by decide), .inl (by decide)⟩
/-- The hypotheses of `put_mask_partial` can be met. -/
example : ∃ M', putMask wide (fun _ => false) puts (.three (.array (line 0 3 3 2 2)) (.array (line 6 0 3 1 1)) (.array (line 9 1 3 1 1))) none = .done M' ∧
    Replaced wide puts (line 0 3 3 2 2) (line 6 0 3 1 1) (line 9 1 3 1 1) M' := by
  refine put_mask_partial puts_trio rfl rfl rfl (by decide) (by decide) rfl rfl rfl rfl (.inr rfl) ?_ (.inr (by decide)) (.inl rfl) (workers := 4) (nt := true) (.direct (.inl (by decide)))
    (fun _ => by decide)
  intro j q hq ht
  have hj : j < 3 := by
    obtain ⟨hj, _⟩ := List.getElem?_eq_some_iff.1 hq
    exact hj
  have : j = 0 ∨ j = 1 ∨ j = 2 := by omega
  rcases this with rfl | rfl | rfl
  · rw [show (places (line 9 1 3 1 1))[0]? = some 9 by decide] at hq
    rw [← Option.some.inj hq]
    exact ⟨-128, ⟨by show IT.InRange ⟨8, true⟩ (-128); decide, by decide, fun j hj => by
      have : j = 0 := by have h : j < 1 := hj; omega
      subst this; decide⟩, 
      .inr ⟨by decide, by decide, by decide, (by intro f d hf; cases hf), (by intro f g hf; cases hf)⟩⟩
  · exact absurd ht (by decide)
  · rw [show (places (line 9 1 3 1 1))[2]? = some 11 by decide] at hq
    rw [← Option.some.inj hq]
    exact ⟨4, ⟨by show IT.InRange ⟨8, true⟩ 4; decide, by decide, fun j hj => by
      have : j = 0 := by have h : j < 1 := hj; omega
      subst this; decide⟩, 
      .inr ⟨by decide, by decide, by decide, (by intro f d hf; cases hf), (by intro f g hf; cases hf)⟩⟩

/-- C158 is false of the code: when no array can be made of the value, the type of a null pointer is looked at. -/
theorem put_mask_no_array (w : Wide) (nan : Int → Bool) (M : Mem) (arr mask : View) (par : Option (List Nat)) :
    putMask w nan M (.three (.array arr) (.array mask) (.made none)) par = .undefined := rfl

/-- C158 is false of the code: without threads 2^31 rows are counted with an `int`. -/
theorem put_mask_many_rows (w : Wide) (nan : Int → Bool) (M : Mem) : putMask w nan M (.three (.array (line 0 1 2147483648 1 1)) (.array (line 0 0 2147483648 1 1))
    (.array (line 0 1 2147483648 1 1))) none = .undefined := by
  show putArrays w nan M _ _ _ none = _
  unfold putArrays
  rw [if_pos (by decide), show putKern (line 0 1 2147483648 1 1).type (line 0 1 2147483648 1 1).type = some (.fast 1) from rfl]
  simp only
  unfold putRows
  rw [if_pos ⟨rfl, by decide⟩]

/-- C158 is false of the code: `False` becomes riptide's invalid. -/
theorem put_mask_false_invalid : ∃ M', putMask wide (fun _ => false) (ram [7, 0, 1, 0]) (.three (.array (line 0 3 1 2 2)) (.array (line 2 0 1 1 1)) (.array (line 3 0 1 1 1))) none = .done M' ∧
    bytes M' 0 2 = [some 0, some 128] ∧ HasInt .i16 false (ram [0, 128]) 0 (-32768) :=
  let ⟨M', h1, h2⟩ := after_done (show after (putMask wide (fun _ => false) (ram [7, 0, 1, 0]) (.three (.array (line 0 3 1 2 2)) (.array (line 2 0 1 1 1)) (.array (line 3 0 1 1 1))) none) 0 2 =
    [some 0, some 128] by decide +kernel) (by simp)
  ⟨M', h1, h2, by decide +kernel⟩

/-- C158 is false of the code: an array in Fortran order is taken for one in C order, as only its first stride is looked at. The mask has its only flag in row 0, column 1, of which the item of
the array is at 2; what is written is at 1. -/
theorem put_mask_fortran : ∃ M', putMask wide (fun _ => false) (ram [1, 2, 3, 4, 0, 1, 0, 0, 5, 6, 7, 8])
      (.three (.array ⟨0, 1, ⟨[2, 2], [1, 2], 1⟩, false, true, 1⟩) (.array ⟨4, 0, ⟨[2, 2], [2, 1], 1⟩, false, true, 1⟩) (.array ⟨8, 1, ⟨[2, 2], [2, 1], 1⟩, false, true, 1⟩)) none = .done M' ∧
    bytes M' 0 4 = [some 1, some 6, some 3, some 4] ∧
    ¬Replaced wide (ram [1, 2, 3, 4, 0, 1, 0, 0, 5, 6, 7, 8]) ⟨0, 1, ⟨[2, 2], [1, 2], 1⟩, false, true, 1⟩ ⟨4, 0, ⟨[2, 2], [2, 1], 1⟩, false, true, 1⟩ ⟨8, 1, ⟨[2, 2], [2, 1], 1⟩, false, true, 1⟩ M' := by
  obtain ⟨M', h1, h2⟩ := after_done (show after (putMask wide (fun _ => false) (ram [1, 2, 3, 4, 0, 1, 0, 0, 5, 6, 7, 8])
      (.three (.array ⟨0, 1, ⟨[2, 2], [1, 2], 1⟩, false, true, 1⟩) (.array ⟨4, 0, ⟨[2, 2], [2, 1], 1⟩, false, true, 1⟩) (.array ⟨8, 1, ⟨[2, 2], [2, 1], 1⟩, false, true, 1⟩)) none) 0 4 =
    [some 1, some 6, some 3, some 4] by decide +kernel) (by simp)
  refine ⟨M', h1, h2, ?_⟩
  intro hr
  have hk := hr.kept 2 1 (by decide) (by decide)
  have hk2 : bytes M' 1 1 = bytes (ram [1, 2, 3, 4, 0, 1, 0, 0, 5, 6, 7, 8]) 1 1 := hk
  have := bytes_at h2 (k := 1) (m := 1) (by omega)
  rw [show (0 : Int) + ((1 : Nat) : Int) = 1 from rfl, hk2] at this
  revert this
  decide

/-- C158 is false of the code: the strides of the mask and of the values are not looked at. The mask has false in both of its rows. -/
theorem put_mask_ignores_mask_stride : ∃ M', putMask wide (fun _ => false) (ram [1, 2, 0, 1, 0, 5, 6]) (.three (.array (line 0 1 2 1 1)) (.array (line 2 0 2 2 1)) (.array (line 5 1 2 1 1))) none =
      .done M' ∧ bytes M' 0 2 = [some 1, some 6] ∧ truth (ram [1, 2, 0, 1, 0, 5, 6]) (line 2 0 2 2 1) = [false, false] :=
  let ⟨M', h1, h2⟩ := after_done (show after (putMask wide (fun _ => false) (ram [1, 2, 0, 1, 0, 5, 6]) (.three (.array (line 0 1 2 1 1)) (.array (line 2 0 2 2 1)) (.array (line 5 1 2 1 1))) none) 0 2 =
    [some 1, some 6] by decide +kernel) (by simp)
  ⟨M', h1, h2, by decide⟩

/-- C158 is false of the code: infinity is cast to an integer type, which is undefined. -/
theorem put_mask_infinity : putMask wide (fun _ => false) (ram [7, 0, 1, 0, 0, 128, 127]) (.three (.array (line 0 3 1 2 2)) (.array (line 2 0 1 1 1)) (.array (line 3 11 1 4 4))) none = .undefined := by
  exact of_lost (by decide +kernel)

/-- C158 is false of the code: an array which may not be written to is. -/
theorem put_mask_writes_read_only : ∃ M', putMask wide (fun _ => false) (ram [1, 1, 5]) (.three (.array { line 0 1 1 1 1 with writable := false }) (.array (line 1 0 1 1 1)) (.array (line 2 1 1 1 1)))
    none = .done M' ∧ bytes M' 0 1 = [some 5] :=
  after_done (by decide +kernel) (by simp)

/-! ### ApplyRows -/

/-- C158 is false of the code: with two arguments, which are said to be enough, the name of the type of a null pointer is asked for. -/
theorem apply_rows_two_arguments (table : Bool) (copies : Nat → Bool) (o : Info.Obj) (d : Stack.Dtype) (f : Func) : applyRows table copies 2 o d f = .undefined := rfl

/-- C158 is false of the code: with a function and a type, whatever the arrays are, there is no answer and no exception. -/
theorem apply_rows_no_answer (table : Bool) (copies : Nat → Bool) (n : Nat) (o : Info.Obj) (k : Int) (hn : 2 < n) (hk : 0 ≤ k ∧ k ≤ 13) (es : List Info.Entry) (t : Nat)
    (hb : Info.build table copies true true o = .ok es t) : applyRows table copies n o (.number k) .function = .silent ∧ applyRows table copies n o (.number k) .callable = .silent := by
  have hw : Stack.asType (.number k) = (k, false) := by
    unfold Stack.asType
    simp only
    rw [if_pos (by omega), IT.wrap_of_inRange .i32 (by decide) (by unfold IT.InRange; constructor <;> simp [IT.lo, IT.hi, IT.i32] <;> omega)]
  unfold applyRows
  rw [if_neg (by omega), if_neg (by omega)]
  simp only
  rw [hb]
  simp only
  unfold applyTable
  rw [hw]
  simp only
  rw [if_pos (by omega), if_neg (by omega)]
  rw [if_neg (by omega), if_neg (by omega)]
  exact ⟨rfl, rfl⟩

/-- C158 is false of the code: without arrays the type is none of which `GetDefaultForType` knows a value, and it throws. -/
theorem apply_rows_throws : hasDefault (Stack.common []) = false ∧ applyTable [] (.number (-1)) = .undefined := by decide +kernel

end Riptide.Nums.Assign
