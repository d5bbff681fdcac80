import Verif.Arrays.ShiftCallProps
/-! # Where `ShiftArrays` goes wrong (C155) -/
namespace Riptide.Nums.Shift
open Riptide.Nums Riptide.Binary Spec
open Riptide.Mask.Call.Spec (inC)

/-- Bytes of the memory afterwards. -/
def look (ps : List Int) : Outcome → Option (List (Option (BitVec 8)))
  | .done M => some (ps.map M)
  | _ => none

/-- A memory of `n` bytes which are numbered. -/
def numbered (n : Nat) : Mem := fun o => if 0 ≤ o ∧ o < n then some (BitVec.ofInt 8 o) else none

/-- Numbers as bytes. -/
def bs (l : List Nat) : Option (List (Option (BitVec 8))) := some (l.map fun n => some (BitVec.ofNat 8 n))

/-- The places of a memory from 0 on. -/
def upTo (n : Nat) : List Int := (List.range n).map fun (i : Nat) => (i : Int)

/-- The case of `shift_rows_partial`: four items of two bytes, nothing, and three rows and two columns of bytes in Fortran order, by one and back by one. -/
example : look (upTo 14) (shift true true (fun _ => true) (numbered 14) (.items [.array ⟨3, ⟨[4], [2], 2⟩, false⟩ 0, .pyNone, .array ⟨1, ⟨[3, 2], [1, 3], 1⟩, false⟩ 8]) 1 [2, 0, 1]) =
      bs [2, 3, 4, 5, 6, 7, 6, 7, 9, 10, 10, 12, 13, 13] ∧
    look (upTo 14) (shift true true (fun _ => true) (numbered 14) (.items [.array ⟨3, ⟨[4], [2], 2⟩, false⟩ 0, .pyNone, .array ⟨1, ⟨[3, 2], [1, 3], 1⟩, false⟩ 8]) (-1) [0, 1, 2]) =
      bs [0, 1, 0, 1, 2, 3, 4, 5, 8, 8, 9, 11, 11, 12] := by
  refine ⟨by decide +kernel, by decide +kernel⟩

example : Rows ⟨1, ⟨[3, 2], [1, 3], 1⟩, false⟩ ∧ Small ⟨[3, 2], [1, 3], 1⟩ 1 ∧ There (numbered 14) ⟨[3, 2], [1, 3], 1⟩ 8 := by
  refine ⟨.two 3 2 (by decide) (by decide) rfl rfl, ⟨by decide, by decide⟩, ?_⟩
  intro p hp
  have : (8 : Int) ≤ p ∧ p < 14 := hp
  simp only [numbered]
  rw [if_pos (by omega)]
  rfl

/-- **C155 fails.** Two rows and two columns in C order, moved by one row: the items are moved by one, so that the second column is now the first, and the last item is
there twice. In Fortran order the rows are moved. -/
theorem c_order_wrong : look (upTo 4) (shift true true (fun _ => true) (numbered 4) (.one ⟨1, ⟨[2, 2], [2, 1], 1⟩, false⟩ 0) 1 [0]) = bs [1, 2, 3, 3] ∧
    look (upTo 4) (shift true true (fun _ => true) (numbered 4) (.one ⟨1, ⟨[2, 2], [1, 2], 1⟩, false⟩ 0) 1 [0]) = bs [1, 1, 3, 3] := by
  refine ⟨by decide +kernel, by decide +kernel⟩

/-- The rows are not moved, then. -/
theorem c_order_not_rows : ¬ ∃ M', shift true true (fun _ => true) (numbered 4) (.one ⟨1, ⟨[2, 2], [2, 1], 1⟩, false⟩ 0) 1 [0] = .done M' ∧
    RowsMoved ⟨[2, 2], [2, 1], 1⟩ 0 1 (numbered 4) M' := by
  rintro ⟨M', h, hr⟩
  have h1 : look [0] (.done M') = bs [1] := by
    rw [← h]
    decide +kernel
  have h2 := hr 0 (by decide) 0 (by decide) 0 (by decide)
  simp only [look, bs, List.map_cons, List.map_nil, Option.some.injEq, List.cons.injEq, and_true] at h1
  have h3 : M' 0 = numbered 4 2 := by simpa using h2
  rw [h3] at h1
  revert h1
  decide +kernel

/-- **C155 fails.** An array of one row is moved along its columns, although there is no other row, whatever order it was made in; but not when its first distance is
smaller than the second, as after `a[None, :]`. -/
theorem one_row_moves : look (upTo 3) (shift true true (fun _ => true) (numbered 3) (.one ⟨1, ⟨[1, 3], [1, 1], 1⟩, false⟩ 0) 1 [0]) = bs [1, 2, 2] ∧
    look (upTo 3) (shift true true (fun _ => true) (numbered 3) (.one ⟨1, ⟨[1, 3], [3, 1], 1⟩, false⟩ 0) 1 [0]) = bs [1, 2, 2] ∧
    look (upTo 3) (shift true true (fun _ => true) (numbered 3) (.one ⟨1, ⟨[1, 3], [0, 1], 1⟩, false⟩ 0) 1 [0]) = bs [0, 1, 2] := by
  refine ⟨by decide +kernel, by decide +kernel, by decide +kernel⟩

/-- **C155 fails.** An array with gaps, or which is read backwards, is copied and the copy is moved: nothing changes, and there is no exception. -/
theorem gaps_stay (threads table : Bool) (room : Nat → Bool) (M M' : Mem) (a : Arr) (base k : Int) (order : List Nat) (hc : a.lay.cContig = false)
    (hf : a.lay.fContig = false) (h : shift threads table room M (.one a base) k order = .done M') : M' = M := by
  funext p
  refine shift_frame threads table room M M' _ k order h p ?_
  intro l b c hl hb hcc
  cases hl
  cases List.mem_singleton.1 hb
  rw [hc, hf] at hcc
  cases hcc

example : look (upTo 6) (shift true true (fun _ => true) (numbered 6) (.one ⟨1, ⟨[3], [2], 1⟩, false⟩ 0) 1 [0]) = bs [0, 1, 2, 3, 4, 5] ∧
    look (upTo 3) (shift true true (fun _ => true) (numbered 3) (.one ⟨1, ⟨[3], [-1], 1⟩, false⟩ 2) 1 [0]) = bs [0, 1, 2] := by
  refine ⟨by decide +kernel, by decide +kernel⟩

/-- **C155 fails.** Fortran order of three dimensions or more is only printed about: nothing changes, and there is no exception. -/
theorem three_dims_stay (threads : Bool) (room : Nat → Bool) (M : Mem) (a : Arr) (base k : Int) (hk : -(2 ^ 63) ≤ k ∧ k < 2 ^ 63) (ht : a.type ≤ 20)
    (hd : 3 ≤ a.lay.dims.length) (hc : a.lay.fContig = true) (hf : isFortran a.lay = true) (hth : There M a.lay base) :
    ∃ M', shift threads true room M (.one a base) k [0] = .done M' ∧ M' = M := by
  have hp : plan a.lay k = some [] := by
    unfold plan
    rw [if_pos hf]
    split
    · rename_i e
      rw [e] at hd
      simp at hd
    · rfl
  obtain ⟨s, ss, hs⟩ : ∃ s ss, a.lay.strides = s :: ss := by
    unfold isFortran at hf
    split at hf
    · exact ⟨_, _, by assumption⟩
    · cases hf
  obtain ⟨M', h1, h2, h3⟩ := shift_each threads room M [.array a base] k [0] ((fits_iff k).2 hk)
    (by
      intro x hx
      rw [List.mem_singleton.1 hx]
      exact .inr ⟨a, base, [], rfl, by simp [hc], ht, ⟨s, ss, hs, by omega⟩, hp, hth⟩)
    (by simp [Separate]) (by exact .refl _)
  refine ⟨M', h1, ?_⟩
  funext p
  by_cases hi : Inside a.lay base p
  · have := (h2 a base [] (by simp) hp (p - base)).2 (by unfold Inside at hi; omega) (by unfold Inside at hi; omega) (by simp)
    have e : base + (p - base) = p := by omega
    rw [e] at this
    exact this
  · exact h3 p (by simp only [List.mem_singleton]; rintro b c e; cases e; exact hi)

example : look (upTo 8) (shift true true (fun _ => true) (numbered 8) (.one ⟨1, ⟨[2, 2, 2], [1, 2, 4], 1⟩, false⟩ 0) 1 [0]) = bs [0, 1, 2, 3, 4, 5, 6, 7] := by
  decide +kernel

/-- **C155 fails.** The same array twice in the list: two threads move the same bytes, which is undefined; without threads it is moved twice. -/
theorem same_twice : look (upTo 4) (shift true true (fun _ => true) (numbered 4) (.items [.array ⟨1, ⟨[4], [1], 1⟩, false⟩ 0, .array ⟨1, ⟨[4], [1], 1⟩, false⟩ 0]) 1 [0, 1]) = none ∧
    look (upTo 4) (shift false true (fun _ => true) (numbered 4) (.items [.array ⟨1, ⟨[4], [1], 1⟩, false⟩ 0, .array ⟨1, ⟨[4], [1], 1⟩, false⟩ 0]) 1 [0, 1]) = bs [2, 3, 3, 3] := by
  refine ⟨by decide +kernel, by decide +kernel⟩

/-- Arrays of which the ends overlap are undefined too, unless the shift is so large that what is written is not looked at; then they are moved in any order. -/
theorem overlapping : look (upTo 6) (shift true true (fun _ => true) (numbered 6) (.items [.array ⟨1, ⟨[4], [1], 1⟩, false⟩ 0, .array ⟨1, ⟨[4], [1], 1⟩, false⟩ 2]) 1 [0, 1]) = none ∧
    look (upTo 6) (shift true true (fun _ => true) (numbered 6) (.items [.array ⟨1, ⟨[4], [1], 1⟩, false⟩ 0, .array ⟨1, ⟨[4], [1], 1⟩, false⟩ 1]) 3 [1, 0]) = bs [3, 4, 2, 3, 4, 5] := by
  refine ⟨by decide +kernel, by decide +kernel⟩

/-- **C155 fails.** A shift which is far below zero, though one of 64 bits: the number of items minus the shift overflows, which is undefined. -/
theorem far_below_undefined (threads : Bool) (room : Nat → Bool) (M : Mem) (a : Arr) (base k : Int) (n : Nat) (ht : a.type ≤ 20) (hk : -(2 ^ 63) ≤ k)
    (hd : a.lay.dims = [n]) (hs : a.lay.strides = [(a.lay.item : Int)]) (hn : 2 ^ 63 ≤ n - k) (h63 : k < 2 ^ 63) :
    shift threads true room M (.one a base) k [0] = .undefined := by
  have hc : (a.lay.cContig || a.lay.fContig) = true := by simp [Lay.cContig, hd, hs, cStrides, sameStrides, prod]
  obtain ⟨es, t, hb⟩ := build_ok (room := room) (l := [Item.arg M (.array a base)])
    (by
      intro x hx r
      rw [List.mem_singleton.1 hx]
      exact entry_ok hc ht ⟨_, _, hs, fun _ => rfl⟩)
  have hp : plan a.lay k = none := by
    unfold plan isFortran
    rw [hs]
    simp only [Bool.false_eq_true, if_false]
    unfold flat
    rw [if_neg]
    rw [fits_iff]
    simp only [Lay.len, hd, prod]
    omega
  unfold shift
  rw [if_pos ((fits_iff k).2 ⟨hk, h63⟩)]
  simp only [Given.list, List.map_cons, List.map_nil, hb, List.mapM_cons, moves, taken_self hc, hp]
  rfl

example : look [0] (shift true true (fun _ => true) (numbered 8) (.one ⟨1, ⟨[1], [1], 1⟩, false⟩ 0) (-9223372036854775807) [0]) = none ∧
    look [0] (shift true true (fun _ => true) (numbered 8) (.one ⟨1, ⟨[1], [1], 1⟩, false⟩ 0) (-9223372036854775806) [0]) = bs [0] := by
  refine ⟨by decide +kernel, by decide +kernel⟩

/-- **C155 fails.** In Fortran order the shift in bytes overflows for shifts which are far from zero. -/
theorem far_columns_undefined (n c item : Nat) (k : Int) (h : 2 ^ 63 ≤ k * item) : plan ⟨[n, c], [(item : Int), (item : Int) + 1], item⟩ k = none := by
  have h2 : fits (k * item) = false := by
    rw [← Bool.not_eq_true, fits_iff]
    omega
  have h3 : (item : Int) < item + 1 := by omega
  unfold plan isFortran columns
  simp [h2, h3]

/-- The case of a call: moving by 2^60 is undefined for items of 8 bytes in Fortran order, and moves nothing in C order. -/
theorem far_columns_call : look [0] (shift true true (fun _ => true) (numbered 32) (.one ⟨12, ⟨[2, 2], [8, 16], 8⟩, false⟩ 0) (2 ^ 60) [0]) = none ∧
    look [0] (shift true true (fun _ => true) (numbered 32) (.one ⟨12, ⟨[2, 2], [16, 8], 8⟩, false⟩ 0) (2 ^ 60) [0]) = bs [0] := by
  refine ⟨by decide +kernel, by decide +kernel⟩

/-- **C155 fails.** An array without dimensions is undefined behaviour, as a distance is read which is not there. -/
theorem no_dims_undefined (threads : Bool) (room : Nat → Bool) (M : Mem) (a : Arr) (base k : Int) (hk : -(2 ^ 63) ≤ k ∧ k < 2 ^ 63) (ht : a.type ≤ 20)
    (hd : a.lay.dims = []) (hs : a.lay.strides = []) (order : List Nat) : shift threads true room M (.one a base) k order = .undefined := by
  have hc : (a.lay.cContig || a.lay.fContig) = true := by simp [Lay.cContig, hd, hs, cStrides, sameStrides]
  have : Info.build true room false true (.items [Item.arg M (.array a base)]) = .undefined := by
    simp only [Info.build, Info.Obj.list, Info.entries, Info.entry, Item.arg, taken_self hc, Info.entryOf, hs]
    rw [if_neg (show ¬ 20 < a.type by omega)]
    rfl
  unfold shift
  rw [if_pos ((fits_iff k).2 hk)]
  simp only [Given.list, List.map_cons, List.map_nil, this]

/-- **C155.** Something else than arrays, and numbers which are not of 64 bits, are an exception; so are arrays of the types numpy has for dates and later ones. -/
theorem refused (threads table : Bool) (room : Nat → Bool) (M : Mem) (order : List Nat) :
    (∀ k, shift threads table room M .other k order = .error) ∧
    (∀ g k, (k < -(2 ^ 63) ∨ 2 ^ 63 ≤ k) → shift threads table room M g k order = .error) ∧
    (∀ l k, shift threads table room M (.items (.other :: l)) k order = .error) ∧
    ∀ a base k l, 20 < a.type → a.lay.cContig = true → shift threads true room M (.items (.array a base :: l)) k order = .error := by
  refine ⟨?_, ?_, ?_, ?_⟩
  · intro k
    unfold shift
    split <;> rfl
  · intro g k hk
    unfold shift
    rw [if_neg (by rw [fits_iff]; omega)]
  · intro l k
    unfold shift
    split
    · cases table <;> rfl
    · rfl
  · intro a base k l ht hc
    have : Info.build true room false true (.items (Item.arg M (.array a base) :: l.map (Item.arg M))) = .refused := by
      simp only [Info.build, Info.Obj.list, Info.entries, Info.entry, Item.arg, taken_self (show (a.lay.cContig || a.lay.fContig) = true by simp [hc]), Info.entryOf]
      rw [if_pos ht]
      rfl
    unfold shift
    split
    · simp only [Given.list, List.map_cons, this]
    · rfl

/-- One array is as good as a list of it. -/
theorem one_as_list (threads table : Bool) (room : Nat → Bool) (M : Mem) (a : Arr) (base k : Int) (order : List Nat) :
    shift threads table room M (.one a base) k order = shift threads table room M (.items [.array a base]) k order := rfl

/-- An empty list without memory for the table is answered by an exception. -/
theorem shift_no_room (threads : Bool) (room : Nat → Bool) (M : Mem) (order : List Nat) : shift threads false room M (.items []) 1 order = .error := rfl

end Riptide.Nums.Shift
