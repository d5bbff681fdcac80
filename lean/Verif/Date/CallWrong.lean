import Verif.Date.CallProps
/-! Where the calls on arrays of date and time strings go wrong (C141), and examples for what they answer. -/
namespace Riptide.Date.Call
open Riptide.Binary Riptide.Mask.Call.Spec Riptide.Date.Call.Spec Riptide.Date Riptide.Date.Spec

/-- Memory with the given bytes from `first` on. -/
def memOf (first : Int) (l : List (BitVec 8)) : Mem := fun o => if first ≤ o then l[(o - first).toNat]? else none

/-- Texts one after the other. -/
def blockOf (k : Kind) (swapped : Bool) (first : Int) (ts : List (List Int)) : Mem :=
  memOf first (ts.flatMap fun t => t.flatMap (encode k swapped))

instance (m : Mem) (o : Int) (l : List (BitVec 8)) : Decidable (Has m o l) := inferInstanceAs (Decidable (∀ j : Nat, j < l.length → _))
instance (k : Kind) (c : Int) : Decidable (IsChar k c) := by unfold IsChar; cases k <;> exact inferInstance
instance (a : Arr) (m : Mem) (o : Int) (t : List Int) : Decidable (Holds a m o t) := inferInstanceAs (Decidable (_ ∧ _ ∧ _))
instance decHoldsAll (a : Arr) (m : Mem) : ∀ os ts, Decidable (HoldsAll a m os ts)
  | [], [] => isTrue trivial
  | _ :: os, _ :: ts => @instDecidableAnd _ _ _ (decHoldsAll a m os ts)
  | [], _ :: _ => isFalse id
  | _ :: _, [] => isFalse id
instance (a : Arr) (m : Mem) (ts : List (List Int)) : Decidable (Texts a m ts) := decHoldsAll a m _ ts
instance (a : Arr) (m : Mem) (ts : List (List Int)) : Decidable (TextsF a m ts) := decHoldsAll a m _ ts
instance (a : Arr) : Decidable (Plain a) := inferInstanceAs (Decidable (_ ∧ _ ∧ _))

/-- The first of January of 2020, the second and so on, without separators. -/
def january (n : Nat) : List Int := bytes "202001" ++ pad 2 n

/-- Two by two dates in C order. -/
example : Plain ⟨.bytes, ⟨[2, 2], [16, 8], 8⟩, false⟩ ∧
    Texts ⟨.bytes, ⟨[2, 2], [16, 8], 8⟩, false⟩ (blockOf .bytes false 0 [january 1, january 2, january 3, january 4])
      [january 1, january 2, january 3, january 4] ∧
    call .date true ⟨.bytes, ⟨[2, 2], [16, 8], 8⟩, false⟩ (blockOf .bytes false 0 [january 1, january 2, january 3, january 4]) =
      .ok [4] [18262 * dayNanos, 18263 * dayNanos, 18264 * dayNanos, 18265 * dayNanos] none := by decide +kernel
example : Dates [january 1, january 2] [⟨2020, 1, 1⟩, ⟨2020, 1, 2⟩] := by
  refine ⟨rfl, ?_⟩
  intro i t d ht hd
  match i with
  | 0 =>
    injection ht with ht; injection hd with hd; subst ht; subst hd
    exact ⟨by decide, by decide, false, [], [], nofun, ⟨[], [], rfl, nofun, .inl rfl⟩, by decide⟩
  | 1 =>
    injection ht with ht; injection hd with hd; subst ht; subst hd
    exact ⟨by decide, by decide, false, [], [], nofun, ⟨[], [], rfl, nofun, .inl rfl⟩, by decide⟩
  | i + 2 => cases ht
/-- Times of day as characters of four bytes, one of them shorter than the item. -/
example : Texts ⟨.unicode, ⟨[2], [48], 48⟩, false⟩ (blockOf .unicode false 0 [bytes "12:00:00.125", bytes "12:00:00" ++ [0, 0, 0, 0]])
      [bytes "12:00:00.125", bytes "12:00:00" ++ [0, 0, 0, 0]] ∧
    call .time true ⟨.unicode, ⟨[2], [48], 48⟩, false⟩ (blockOf .unicode false 0 [bytes "12:00:00.125", bytes "12:00:00" ++ [0, 0, 0, 0]]) =
      .ok [2] [43200125000000, 43200000000000] none := by decide +kernel
example : call .dateTime true ⟨.bytes, ⟨[1], [19], 19⟩, false⟩ (blockOf .bytes false 0 [bytes "2020-01-01T01:02:03"]) =
    .ok [1] [18262 * dayNanos + 3723000000000] none := by decide +kernel
/-- An array without dimensions. -/
example : Plain ⟨.bytes, ⟨[], [], 8⟩, false⟩ ∧
    call .date false ⟨.bytes, ⟨[], [], 8⟩, false⟩ (blockOf .bytes false 0 [january 1]) = .ok [1] [18262 * dayNanos] none := by decide +kernel
/-- The second of three texts has an error, and so has the third. -/
example : call .date false ⟨.bytes, ⟨[3], [8], 8⟩, false⟩ (blockOf .bytes false 0 [january 1, bytes "2020/131", bytes "xx201301"]) =
      .ok [3] [18262 * dayNanos, 0, 0] (some (bytes "2020/131", "Unexpected delimiter", 4)) ∧
    call .date true ⟨.bytes, ⟨[3], [8], 8⟩, false⟩ (blockOf .bytes false 0 [january 1, bytes "2020/131", bytes "xx201301"]) = .systemError := by
  decide +kernel
example : strptimeCall (bytes "%Y%m%d" ++ [0] ++ bytes "%H") ⟨.unicode, ⟨[2], [32], 32⟩, false⟩ (blockOf .unicode false 0 [january 1, january 2]) =
    .ok [2] [18262 * dayNanos, 18263 * dayNanos] none := by decide +kernel

/-- C141. An array in Fortran order is read in the order of its memory. -/
theorem memory_order_partial (w : Which) (a : Arr) (m : Mem) (ts : List (List Int)) (hl : a.lay.strides.length = a.lay.dims.length)
    (hf : a.lay.fContig = true) (hs : a.kind = .unicode → a.swapped = false) (hk : a.kind ≠ .other) (ht : TextsF a m ts) (vs : List Int)
    (hc : Clean w.parse ts vs) (strict : Bool) : call w strict a m = .ok [vs.length] vs none := by
  have e : items a m = some ts := items_even hs (Riptide.Mask.Call.contiguous_even_f hl hf) (Riptide.Mask.Call.inF_length _ _ hl) ht
  have n : ts.length = a.lay.len := by rw [(holds_get ht).1, Riptide.Mask.Call.inF_length _ _ hl]; rfl
  -- The call sees no strides: it is the call on the same memory as an array of one dimension.
  have hp : Plain ⟨a.kind, ⟨[a.lay.len], [(a.lay.item : Int)], a.lay.item⟩, a.swapped⟩ := by
    refine ⟨rfl, ?_, hs⟩
    simp [Lay.cContig, cStrides, sameStrides, prod]
  have hi : items ⟨a.kind, ⟨[a.lay.len], [(a.lay.item : Int)], a.lay.item⟩, a.swapped⟩ m = some ts := by
    rw [← e]
    unfold items itemChars
    simp [Lay.len, prod]
  have ht' : Texts ⟨a.kind, ⟨[a.lay.len], [(a.lay.item : Int)], a.lay.item⟩, a.swapped⟩ m ts := by
    have hE := Riptide.Mask.Call.even_eq (Riptide.Mask.Call.contiguous_even_f hl hf) (Riptide.Mask.Call.inF_length _ _ hl)
    have hE' := Riptide.Mask.Call.even_eq (Riptide.Mask.Call.contiguous_even_c hp.1 hp.2.1) (Riptide.Mask.Call.inC_length _ _ hp.1)
    unfold Texts TextsF at *
    have : inC [a.lay.len] [(a.lay.item : Int)] = inF a.lay.dims a.lay.strides := by
      rw [hE]; refine hE'.trans ?_
      simp [prod, Lay.len]
    show HoldsAll _ m (inC [a.lay.len] [(a.lay.item : Int)]) ts
    rw [this]
    have : ∀ os ts, HoldsAll a m os ts → HoldsAll ⟨a.kind, ⟨[a.lay.len], [(a.lay.item : Int)], a.lay.item⟩, a.swapped⟩ m os ts := by
      intro os
      induction os with
      | nil => intro ts h; cases ts with
        | nil => trivial
        | cons _ _ => exact h
      | cons o os ih => intro ts h; cases ts with
        | nil => exact h
        | cons t ts => exact ⟨h.1, ih ts h.2⟩
    exact this _ _ ht
  have := call_clean w strict _ m ts vs hp hk ht' hc
  unfold call at this ⊢
  rw [if_neg hk] at this ⊢
  rw [hi] at this
  rw [e]
  unfold finish at this ⊢
  simpa [Lay.len, prod] using this

/-- C141, false of the code: an array in Fortran order gives the dates in another order. -/
theorem fortran_order_wrong :
    Texts ⟨.bytes, ⟨[2, 2], [8, 16], 8⟩, false⟩ (blockOf .bytes false 0 [january 1, january 2, january 3, january 4])
      [january 1, january 3, january 2, january 4] ∧
    call .date false ⟨.bytes, ⟨[2, 2], [8, 16], 8⟩, false⟩ (blockOf .bytes false 0 [january 1, january 2, january 3, january 4]) =
      .ok [4] [18262 * dayNanos, 18263 * dayNanos, 18264 * dayNanos, 18265 * dayNanos] none := by decide +kernel

/-- C141, false of the code: of every second date the call reads the first half of all dates. -/
theorem sliced_wrong :
    Texts ⟨.bytes, ⟨[2], [16], 8⟩, false⟩ (blockOf .bytes false 0 [january 1, january 2, january 3, january 4]) [january 1, january 3] ∧
    call .date false ⟨.bytes, ⟨[2], [16], 8⟩, false⟩ (blockOf .bytes false 0 [january 1, january 2, january 3, january 4]) =
      .ok [2] [18262 * dayNanos, 18263 * dayNanos] none ∧
    strptimeCall (bytes "%Y%m%d") ⟨.bytes, ⟨[2], [16], 8⟩, false⟩ (blockOf .bytes false 0 [january 1, january 2, january 3, january 4]) =
      .ok [2] [18262 * dayNanos, 18263 * dayNanos] none := by decide +kernel

/-- C141, false of the code: of an array read backwards the call reads what lies behind it. -/
theorem backwards_undefined (w : Which) (strict : Bool) :
    Texts ⟨.bytes, ⟨[2], [-8], 8⟩, false⟩ (blockOf .bytes false (-8) [january 1, january 2]) [january 2, january 1] ∧
    call w strict ⟨.bytes, ⟨[2], [-8], 8⟩, false⟩ (blockOf .bytes false (-8) [january 1, january 2]) = .undefined := by
  cases w <;> cases strict <;> decide +kernel

/-- C141, false of the code: characters in the other order of bytes. `isspace` is called with a number it is not defined for, and
`StrptimeToNanos` takes the lowest byte of each character, which is 0. -/
theorem other_byte_order_wrong :
    Texts ⟨.unicode, ⟨[1], [32], 32⟩, true⟩ (blockOf .unicode true 0 [january 1]) [january 1] ∧
    call .date false ⟨.unicode, ⟨[1], [32], 32⟩, true⟩ (blockOf .unicode true 0 [january 1]) = .undefined ∧
    strptimeCall (bytes "%Y%m%d") ⟨.unicode, ⟨[1], [32], 32⟩, true⟩ (blockOf .unicode true 0 [january 1]) = .ok [1] [0] none := by decide +kernel

/-- C141, false of the code: a text with a letter which is not of ASCII is undefined behaviour, as bytes of UTF-8 and as characters beyond Latin-1. -/
theorem letters_undefined :
    call .time false ⟨.bytes, ⟨[1], [2], 2⟩, false⟩ (blockOf .bytes false 0 [[-61, -87]]) = .undefined ∧
    call .time false ⟨.unicode, ⟨[1], [4], 4⟩, false⟩ (blockOf .unicode false 0 [[8364]]) = .undefined := by decide +kernel

/-- C141, false of the code: `StrptimeToNanos` takes characters for others with the same lowest byte, without a word. -/
theorem strptime_characters_wrong :
    strptimeCall (bytes "%Y%m%d") ⟨.unicode, ⟨[1], [32], 32⟩, false⟩ (blockOf .unicode false 0 [[306] ++ bytes "0200101"]) =
      .ok [1] [18262 * dayNanos] none := by decide +kernel

/-- C141, false of the code: the shape is lost. -/
theorem shape_lost :
    call .date false ⟨.bytes, ⟨[1, 2], [16, 8], 8⟩, false⟩ (blockOf .bytes false 0 [january 1, january 2]) =
      .ok [2] [18262 * dayNanos, 18263 * dayNanos] none := by decide +kernel

end Riptide.Date.Call
