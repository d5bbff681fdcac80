import Verif.Recycle.CallProps
/-! Where the calls of the recycler go wrong (C159). -/
namespace Riptide.Recycle.Call
open Riptide.Recycle Spec

/-- The time is multiplied by a billion without a test: a collection of what is older than 9223372037 billion cycles is undefined, `src/Recycler.cpp:436`. -/
theorem collect_time_overflows (w : World) (now : Nat) : collectNow w now (.num 9223372037) = none ∧ collectNow w now (.num (-9223372037)) = none := ⟨rfl, rfl⟩

/-- It is not only a matter of the call: `RecycleSetGarbageCollectTimeout` takes such a time, and giving an array to the recycler is undefined then. -/
theorem timeout_overflows : see [.setTimeout (.num 10000000000), .create 1 (exInfo 64)] = some ([.number 150, .nothing], 0, 0, 0, 0) ∧
    see [.setTimeout (.num 10000000000), .create 1 (exInfo 64), .recycle 60000000000 (.array 1)] = none := by
  constructor <;> decide +kernel

/-- The type number is not tested: a negative one reads outside the table, in both calls. -/
theorem negative_type (w : World) (n : Nat) (hn : n ≥ 1) (now : Nat) (f s : Bool) :
    tryRecycle w (.num (-1)) (.list [.array [n]]) = none ∧ allocateNumpy w now f s (some [n]) (.num (-1)) = none := by
  have hf : find w 1 (-1) [n].prod = none := by
    have : w.st.find 1 (-1) [n].prod = none := by
      unfold Rec.find
      rw [if_pos ⟨by simpa using hn, by omega, rfl⟩, if_pos (by omega)]
    unfold find
    rw [this]
    rfl
  constructor
  · show tryItems (-1) w [.array [n]] = none
    unfold tryItems
    show (find w 1 (-1) [n].prod).bind _ = none
    rw [hf]; rfl
  · show (find w 1 (-1) [n].prod).bind _ = none
    rw [hf]; rfl

/-- An item of the list which is not an array is used as one: `TryRecycleNumpy(7, [None])`, `src/Recycler.cpp:893-898`. -/
theorem not_an_array (w : World) (l : List Item) : tryRecycle w (.num 7) (.list (.other :: l)) = none := rfl

/-- A tuple, which the comment of the call asks for, finds nothing whatever is kept. -/
theorem tuple_finds_nothing (w : World) (t : Int) (h : -2147483648 ≤ t ∧ t ≤ 2147483647) : tryRecycle w (.num t) .other = some (w, .nothing) := by
  unfold tryRecycle
  rw [int_num h]

/-- For an array without dimensions the new array has one. -/
theorem scalar_gets_a_dimension : see [.allocateNumpy 0 true true (some []) (.num 7)] = some ([.made 7 [1] 0 false], 0, 0, 0, 0) := by decide +kernel

/-- When the memory has run out a collection is made and numpy is asked again: the array is handed out with the exception of the first attempt still set. -/
theorem exception_stays_set : see [.allocateNumpy 0 false true (some [3]) (.num 7)] = some ([.made 7 [3] 0 true], 0, 1, 0, 0) := by decide +kernel

/-- That collection is not forced: it gives up nothing when there was one within 60 billion cycles, so that the second attempt is no better than the first. -/
theorem collection_for_room_frees_nothing (w : World) (now : Nat) (h : now - w.st.lastGc < 60000000000) (s : Bool) (dims : List Nat) (t : Int) (item : Nat) :
    ∃ r, allocate w now false s t dims item = some (w, r) := by
  unfold allocate collect
  rw [if_neg (by simp), if_pos (show (!false && decide (now - w.st.lastGc < 60000000000)) = true by simp [h])]
  exact ⟨_, rfl⟩

/-- An array held by anybody else is never kept: the answer is `False`. -/
theorem held_twice_is_refused {w : World} {a : Nat} (h : w.st.refs a ≠ 1) (now : Nat) : recycle w now (.array a) = some (w, .truth false) := by
  unfold recycle
  simp [h]

/-- Turning the recycler off does not stop it from handing out what it has. -/
theorem off_hands_out : see (exHistory ++ [.setMode (.num 1), .tryRecycle (.num 7) (.list [.array [1000]])]) =
    some ([.nothing, .nothing, .truth true, .nothing, .truth true, .nothing, .truth true, .recycled 1], 1, 0, 2, 1) := by decide +kernel

/-- The dump adds numbers of items, whatever their size: two arrays of a thousand bytes and a thousand doubles count the same. -/
theorem dump_counts_items :
    see [.create 1 ⟨1, 1000, 1, true, 64, true⟩, .create 2 ⟨12, 1000, 1, true, 128, true⟩, .recycle 5 (.array 1), .recycle 5 (.array 2), .dump] =
    some ([.nothing, .nothing, .truth true, .truth true, .number 2000], 0, 0, 2, 0) := by decide +kernel

/-- What the collection deleted is not in the number of tails it answers, which is from before. -/
theorem stats_are_from_before : see (exHistory ++ [.collectNow 100 (.num 0), .collectNow 200 (.num 0)]) =
    some ([.nothing, .nothing, .truth true, .nothing, .truth true, .nothing, .stats 0 0 2 0 2, .stats 0 0 2 2 0], 0, 0, 2, 2) := by decide +kernel

/-- An array in foreign byte order is handed out for one in the native order. -/
theorem byte_order_is_lost : see [.create 1 { exInfo 64 with native := false }, .recycle 5 (.array 1), .decref 1, .allocateNumpy 6 true true (some [1000]) (.num 7)] =
    some ([.nothing, .truth true, .nothing, .recycled 1], 1, 0, 1, 1) := by decide +kernel

end Riptide.Recycle.Call
