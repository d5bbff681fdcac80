import Verif.Ema.EntryVals
import Verif.Work.Props
/-! C134: calls which are accepted although they cannot be answered, and concrete cases of the theorems. -/
namespace Riptide.Ema.Entry
open Riptide.Ema.Entry.Spec

/-- Some arithmetic, for concrete calls. -/
def anyArith : Arith := ⟨fun _ x y => x + y, fun _ x y => x * y, fun _ => 1, 0, fun _ => false, fun x y => decide (x < y),
  fun _ _ _ _ src _ i => src.getD i 0⟩

/-- An array without a step. -/
def flatArr (ty : Nat) (vals : List Int) : Arr := ⟨ty, 1, vals, vals⟩

/-- Two columns, 32-bit integers and bytes, of three rows with keys 1, 2, 1. -/
def sampleReq (func : Int) (time inc rst : Obj) : Req :=
  ⟨.many [.arr (flatArr 5 [4, -7, 10]), .arr (flatArr 2 [200, 0, 100])], .arr (flatArr 5 [1, 2, 1]), some 2, some func,
    .four (some 0) time inc rst⟩

theorem sample_good (func : Int) (time inc rst : Obj) (hf : -2 ^ 63 ≤ func ∧ func < 2 ^ 63) (ht : IsTime 3 time) (hi : IsMask 3 inc)
    (hr : IsMask 3 rst) : Good (sampleReq func time inc rst) (flatArr 5 [1, 2, 1]) 2 func 0 time inc rst where
  key := rfl
  keyTy := rfl
  uniq := ⟨rfl, by decide⟩
  func := ⟨rfl, hf⟩
  params := rfl
  time := ht
  inc := hi
  rst := hr
  cols := by
    refine ⟨(by simp [sampleReq]), ?_, ?_⟩
    · intro o ho
      simp only [sampleReq, entries, List.mem_cons, List.not_mem_nil, or_false] at ho
      rcases ho with rfl | rfl <;> simp [IsColumn, flatArr]
    · intro o ho p hp
      simp only [sampleReq, entries, List.mem_cons, List.not_mem_nil, or_false] at ho hp
      rcases ho with rfl | rfl <;> rcases hp with rfl | rfl <;> rfl

/-- The sample is sound, with an include mask, a reset mask and a time. -/
theorem sample_sound (func : Int) (hf : -2 ^ 63 ≤ func ∧ func < 2 ^ 63) :
    Sound (sampleReq func (.arr (flatArr 12 [0, 1, 2])) (.arr (flatArr 0 [1, 1, 1])) (.arr (flatArr 0 [0, 0, 0])))
      (flatArr 5 [1, 2, 1]) 2 func 0 (.arr (flatArr 12 [0, 1, 2])) (.arr (flatArr 0 [1, 1, 1])) (.arr (flatArr 0 [0, 0, 0])) where
  good := sample_good func _ _ _ hf (by simp [IsTime, flatArr]) (by simp [IsMask, flatArr]) (by simp [IsMask, flatArr])
  any := by simp [sampleReq, entries]
  long := by
    intro o ho
    simp only [sampleReq, entries, List.mem_cons, List.not_mem_nil, or_false] at ho
    rcases ho with rfl | rfl <;> simp [elems, flatArr]
  keyFlat := rfl
  timeFlat := by rintro b h; cases h; rfl
  incFlat := by rintro b h; cases h; rfl
  rstFlat := by rintro b h; cases h; rfl
  le := by decide

/-- The same without time and masks. -/
theorem sample_plain (func : Int) (hf : -2 ^ 63 ≤ func ∧ func < 2 ^ 63) :
    Sound (sampleReq func .pyNone .pyNone .pyNone) (flatArr 5 [1, 2, 1]) 2 func 0 .pyNone .pyNone .pyNone where
  good := sample_good func _ _ _ hf trivial trivial trivial
  any := by simp [sampleReq, entries]
  long := by
    intro o ho
    simp only [sampleReq, entries, List.mem_cons, List.not_mem_nil, or_false] at ho
    rcases ho with rfl | rfl <;> simp [elems, flatArr]
  keyFlat := rfl
  timeFlat := by rintro b h; cases h
  incFlat := by rintro b h; cases h
  rstFlat := by rintro b h; cases h
  le := by decide

/-- Two columns done by a pool with one thread. -/
theorem sample_sched : ColSched 1 2 false [0, 1] := .pool _ (by decide) Work.poolRun_example

example : ∃ outs : List Ret, emaAll anyArith [0, 1] (sampleReq 300 .pyNone .pyNone .pyNone) = .done outs ∧ outs.length = 2 := by
  obtain ⟨outs, h1, h2, _⟩ := call_cumSum_partial anyArith (sample_plain 300 (by decide)) (by decide) sample_sched
  exact ⟨outs, h1, h2⟩

example : ∃ outs : List Ret, emaAll anyArith [0, 1] (sampleReq 302 .pyNone .pyNone .pyNone) = .done outs ∧ outs.length = 2 := by
  obtain ⟨outs, h1, h2, _⟩ := call_cumProd_partial anyArith (sample_plain 302 (by decide)) (by decide) sample_sched
  exact ⟨outs, h1, h2⟩

example : ∃ outs : List Ret, emaAll anyArith [0, 1] (sampleReq 303 .pyNone .pyNone .pyNone) = .done outs ∧ outs.length = 2 := by
  obtain ⟨outs, h1, h2, _⟩ := call_findNth_partial anyArith (sample_plain 303 (by decide)) (by decide) sample_sched
  exact ⟨outs, h1, h2⟩

example : ∃ outs : List Ret, emaAll anyArith [0, 1] (sampleReq 308 .pyNone .pyNone .pyNone) = .done outs ∧ outs.length = 2 := by
  obtain ⟨outs, h1, h2, _⟩ := call_extremes_partial anyArith (sample_plain 308 (by decide)) (by decide) (fun _ _ => by decide)
    (by decide) sample_sched
  exact ⟨outs, h1, h2⟩

example : ∃ outs : List Ret, emaAll anyArith [0, 1] (sampleReq 304 (.arr (flatArr 12 [0, 1, 2])) (.arr (flatArr 0 [1, 1, 1]))
    (.arr (flatArr 0 [0, 0, 0]))) = .done outs ∧ outs.length = 2 := by
  obtain ⟨outs, h1, h2, _⟩ := call_shape_partial anyArith (sample_sound 304 (by decide)) (by decide) (fun _ => by decide)
    (fun _ => by decide) (by decide) sample_sched
  exact ⟨outs, h1, h2⟩

/-- What the sample gives: sums, with the bytes summed as unsigned 64-bit integers, and largest values. -/
example : emaAll anyArith [0, 1] (sampleReq 300 .pyNone .pyNone .pyNone) =
      .done [.array 7 [some 4, some (-7), some 14], .array 8 [some 200, some 0, some 300]] ∧
    emaAll anyArith [1, 0] (sampleReq 302 .pyNone .pyNone .pyNone) =
      .done [.array 7 [some 4, some (-7), some 40], .array 8 [some 200, some 0, some 20000]] ∧
    emaAll anyArith [0, 1] (sampleReq 303 .pyNone .pyNone .pyNone) =
      .done [.array 5 [some 1, some 1, some 2], .array 5 [some 1, some 1, some 2]] ∧
    emaAll anyArith [0, 1] (sampleReq 308 .pyNone .pyNone .pyNone) =
      .done [.array 5 [some 4, some (-7), some 10], .array 2 [some 200, some 0, some 200]] := by decide +kernel

/-- Masks: an excluded row does not count, a reset starts anew. -/
example : emaAll anyArith [0, 1] (sampleReq 300 .pyNone (.arr (flatArr 0 [0, 1, 1])) .pyNone) =
      .done [.array 7 [some 0, some (-7), some 10], .array 8 [some 0, some 0, some 100]] ∧
    emaAll anyArith [0, 1] (sampleReq 300 .pyNone .pyNone (.arr (flatArr 0 [0, 0, 1]))) =
      .done [.array 7 [some 4, some (-7), some 10], .array 8 [some 200, some 0, some 100]] := by decide +kernel

/-! ## What goes wrong -/

/-- One column of three rows with keys 1, 2, 1. -/
def oneReq (col key : Arr) (uniq func : Int) (time inc rst : Obj) : Req :=
  ⟨.one col, .arr key, some uniq, some func, .four (some 0) time inc rst⟩

/-- A time or a mask which is neither `None` nor an array: the exception is set but the call goes on, and the object is taken for
an array (`src/Ema.cpp:2374-2395`). -/
theorem call_pending_error :
    emaAll anyArith [0, 1] (sampleReq 300 .other .pyNone .pyNone) = .undef ∧
    emaAll anyArith [0, 1] (sampleReq 300 .pyNone .other .pyNone) = .undef ∧
    emaAll anyArith [0, 1] (sampleReq 300 .pyNone .pyNone .other) = .undef := by decide +kernel

/-- The rows of the columns are not compared with those of the key: a shorter column is read beyond its end. -/
theorem call_short_column :
    emaAll anyArith [0] (oneReq (flatArr 5 [4, 7]) (flatArr 5 [1, 1, 1]) 1 300 .pyNone .pyNone .pyNone) = .undef ∧
    ∃ number, Good (oneReq (flatArr 5 [4, 7]) (flatArr 5 [1, 1, 1]) 1 300 .pyNone .pyNone .pyNone) (flatArr 5 [1, 1, 1]) 1 300 number
      .pyNone .pyNone .pyNone := by
  refine ⟨by decide +kernel, 0, rfl, rfl, ⟨rfl, by decide⟩, ⟨rfl, by decide⟩, rfl, trivial, trivial, trivial, by decide, ?_, ?_⟩
  · intro o ho
    simp only [oneReq, entries, List.mem_cons, List.not_mem_nil, or_false] at ho
    subst ho
    simp [IsColumn, flatArr]
  · intro o ho p hp
    simp only [oneReq, entries, List.mem_cons, List.not_mem_nil, or_false] at ho hp
    rw [ho, hp]

/-- The rows of a longer column beyond the key are left out without a complaint. -/
theorem call_long_column :
    emaAll anyArith [0] (oneReq (flatArr 5 [4, 7, 8]) (flatArr 5 [1, 1]) 1 300 .pyNone .pyNone .pyNone) =
      .done [.array 7 [some 4, some 11]] := by decide +kernel

/-- `None` as a column is an array without memory, read for every row. -/
theorem call_none_column :
    emaAll anyArith [0] ⟨.many [.pyNone], .arr (flatArr 5 [1, 1]), some 1, some 300, .four (some 0) .pyNone .pyNone .pyNone⟩ =
      .undef := by decide +kernel

/-- The step of the key is ignored: a key of two elements 1 and 1, which are the first and the third item in memory, gives the
groups 1 and 2 of the first two items. -/
theorem call_strided_key :
    emaAll anyArith [0] (oneReq (flatArr 5 [10, 20]) ⟨5, 1, [1, 1], [1, 2, 1]⟩ 2 300 .pyNone .pyNone .pyNone) =
      .done [.array 7 [some 10, some 20]] ∧
    emaAll anyArith [0] (oneReq (flatArr 5 [10, 20]) (flatArr 5 [1, 1]) 2 300 .pyNone .pyNone .pyNone) =
      .done [.array 7 [some 10, some 30]] := by decide +kernel

/-- So is the step of a mask. -/
theorem call_strided_mask :
    emaAll anyArith [0] (oneReq (flatArr 5 [10, 20]) (flatArr 5 [1, 1]) 1 300 .pyNone (.arr ⟨0, 1, [1, 1], [1, 0, 1]⟩) .pyNone) =
      .done [.array 7 [some 10, some 10]] := by decide +kernel

/-- A key above `uniq` is a position behind the work space; so is any key when `uniq` is negative. -/
theorem call_key_above :
    emaAll anyArith [0] (oneReq (flatArr 5 [4, 7]) (flatArr 5 [1, 3]) 2 300 .pyNone .pyNone .pyNone) = .undef ∧
    emaAll anyArith [0] (oneReq (flatArr 5 [4, 7]) (flatArr 5 [1, 1]) (-2) 300 .pyNone .pyNone .pyNone) = .undef := by decide +kernel

/-- Extremes without masks use negative keys as positions, sums do not. -/
theorem call_negative_key :
    emaAll anyArith [0] (oneReq (flatArr 5 [4, 7]) (flatArr 5 [1, -3]) 2 306 .pyNone .pyNone .pyNone) = .undef ∧
    emaAll anyArith [0] (oneReq (flatArr 5 [4, 7]) (flatArr 5 [1, -3]) 2 300 .pyNone .pyNone .pyNone) =
      .done [.array 7 [some 4, some (-2 ^ 63)]] := by decide +kernel

/-- A time of type `long double` makes the averages write items of 16 bytes into arrays of items of 8 bytes. -/
theorem call_long_double :
    emaAll anyArith [0] (oneReq (flatArr 12 [4, 7]) (flatArr 5 [1, 1]) 1 301 (.arr (flatArr 13 [0, 1])) .pyNone .pyNone) = .undef ∧
    emaAll anyArith [0] (oneReq (flatArr 12 [4, 7]) (flatArr 5 [1, 1]) 1 301 (.arr (flatArr 12 [0, 1])) .pyNone .pyNone) =
      .done [.array 12 [some 4, some 7]] := by decide +kernel

/-- The averages give `None` without a time, although the weighted one does not use it. -/
theorem call_weighted_needs_time :
    emaAll anyArith [0] (oneReq (flatArr 12 [4, 7]) (flatArr 5 [1, 1]) 1 305 .pyNone .pyNone .pyNone) = .done [.pyNone] := by decide +kernel

/-- The number of the function is cut to 32 bits. -/
theorem call_func_wraps :
    emaAll anyArith [0] (oneReq (flatArr 5 [4, 7]) (flatArr 5 [1, 1]) 1 (300 + 2 ^ 32) .pyNone .pyNone .pyNone) =
      .done [.array 7 [some 4, some 11]] := by decide +kernel

/-- Extremes of booleans before the first included row: the byte 0x80 in an array of booleans. -/
theorem call_bool_extreme :
    emaAll anyArith [0] (oneReq (flatArr 0 [1, 1]) (flatArr 5 [1, 1]) 1 308 .pyNone (.arr (flatArr 0 [0, 1])) .pyNone) =
      .done [.array 0 [some (-128), some 1]] := by decide +kernel

end Riptide.Ema.Entry
