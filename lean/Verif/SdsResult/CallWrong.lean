import Verif.SdsResult.CallProps
/-! # What reading hands over: where it goes wrong -/
namespace Riptide.SdsResult

/-- An array for which there was no memory is to be `None`; but the exception this left behind makes the file, and every file after it, a null pointer. -/
theorem read_no_memory_wrong : (readFinal exDec true [exRead, exFile]).1 = .both [none, none] ∧
    ∃ i j, (readFinal exDec false [exRead, exFile]).1 = .list [some i, some j] ∧ i.cols = .arrays [some 1, none] := ⟨rfl, _, _, rfl, rfl⟩

/-- No file survives an exception from before. -/
theorem read_exception_wrong (dec : List Nat → Option (List Nat)) (fs : List Final) (hf : fs ≠ []) (h : ∀ f ∈ fs, ¬ f.Breaks dec) :
    ∃ l, (readFinal dec true fs).1 = .both l ∧ l.length = fs.length ∧ ∀ k : Nat, k < fs.length → l[k]? = some none := by
  unfold readFinal
  rw [if_neg hf]
  cases hw : wraps dec true fs with
  | none => obtain ⟨f, h1, h2⟩ := (wraps_none fs true).1 hw; exact absurd h2 (h f h1)
  | some r =>
    obtain ⟨l, e, ls⟩ := r
    obtain ⟨i1, i2, i3, _, _⟩ := wraps_all hw
    have : e = true := i2.2 (Or.inl rfl)
    subst this
    exact ⟨l, rfl, i1, fun k hk => (i3 k fs[k] (List.getElem?_eq_getElem hk)).2 (Or.inl rfl)⟩

example : ∃ l, (readFinal exDec true [exFile]).1 = .both l := ⟨_, rfl⟩

/-- The name of a section which is no text loses this file and those after it, which are sound. -/
theorem read_section_wrong : ∃ i, (readFinal exDec false [exRead, { exFile with sections := some ⟨[[255]], [512], 99⟩ }, exRead]).1 = .both [some i, none, none] := ⟨_, rfl⟩

/-- The name of a file which is no text is a null pointer put into a dictionary. -/
theorem read_file_name_wrong : (readFinal exDec false [{ exRead with file := some [255] }]).1 = .undefined := rfl

/-- Six dimensions in a file, and memory behind the block is shown. -/
theorem read_dims_wrong : (readFinal exDec false [{ exFile with blocks := [⟨6, [1, 1, 1, 1, 1], 5, 1, 4⟩] }]).1 = .undefined := rfl

/-- Fewer than no dimensions in a file lose it. -/
theorem read_negative_dims_wrong : (readFinal exDec false [{ exFile with blocks := [⟨-1, [1, 1, 1, 1, 1], 5, 1, 4⟩] }]).1 = .both [none] := rfl

/-- A time from `2 ^ 63` on is shown as a negative number. -/
theorem header_time_wrong (h : Header) (h1 : 2 ^ 63 ≤ h.timeStamp) (h2 : h.timeStamp < 2 ^ 64) :
    Dict.get (headerDict h) "TimeStampUTCNanos" = some (.int ((h.timeStamp : Int) - 2 ^ 64)) ∧ (h.timeStamp : Int) - 2 ^ 64 < 0 := by
  refine ⟨?_, by omega⟩
  have := get_header (h := h) (k := "TimeStampUTCNanos") (n := toI64 h.timeStamp) (by simp [headerPairs]) []
  rw [List.append_nil] at this
  rw [this, toI64, if_neg (by omega)]

example : Dict.get (headerDict { exHeader with timeStamp := 2 ^ 63 }) "TimeStampUTCNanos" = some (.int (-(2 ^ 63))) := rfl

/-- Every file which is read leaves at least 27 references behind. -/
theorem read_leaks_wrong (dec : List Nat → Option (List Nat)) (exc : Bool) (fs : List Final) (h : ∀ f ∈ fs, ¬ f.Breaks dec) :
    27 * fs.length ≤ (readFinal dec exc fs).2.length := by
  rw [read_leaks dec exc fs h]
  clear h
  induction fs with
  | nil => simp
  | cons f fs ih =>
    have : 27 ≤ f.entries := by
      unfold Final.entries
      split
      · omega
      · omega
      · split <;> omega
    simp only [List.length_cons, List.map_cons, List.sum_cons]
    omega

example : (readFinal exDec false [exRead]).2.length = 28 := by decide

/-- Without memory for offsets `None` is put in their place, but the stack is lost for the exception. -/
theorem stack_no_memory_wrong (cs : List Column) (fs : List SFile) (h : cs ≠ []) : (readStack false false cs fs).1 = .raised :=
  (stack_raised_iff false false cs fs).2 ⟨h, Or.inr rfl⟩

end Riptide.SdsResult
