import Verif.Stack.FilterStrings
/-! # Where filters of stacked columns go wrong, and examples -/
namespace Riptide.Stack
open Riptide.Sds Riptide.Convert

/-- A mask is accepted if it has as many items as there are rows, or fewer if it comes from a fancy index. -/
theorem mask_checked (f : Bool) (mask total : Nat) : maskAccepted (some f) mask total = true ↔ mask = total ∨ f = true ∧ mask ≤ total := by
  unfold maskAccepted
  cases f <;> simp <;> omega

/-- Without being told whether it does, masks of all lengths are accepted. -/
theorem mask_unchecked (mask total : Nat) : maskAccepted none mask total = true := rfl

/-- Reserved rows are not allocated when there is a filter, but if the last file lacks the column, they are filled all the same: over the end. -/
theorem reserve_overrun : ∃ l k extra, king (blocks l) = some k ∧ Stackable l [] 1 ∧ ∃ mask : List Bool, mask.length = totalRows 0 l ∧
    ∀ m : List Nat, m.length = rowSize k * filteredRows (firstCounts mask 0 l).sum extra (firstCounts mask 0 l) →
      fillAllFiltered k mask (fpackets extra 0 0 l (firstCounts mask 0 l)) m = none := by
  refine ⟨[⟨some ⟨5, 4, [1], true, true⟩, [1, 2, 3, 4], 1⟩, ⟨none, [], 1⟩], ⟨5, 4, [1], true, true⟩, 1, by decide, ?_, [true, true], by decide, ?_⟩
  · refine ⟨by decide, ⟨by decide, by decide, .inl (by decide)⟩, .inl (by decide), ?_, ?_⟩
    · intro p hp b hb
      simp at hp
      rcases hp with rfl | rfl <;> simp at hb
      subst hb
      decide
    · intro p hp h1 h2
      simp at hp
      rcases hp with rfl | rfl
      · exact absurd h2 (by decide)
      · exact absurd rfl h1
  · intro m hm
    have hm' : m.length = 8 := hm
    match m, hm' with
    | [a, b, c, d, e, f, g, h], _ => rfl

/-- In Fortran order all rows of a file are copied to memory that is allocated for the selected ones: over the end, whatever is read. -/
theorem columns_overrun : ∃ (p : Part) (k : Block) (mask : List Bool), p.block = some k ∧ king (blocks [p]) = some k ∧ mask.length = p.rows ∧
    ∀ buf m : List Nat, m.length = rowSize k * filteredRows (firstCounts mask 0 [p]).sum 0 (firstCounts mask 0 [p]) →
      fillColumnsFiltered k (firstCounts mask 0 [p]).sum ⟨0, 1, 0, 1, p⟩ buf m = none := by
  refine ⟨⟨some ⟨1, 1, [2, 1], false, true⟩, [1, 2], 2⟩, ⟨1, 1, [2, 1], false, true⟩, [true, false], rfl, by decide, rfl, ?_⟩
  intro buf m hm
  have hm' : m.length = 1 := hm
  match m, hm' with
  | [a], _ =>
    match buf with
    | [] => rfl
    | [x] => rfl
    | x :: y :: buf => rfl

/-- The columns of a file may have different lengths, which is only warned of.  The counts are those of the first column: a longer column is given fewer
rows than are selected of it. -/
theorem lengths_overrun : ∃ (l l' : List Part) (k : Block) (mask : List Bool), king (blocks l') = some k ∧ mask.length = totalRows 0 l ∧
    ∀ cs, cs = laterCounts mask 0 l' (firstCounts mask 0 l) →
    ∀ m : List Nat, m.length = rowSize k * filteredRows (firstCounts mask 0 l).sum 0 cs → fillAllFiltered k mask (fpackets 0 0 0 l' cs) m = none := by
  refine ⟨[⟨some ⟨1, 1, [1], true, true⟩, [1], 1⟩, ⟨some ⟨1, 1, [1], true, true⟩, [2], 1⟩],
    [⟨some ⟨1, 1, [2], true, true⟩, [1, 2], 1⟩, ⟨some ⟨1, 1, [1], true, true⟩, [3], 1⟩], ⟨1, 1, [2], true, true⟩, [true, true], by decide, by decide, ?_⟩
  intro cs hcs m hm
  have hc : cs = [1, 0] := hcs
  subst hc
  have hm' : m.length = 1 := hm
  match m, hm' with
  | [a], _ => rfl

/-- A column without a filter keeps the rows of all files if it comes before the columns with one, and else loses those of the files which are filtered
out. -/
theorem position_matters : ∃ (l : List Part) (mask : List Bool), outsideRows none l = [2, 3] ∧ outsideRows (some (firstCounts mask 0 l)) l = [2, 0] := by
  refine ⟨[⟨some ⟨1, 1, [2], true, true⟩, [1, 2], 2⟩, ⟨some ⟨1, 1, [3], true, true⟩, [3, 4, 5], 3⟩], [true, false, false, false, false], by decide, by decide⟩

/-- If some row of each file is selected, it makes no difference. -/
theorem position_irrelevant {mask : List Bool} {l : List Part} (h : ∀ c ∈ firstCounts mask 0 l, c ≠ 0) :
    outsideRows (some (firstCounts mask 0 l)) l = outsideRows none l := by
  have key : ∀ (l : List Part) (cs : List Nat), cs.length = l.length → (∀ c ∈ cs, c ≠ 0) →
      List.zipWith (fun p c => if c = 0 then 0 else Part.rows p) l cs = l.map Part.rows := by
    intro l
    induction l with
    | nil => intro cs _ _; cases cs <;> rfl
    | cons p l ih =>
      intro cs hl hc
      cases cs with
      | nil => simp at hl
      | cons c cs =>
        rw [List.zipWith_cons_cons, if_neg (hc c (by simp)), ih cs (by simpa using hl) (fun d hd => hc d (by simp [hd])), List.map_cons]
  exact key l _ (firstCounts_length mask l 0) h

/-! ### Examples -/

/-- Bytes, then no column, then 16-bit integers. -/
def threeFiles : List Part := [⟨some ⟨1, 1, [3], true, true⟩, [1, 2, 255], 3⟩, ⟨none, [], 2⟩, ⟨some ⟨3, 2, [2], true, true⟩, [4, 0, 5, 1], 2⟩]

theorem threeFiles_stackable : Stackable threeFiles [] 1 := by
  refine ⟨by decide, ⟨by decide, by decide, .inl (by decide)⟩, .inl (by decide), ?_, ?_⟩
  · intro p hp b hb
    simp [threeFiles] at hp
    rcases hp with rfl | rfl | rfl <;> simp at hb <;> subst hb <;> decide
  · intro p hp h1 h2
    simp [threeFiles] at hp
    rcases hp with rfl | rfl | rfl
    · exact absurd h2 (by decide)
    · exact absurd rfl h1
    · exact absurd h2 (by decide)

example := filtered_numbers_partial (extra := 3) threeFiles_stackable
  (by
    intro b hb
    simp [blocks, threeFiles] at hb
    rcases hb with rfl | rfl
    · exact ⟨⟨by decide, by decide⟩, by decide⟩
    · exact ⟨⟨by decide, by decide⟩, by decide⟩)
  (by
    intro p hp b hb h0
    simp [threeFiles] at hp
    rcases hp with rfl | rfl | rfl <;> simp at hb <;> subst hb <;> exact absurd h0 (by decide)) (by decide) [true, false, true, false, true, false, true]
  (.inr (by decide))

example : firstCounts [true, false, true, false, true, false, true] 0 threeFiles = [2, 1, 1] := by decide

example : fillAllFiltered ⟨3, 2, [2], true, true⟩ [true, false, true, false, true, false, true]
    (fpackets 3 0 0 threeFiles [2, 1, 1]).reverse [9, 9, 9, 9, 9, 9, 9, 9] = some [1, 0, 255, 255, 0, 128, 5, 1] := by decide

/-- Strings of bytes of two lengths and strings of characters. -/
def mixedStrings : List Part := [⟨some ⟨19, 8, [2], true, true⟩, [65, 0, 0, 0, 66, 0, 0, 0, 67, 0, 0, 0, 68, 0, 0, 0], 2⟩,
  ⟨some ⟨18, 2, [2], true, true⟩, [97, 98, 99, 100], 2⟩]

theorem mixedStrings_stackable : Stackable mixedStrings [] 1 := by
  refine ⟨by decide, ⟨by decide, by decide, .inl (by decide)⟩, .inl (by decide), ?_, ?_⟩
  · intro p hp b hb
    simp [mixedStrings] at hp
    rcases hp with rfl | rfl <;> simp at hb <;> subst hb <;> decide
  · intro p hp h1 h2
    simp [mixedStrings] at hp
    rcases hp with rfl | rfl
    · exact absurd h2 (by decide)
    · exact absurd h2 (by decide)

example := filtered_strings_partial (extra := 0) mixedStrings_stackable
  (by
    intro b hb
    simp [blocks, mixedStrings] at hb
    rcases hb with rfl | rfl
    · exact ⟨.inr rfl, by decide⟩
    · exact ⟨.inl rfl, by decide⟩) (by decide) [false, true, true, false] (.inl rfl)

example : king (blocks mixedStrings) = some ⟨19, 8, [2], true, true⟩ ∧
    fillAllFiltered ⟨19, 8, [2], true, true⟩ [false, true, true, false]
      (fpackets 0 0 0 mixedStrings (firstCounts [false, true, true, false] 0 mixedStrings)) (List.replicate 16 7) =
      some [67, 0, 0, 0, 68, 0, 0, 0, 97, 0, 0, 0, 98, 0, 0, 0] := by decide

example : ∀ c ∈ firstCounts [false, true, true, false] 0 mixedStrings, c ≠ 0 := by decide

/-- A file whose column is not compatible and has rows is filled with what no description says, with a filter as without. -/
theorem incompatible_undescribed (k b : Block) (mask : List Bool) (x : FPacket) (m : List Nat) (hb : x.part.block = some b)
    (hc : (compat false k b).2.ok = false) (ho : x.part.own ≠ 0) : fillFiltered k mask x m = none ∧ fill k ⟨x.off, x.gap, x.part⟩ m = none := by
  unfold fillFiltered fill
  simp [hb, hc, ho]

example (mask : List Bool) (m : List Nat) := incompatible_undescribed ⟨1, 1, [1], false, false⟩ ⟨18, 3, [1], false, false⟩ mask
  ⟨0, 1, 0, 1, ⟨some ⟨18, 3, [1], false, false⟩, [97, 98, 99], 1⟩⟩ m rfl (by decide) (by decide)

end Riptide.Stack
