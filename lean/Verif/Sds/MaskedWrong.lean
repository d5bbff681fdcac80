import Verif.Sds.MaskedProps
/-! # **C143**: where reading with a mask goes wrong -/
namespace Riptide.Sds.Masked
open Riptide.Sds

/-- The entries of arrays which are written one after the other, and the bytes. -/
def lay (c : Codec) : Nat → List Source → List Entry × List Nat
  | _, [] => ([], [])
  | off, s :: l =>
    let w := writeArr c false 0 s.arr off
    let r := lay c (off + w.2.length) l
    (⟨w.1, s.flags⟩ :: r.1, w.2 ++ r.2)

/-- A file of these arrays. -/
def mkFile (t : Nat) (l : List Source) : MFile := ⟨(lay toy 0 l).2, t, (lay toy 0 l).1⟩

/-- A column of four rows. -/
def col4 : Source := ⟨⟨[4], 1, [5, 6, 7, 8]⟩, 3⟩

/-- A column of two rows. -/
def col2 : Source := ⟨⟨[2], 1, [1, 2]⟩, 3⟩

/-- The categories of a column, which are no column: two and five of them. -/
def cats2 : Source := ⟨⟨[2], 1, [97, 98]⟩, 2⟩
@[inherit_doc cats2]
def cats5 : Source := ⟨⟨[5], 1, [97, 98, 99, 100, 101]⟩, 2⟩

/-- A scalar. -/
def scalar : Source := ⟨⟨[], 1, [9]⟩, 4⟩

theorem wrotes_lay (l : List Source) (hok : ∀ s ∈ l, s.arr.Ok) : ∀ (off : Nat) (f pre : List Nat), pre.length = off →
    f = pre ++ (lay toy off l).2 → Wrotes toy f (lay toy off l).1 l := by
  induction l with
  | nil => intro _ _ _ _ _; exact .nil
  | cons s l ih =>
    intro off f pre hp hf
    refine .cons ⟨rfl, hok s (by simp), false, 0, off, rfl, ?_, ?_⟩ (ih (fun s hs => hok s (by simp [hs])) _ f (pre ++ (writeArr toy false 0 s.arr off).2) ?_ ?_)
    · rw [hf]
      show HasAt (pre ++ ((writeArr toy false 0 s.arr off).2 ++ (lay toy _ l).2)) off _
      subst hp
      simp [HasAt, readAt]
    · show ¬(0 < (writeArr toy false 0 s.arr off).1.bandCount ∧ _)
      rintro ⟨h, _⟩
      obtain ⟨bs', hw⟩ := write_plain toy false 0 s.arr off (by simp)
      rw [hw] at h
      exact absurd h (by simp)
    · rw [List.length_append, hp]
    · rw [hf, List.append_assoc]
      rfl

/-- Such a file has the arrays. -/
theorem wrotes_mkFile (t : Nat) (l : List Source) (hok : ∀ s ∈ l, s.arr.Ok) : Wrotes toy (mkFile t l).bytes (mkFile t l).entries l :=
  wrotes_lay l hok 0 _ [] rfl rfl

theorem means_of {l : List Bool} : (MaskArg.bools l 0 1 l.length).Means l := by
  refine ⟨rfl, fun i hi => ⟨by omega, ?_⟩⟩
  congr 1; omega

/-! ## Cases which are right -/

example : readOne toy (mkFile 2 [cats2, col4]) (.bools [true, false, false, true] 0 1 4) =
    some [.made [2] [some 97, some 98], .made [2] [some 5, some 8]] :=
  one_file_same_length toy_lawful (wrotes_mkFile 2 [cats2, col4] (by simp [cats2, col4]; exact ⟨⟨by decide, by decide, by decide⟩, ⟨by decide, by decide, by decide⟩⟩))
    means_of (by simp) (by decide)

example : readMany toy [mkFile 2 [col4, cats2], mkFile 2 [col2]] (.bools [true, false, false, true] 0 1 4) none =
    .tables [[.made [2] [some 5, some 8], .made [2] [some 97, some 98]], [.made [1] [some 1]]] := by decide

example : Allowed (some true) 2 [[col4, cats2], [col2]] := by
  intro k hk ss hs r hr
  simp at hk
  subst hk
  simp at hs
  rcases hs with rfl | rfl <;> simp [firstRows, col4, col2] at hr ⊢ <;> omega

example : readMany toy [mkFile 2 [col4, cats2], mkFile 2 [col2]] (.bools [true, false, false, true] 0 1 4) (some true) = .error := by decide
example : readMany toy [mkFile 2 [col4, cats2]] (.bools [false, true] 0 1 2) (some false) = .error := by decide
example : readOne toy (mkFile 1 [cats2, col4]) (.bools [true] 0 1 1) = some [.made [2] [some 97, some 98], .made [4] [some 5, some 6, some 7, some 8]] := by
  decide
example : readOne toy (mkFile 2 [cats2, col4]) (.bools [false, false, false, false] 0 1 4) = none := by decide

/-! ## Cases which are wrong -/

/-- If the first array has fewer rows than a column, the new array is made too small and written past its end. -/
theorem first_array_shorter_undefined : ∃ l m, Wrotes toy (mkFile 2 l).bytes (mkFile 2 l).entries l ∧ (∀ s ∈ l, Column 2 s.flags → s.arr.dims = [m.length]) ∧
    readMany toy [mkFile 2 l] (.bools m 0 1 m.length) none = .undefined :=
  ⟨[cats2, col4], [true, false, true, true], wrotes_mkFile 2 _ (by simp [cats2, col4]; exact ⟨⟨by decide, by decide, by decide⟩, ⟨by decide, by decide, by decide⟩⟩),
    by decide, by decide⟩

/-- If the mask selects no row in the rows of the first array, the columns come out empty. -/
theorem first_array_shorter_empty_wrong : ∃ l m, (∀ s ∈ l, Column 2 s.flags → s.arr.dims = [m.length]) ∧ m.count true = 2 ∧
    readMany toy [mkFile 2 l] (.bools m 0 1 m.length) none = .tables [[.made [2] [some 97, some 98], .made [0] []]] ∧
    readOne toy (mkFile 2 l) (.bools m 0 1 m.length) = some [.made [2] [some 97, some 98], .made [2] [some 7, some 8]] :=
  ⟨[cats2, col4], [false, false, true, true], by decide, by decide, by decide, by decide⟩

/-- The same mask is refused if `fancy` is given, though it fits the column. -/
theorem first_array_shorter_refused : ∃ l m, (∀ s ∈ l, Column 2 s.flags → s.arr.dims = [m.length]) ∧
    ∀ k, readMany toy [mkFile 2 l] (.bools m 0 1 m.length) (some k) = .error :=
  ⟨[cats2, col4], [false, false, true, true], by decide, by decide⟩

/-- If the first array is a scalar, all columns come out empty, whatever the mask is. -/
theorem scalar_first_empty_wrong (m : List Bool) :
    readMany toy [mkFile 2 [scalar, col4]] (.bools m 0 1 m.length) none = .tables [[.absent, .made [0] []]] := by
  have hs : (MaskArg.bools m 0 1 m.length).seen = some (some m) := by
    show (if 0 + m.length ≤ m.length then _ else _) = _
    simp
  unfold readMany
  rw [hs]
  have ha : [mkFile 2 [scalar, col4]].all (accepted none m) = true := rfl
  simp only [ha, if_true]
  have hk : counted none m (mkFile 2 [scalar, col4]) = 0 := by
    simp [counted, mkFile, lay, Entry.rows, scalar, writeArr]
  simp only [List.mapM_cons, List.mapM_nil, hk]
  rfl

/-- If the first array has more rows than a column, rows of the new array may be left as the memory was. -/
theorem first_array_longer_wrong : ∃ l m, Wrotes toy (mkFile 2 l).bytes (mkFile 2 l).entries l ∧
    readMany toy [mkFile 2 l] (.bools m 0 1 m.length) (some false) =
      .tables [[.made [5] [some 97, some 98, some 99, some 100, some 101], .made [1] [none]]] :=
  ⟨[cats5, col4], [false, false, false, false, true],
    wrotes_mkFile 2 _ (by simp [cats5, col4]; exact ⟨⟨by decide, by decide, by decide⟩, ⟨by decide, by decide, by decide⟩⟩), by decide⟩

/-- One file: the mask may be longer than the columns, whatever `fancy` is; rows of the new array are left as the memory was. -/
theorem one_file_long_mask_wrong : ∃ l m, Wrotes toy (mkFile 2 l).bytes (mkFile 2 l).entries l ∧
    readOne toy (mkFile 2 l) (.bools m 0 1 m.length) = some [.made [2] [some 5, none]] :=
  ⟨[col4], [true, false, false, false, true], wrotes_mkFile 2 _ (by simp [col4]; exact ⟨by decide, by decide, by decide⟩), by decide⟩

/-- The stride of the mask is not looked at: of `[True, False]`, every other element of an array, the rows of its first two elements are read. -/
theorem strided_mask_wrong : ∃ mem m, (MaskArg.bools mem 0 2 2).Means m ∧ rowsOf m col2.arr = .made [1] [some 1] ∧
    readOne toy (mkFile 2 [col2]) (.bools mem 0 2 2) = some [.made [2] [some 1, some 2]] ∧
    readMany toy [mkFile 2 [col2]] (.bools mem 0 2 2) (some false) = .tables [[.made [2] [some 1, some 2]]] := by
  refine ⟨[true, true, false, false], [true, false], ⟨rfl, ?_⟩, by decide, by decide, by decide⟩
  intro i hi
  have : i = 0 ∨ i = 1 := by omega
  rcases this with rfl | rfl <;> decide

/-- A mask which is turned round is read outside of its memory. -/
theorem reversed_mask_undefined (mem : List Bool) (h : 2 ≤ mem.length) (c : Codec) (f : MFile) (fs : List MFile) (fancy : Option Bool) :
    (MaskArg.bools mem (mem.length - 1) (-1) mem.length).Means mem.reverse ∧
    readOne c f (.bools mem (mem.length - 1) (-1) mem.length) = none ∧
    readMany c fs (.bools mem (mem.length - 1) (-1) mem.length) fancy = .undefined := by
  have hs : (MaskArg.bools mem (mem.length - 1) (-1) mem.length).seen = none := if_neg (by omega)
  refine ⟨⟨by simp, fun i hi => ⟨by omega, ?_⟩⟩, ?_, ?_⟩
  · rw [List.getElem?_reverse hi]
    congr 1; omega
  · unfold readOne; rw [hs]
  · unfold readMany; rw [hs]

/-- A structure is not filtered, but a mask of another length is refused for it all the same. -/
theorem structures_refused : ∃ l m, (∀ s ∈ l, ¬Column 1 s.flags) ∧ (∀ k, readMany toy [mkFile 1 l] (.bools m 0 1 m.length) (some k) = .error) ∧
    readMany toy [mkFile 1 l] (.bools m 0 1 m.length) none = .tables [l.map fun s => allOf s.arr] :=
  ⟨[col2, col4], [true, false, true, true], by decide, by decide, by decide⟩

end Riptide.Sds.Masked
