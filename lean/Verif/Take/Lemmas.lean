import Verif.Take.Model
import Verif.Take.Spec
import Verif.Work.Sched
import Verif.Common.Writes
/-! Helper lemmas for fancy get, reverse shuffle and group re-indexing. -/
namespace Riptide.Take
open Riptide.Work

theorem varOffs_eq (k n : Nat) : varOffs k n = List.range' k n := by
  fun_induction varOffs k n with
  | case1 k n h ih =>
    rw [ih, show n = 8 + (n - 8) by omega, ← List.range'_append_1]
    congr 2
    omega
  | case2 => rfl

theorem itemOffs_eq (n : Nat) : itemOffs n = List.range n := by
  unfold itemOffs
  split
  · rw [List.range_eq_range']
  · rw [varOffs_eq, List.range_eq_range']

theorem flatMap_zipIdx {α : Type} (f : Nat → List α) (c n : Nat) (h : ∀ i < n, (f i).length = c) :
    ((List.range n).flatMap f).length = n * c ∧
    ((List.range n).flatMap f).zipIdx =
      (List.range n).flatMap fun i => (f i).zipIdx (i * c) := by
  induction n with
  | zero => simp
  | succ n ih =>
    have ih := ih (fun i hi => h i (by omega))
    rw [List.range_succ, List.flatMap_append, List.flatMap_append, List.length_append, ih.1,
      List.zipIdx_append, ih.2, ih.1]
    constructor
    · simp [h n (by omega), Nat.add_mul]
    · simp

theorem zipIdx_map_range {α : Type} (f : Nat → α) (n s : Nat) :
    ((List.range n).map f).zipIdx s = (List.range n).map fun k => (f k, s + k) := by
  induction n with
  | zero => rfl
  | succ n ih => rw [List.range_succ, List.map_append, List.zipIdx_append, ih]; simp

/-- The copies in row order for a contiguous output. -/
def rowCopies (ix : Index) (valLen : Nat) (sv : Int) (itemSize : Nat) (rows : List Nat) :
    List (Int × Src) :=
  rows.flatMap fun (i : Nat) =>
    itemCopy sv itemSize
      (resolve ix.signed (!fixedSize itemSize) valLen (readIdx ix.width ((ix.vals[i]?).getD 0)))
      ((i : Int) * itemSize)

theorem kernel_rows (ix : Index) (valLen : Nat) (sv : Int) (itemSize start len : Nat) :
    kernel ix valLen sv itemSize start len ((start : Int) * itemSize) =
      rowCopies ix valLen sv itemSize (List.range' start len) := by
  unfold kernel rowCopies
  congr 1
  funext i
  congr 1
  rw [← Int.add_mul]
  congr 1
  omega

theorem mbget_perm (ix : Index) (valLen : Nat) (sv : Int) (itemSize fuel : Nat)
    {workers : Nat} {nt : Bool} {par : Option (List Nat)}
    (hs : ix.signed = true ∨ fixedSize itemSize = true)
    (h : ChunkSched workers ix.vals.length nt par)
    (hc : ix.vals.length < big ∨ nt = true ∨ sv = itemSize) :
    ∃ copies, mbget ix valLen sv itemSize fuel par = some copies ∧
      copies.Perm (rowCopies ix valLen sv itemSize (List.range ix.vals.length)) := by
  have hs' : (ix.signed || fixedSize itemSize) = true := by simpa using hs
  have hk : ∀ st ln dst, getItem ix valLen sv itemSize fuel st ln dst =
      some (kernel ix valLen sv itemSize st ln dst) := by
    intro st ln dst; unfold getItem; rw [if_pos hs']
  unfold mbget
  rcases h.cases with ⟨rfl, _⟩ | ⟨calls, rfl, hn, hp⟩
  · refine ⟨_, hk _ _ _, ?_⟩
    have := kernel_rows ix valLen sv itemSize 0 ix.vals.length
    simp only [Int.natCast_zero, Int.zero_mul] at this
    rw [this, List.range_eq_range']
  · have hsv : sv = itemSize := by
      rcases hc with h | h | h
      · exact absurd (Or.inl h) hn
      · exact absurd (Or.inr h) hn
      · exact h
    subst hsv
    have hm := mapM_some (fun b => getItem ix valLen itemSize itemSize fuel (chunk * b)
        (blockLen ix.vals.length chunk (blockLastGeneric ix.vals.length chunk) b)
        (((chunk * b : Nat) : Int) * itemSize))
      (fun b => rowCopies ix valLen itemSize itemSize (blockRows ix.vals.length chunk b)) calls
      (by intro b _; rw [hk, kernel_rows]; rfl)
    refine ⟨_, by simp only; rw [hm]; rfl, ?_⟩
    exact blocks_perm (rowCopies ix valLen itemSize itemSize)
      (by intro x y; simp [rowCopies]) rfl hp

end Riptide.Take
