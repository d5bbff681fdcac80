import Verif.Record.Model
import Verif.Record.Spec
import Verif.Work.Elem
/-! # Record arrays to columns (C42) -/
namespace Riptide.Record
open Riptide.Work

/-- One record's field. -/
def cell (f : Field) (itemSize r : Nat) : List (Nat × Int) :=
  copy (r * f.size) (f.off + r * itemSize) f.size

theorem flatMap_congr_mem {α β : Type} {l : List α} {f g : α → List β}
    (h : ∀ a ∈ l, f a = g a) : l.flatMap f = l.flatMap g := by
  simp only [List.flatMap_def]
  rw [List.map_congr_left h]

theorem copy_add (dst : Nat) (src : Int) (a b : Nat) :
    copy dst src (a + b) = copy dst src a ++ copy (dst + a) (src + a) b := by
  unfold copy
  rw [List.range_add, List.map_append, List.map_map]
  congr 1
  apply List.map_congr_left
  intro x _
  simp only [Function.comp, Prod.mk.injEq]
  omega

theorem words_eq (dst : Nat) (src : Int) (n : Nat) : words dst src n = copy dst src n := by
  induction dst, src, n using words.induct with
  | case1 dst src n h ih =>
    rw [words, dif_pos h, ih]
    have := copy_add dst src 8 (n - 8)
    rw [show 8 + (n - 8) = n by omega] at this
    exact this.symm
  | case2 dst src n h => rw [words, dif_neg h]

theorem gather_eq (f : Field) (lanes itemSize start : Nat)
    (hw : itemSize * (lanes - 1) < 2 ^ 31) :
    gatherRows f lanes itemSize start = (List.range' start lanes).flatMap (cell f itemSize) := by
  unfold gatherRows
  rw [List.range'_eq_map_range, List.flatMap_map]
  apply flatMap_congr_mem
  intro k hk
  have hk' : k < lanes := by simpa using hk
  unfold cell
  have hlt : itemSize * k < 2 ^ 31 :=
    Nat.lt_of_le_of_lt (Nat.mul_le_mul_left itemSize (by omega)) hw
  have : IT.i32.wrap ((itemSize : Int) * (k : Int)) = (itemSize : Int) * (k : Int) := by
    rw [← Int.natCast_mul]
    apply IT.wrap_of_inRange _ (by decide)
    generalize itemSize * k = m at hlt
    simp only [IT.InRange, IT.lo, IT.hi, IT.i32]
    constructor
    · simp
    · simp; omega
  rw [this]
  have e1 : start * f.size + k * f.size = (start + k) * f.size := by
    rw [Nat.add_mul]
  have e2 : ((f.off + start * itemSize : Nat) : Int) + (itemSize : Int) * (k : Int) =
      (f.off : Int) + ((start + k : Nat) : Int) * (itemSize : Int) := by
    rw [Int.natCast_add, Int.natCast_mul, Int.natCast_add, Int.add_mul,
      Int.mul_comm (itemSize : Int) (k : Int), Int.add_assoc]
  rw [e1, e2]

theorem range'_split {a b c : Nat} (h1 : a ≤ b) (h2 : b ≤ c) :
    List.range' a (c - a) = List.range' a (b - a) ++ List.range' b (c - b) := by
  have := List.range'_append (s := a) (m := b - a) (n := c - b) (step := 1)
  rw [show a + 1 * (b - a) = b by omega, show b - a + (c - b) = c - a by omega] at this
  exact this.symm

theorem vectors_eq (f : Field) (lanes itemSize start endRow : Nat)
    (hw : itemSize * (lanes - 1) < 2 ^ 31) :
    vectors f lanes itemSize start endRow =
      (List.range' start (endRow - start)).flatMap (cell f itemSize) := by
  induction start using vectors.induct lanes endRow with
  | case1 start h ih =>
    rw [vectors, dif_pos h, ih, gather_eq f lanes itemSize start hw,
      range'_split (a := start) (b := start + lanes) (c := endRow) (by omega) (by omega),
      List.flatMap_append]
    congr 3; omega
  | case2 start h => rw [vectors, dif_neg h]; rfl

theorem column_eq (f : Field) (itemSize start endRow : Nat) (hw : itemSize * 7 < 2 ^ 31) :
    column f itemSize start endRow =
      (List.range' start (endRow - start)).flatMap (cell f itemSize) := by
  unfold column
  split
  · rfl
  · split
    · exact vectors_eq f 8 itemSize start endRow (by omega)
    · split
      · exact vectors_eq f 4 itemSize start endRow (by omega)
      · apply flatMap_congr_mem
        intro r _
        rw [words_eq]; rfl

theorem convert_eq (f : Field) (itemSize start total : Nat) (hw : itemSize * 7 < 2 ^ 31) :
    convert f itemSize start total =
      (List.range' start (total - start)).flatMap (cell f itemSize) := by
  induction start using convert.induct itemSize total with
  | case1 start h endRow ih =>
    have : 0 < chunkRows itemSize := by unfold chunkRows; omega
    have e : min total (start + chunkRows itemSize) = endRow := rfl
    rw [convert, dif_pos h]
    dsimp only
    rw [e, ih, column_eq f itemSize start endRow hw,
      range'_split (a := start) (b := endRow) (c := total) (by omega) (by omega),
      List.flatMap_append]
  | case2 start h =>
    rw [convert, dif_neg h, show total - start = 0 by omega]; rfl

/-- The items of the parallel path, one after the other, are all the rows. -/
theorem items_cover (g : Nat → List (Nat × Int)) (total m : Nat) :
    (List.range m).flatMap (fun w => (List.range' (w * chunk)
      (min total (w * chunk + chunk) - w * chunk)).flatMap g) =
      (List.range (min total (m * chunk))).flatMap g := by
  induction m with
  | zero => simp
  | succ m ih =>
    rw [List.range_succ, List.flatMap_append, ih, List.flatMap_singleton]
    have : List.range (min total ((m + 1) * chunk)) =
        List.range (min total (m * chunk)) ++
          List.range' (m * chunk) (min total (m * chunk + chunk) - m * chunk) := by
      rw [List.range_eq_range', List.range_eq_range']
      by_cases h : m * chunk ≤ total
      · rw [Nat.min_eq_right h, Nat.succ_mul]
        have := range'_split (a := 0) (b := m * chunk) (c := min total (m * chunk + chunk))
          (by omega) (by omega)
        simpa using this
      · rw [Nat.succ_mul, show min total (m * chunk + chunk) - m * chunk = 0 by omega,
          show min total (m * chunk + chunk) = min total (m * chunk) by omega]
        simp
    rw [this, List.flatMap_append]

theorem flatMap_cells {α : Type} (g : Nat → α) (rows size : Nat) :
    (List.range rows).flatMap (fun r => (List.range size).map fun (k : Nat) => g (r * size + k)) =
      (List.range (rows * size)).map g := by
  induction rows with
  | zero => simp
  | succ n ih =>
    rw [List.range_succ, List.flatMap_append, ih, List.flatMap_singleton, Nat.succ_mul,
      List.range_add, List.map_append, List.map_map]
    rfl

theorem flatMap_perm {α β : Type} {l₁ l₂ : List α} (h : l₁.Perm l₂) (f : α → List β) :
    (l₁.flatMap f).Perm (l₂.flatMap f) := by
  simp only [List.flatMap_def]
  exact (h.map f).flatten

/-- All that is copied to a column, for every schedule. -/
theorem toColumn_perm (numArrays : Nat) (f : Field) (itemSize rows : Nat) (calls : List Nat)
    (hw : itemSize * 7 < 2 ^ 31) (hi : 0 < itemSize) (ha : 0 < numArrays)
    (hc : calls.Perm (List.range (items rows))) :
    ∃ ps, toColumn numArrays f itemSize rows calls = some ps ∧
      ps.Perm ((List.range rows).flatMap (cell f itemSize)) := by
  unfold toColumn
  rw [if_neg (by omega), if_neg (by omega)]
  split
  · refine ⟨_, rfl, (flatMap_perm hc _).trans ?_⟩
    have hcong : (List.range (items rows)).flatMap (fun w =>
        convert f itemSize (w * chunk) (min rows (w * chunk + chunk))) =
        (List.range (items rows)).flatMap (fun w => (List.range' (w * chunk)
          (min rows (w * chunk + chunk) - w * chunk)).flatMap (cell f itemSize)) := by
      apply flatMap_congr_mem
      intro w _
      exact convert_eq f itemSize _ _ hw
    rw [hcong, items_cover]
    have : min rows (items rows * chunk) = rows := by
      unfold items chunk; omega
    rw [this]
  · refine ⟨_, rfl, ?_⟩
    rw [convert_eq f itemSize 0 rows hw, List.range_eq_range']
    simp

/-- The byte of the record array which belongs at byte `d` of the column. -/
def want (mem : List Nat) (f : Field) (itemSize d : Nat) : Nat :=
  (mem[d / f.size * itemSize + (f.off + d % f.size)]?).getD 0

theorem src_lt {f : Field} {itemSize rows r k : Nat} (hf : f.off + f.size ≤ itemSize)
    (hr : r < rows) (hk : k < f.size) : r * itemSize + (f.off + k) < rows * itemSize := by
  have : (r + 1) * itemSize ≤ rows * itemSize := Nat.mul_le_mul_right _ hr
  rw [Nat.succ_mul] at this
  omega

/-- **C42.** For every schedule of the worker pool, every field that lies inside the record and every
record of less than 2^31 / 7 bytes, each output column holds exactly the bytes of its field. -/
theorem record_columns_partial (numArrays : Nat) (f : Field) (itemSize rows : Nat) (mem : List Nat)
    (workers : Nat) (noThreading : Bool) (calls : List Nat)
    (hsched : CountedWork workers (items rows) noThreading calls)
    (hw : itemSize * 7 < 2 ^ 31) (hi : 0 < itemSize) (ha : 0 < numArrays)
    (hf : f.off + f.size ≤ itemSize) (hm : mem.length = rows * itemSize) :
    ∃ out, colMajor numArrays f itemSize rows mem calls = some out ∧
      Spec.IsColumn mem f.off f.size itemSize rows out := by
  obtain ⟨ps, e, hp⟩ := toColumn_perm numArrays f itemSize rows calls hw hi ha hsched.perm
  unfold colMajor run
  rw [e, Option.bind_some]
  have hval : ∀ p ∈ ps, (if 0 ≤ p.2 then (mem[p.2.toNat]?).map fun v => (p.1, v) else none) =
      some (p.1, want mem f itemSize p.1) := by
    intro p hpm
    have := hp.mem_iff.mp hpm
    simp only [List.mem_flatMap, List.mem_range, cell, copy, List.mem_map] at this
    obtain ⟨r, hr, k, hk, rfl⟩ := this
    have hlt := src_lt hf hr hk
    rw [← hm] at hlt
    have ed : (r * f.size + k) / f.size = r := by
      rw [Nat.mul_comm, Nat.mul_add_div (by omega), Nat.div_eq_of_lt hk]; omega
    have em : (r * f.size + k) % f.size = k := by
      rw [Nat.mul_comm, Nat.mul_add_mod, Nat.mod_eq_of_lt hk]
    have es : ((f.off : Int) + (r : Int) * (itemSize : Int) + (k : Int)) =
        ((r * itemSize + (f.off + k) : Nat) : Int) := by
      rw [Int.natCast_add, Int.natCast_mul, Int.natCast_add]; omega
    dsimp only
    rw [es, if_pos (by omega), Int.toNat_natCast]
    unfold want
    rw [ed, em, List.getElem?_eq_getElem hlt]
    rfl
  rw [mapM_some _ _ ps hval, Option.bind_some]
  have hwr : (ps.map fun p => (p.1, want mem f itemSize p.1)).Perm
      (((List.range (rows * f.size)).map (want mem f itemSize)).zipIdx.map Prod.swap) := by
    rw [← range_zipIdx_swap]
    refine (hp.map _).trans ?_
    rw [List.map_flatMap]
    have := flatMap_cells (fun d => (d, want mem f itemSize d)) rows f.size
    rw [← this]
    apply List.Perm.of_eq
    apply flatMap_congr_mem
    intro r _
    simp [cell, copy, List.map_map, Function.comp_def]
  have := runWrites_perm hwr
  rw [List.length_map, List.length_range] at this
  refine ⟨_, this, ?_, ?_⟩
  · simp
  · intro r hr k hk
    have hlt := src_lt hf hr hk
    rw [← hm] at hlt
    have h1 : r * f.size + k < rows * f.size := by
      have : (r + 1) * f.size ≤ rows * f.size := Nat.mul_le_mul_right _ hr
      rw [Nat.succ_mul] at this; omega
    have ed : (r * f.size + k) / f.size = r := by
      rw [Nat.mul_comm, Nat.mul_add_div (by omega), Nat.div_eq_of_lt hk]; omega
    have em : (r * f.size + k) % f.size = k := by
      rw [Nat.mul_comm, Nat.mul_add_mod, Nat.mod_eq_of_lt hk]
    simp only [List.getElem?_map, List.getElem?_range h1, Option.map_some, want, ed, em]
    rw [List.getElem?_eq_getElem hlt]
    rfl

/-- Eleven records of 5 bytes with a 4-byte field at offset 1: one gather of 8 rows and 3 single
rows. -/
example : colMajor 2 ⟨1, 4⟩ 5 11 (List.range 55) [0] =
    some ((List.range 11).flatMap fun r => (List.range 4).map fun (k : Nat) => some (5 * r + 1 + k)) := by
  decide +kernel

example : CountedWork 1 (items 11) true (List.range (items 11)) := .direct rfl

/-- With no columns and at least one row the loop never ends (`startRow` only advances while a column
is being copied). -/
theorem no_columns_never_ends (f : Field) (itemSize rows : Nat) (mem calls : List Nat)
    (h : 0 < rows) : colMajor 0 f itemSize rows mem calls = none := by
  unfold colMajor toColumn
  by_cases hi : itemSize = 0
  · simp [hi]
  · simp [hi, h]

/-- Why the record size is bounded: with records of 2^30 bytes lane 2 of a gather is read 2^31 bytes
*before* the first row of the group. -/
theorem huge_records_read_backwards :
    (8, -2147483648) ∈ gatherRows ⟨0, 4⟩ 8 (2 ^ 30) 0 := by
  decide +kernel

end Riptide.Record
