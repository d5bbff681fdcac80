import Verif.Sds.ShareLemmas
/-! # C125: what a table in shared memory is read back as -/
namespace Riptide.Sds

theorem prod_foldr : ∀ l : List Nat, prod l = l.foldr (· * ·) 1
  | [] => rfl
  | d :: l => by rw [prod_cons, prod_foldr l]; rfl

theorem padTo_units (n : Nat) : padTo n = 512 * units n := by unfold padTo units; omega

theorem int64_bits64 {s : Int} (h : -(2 ^ 63 : Int) ≤ s ∧ s < 2 ^ 63) : int64 (bits64 s) = s := by
  unfold int64 bits64
  split <;> omega

theorem bits64_lt (s : Int) : bits64 s < 2 ^ 64 := by unfold bits64; omega

theorem recorded_of {α : Type} (z : α) {l : List α} (h : l ≠ []) (h5 : l.length ≤ 5) : recorded z l = l := by
  unfold recorded; rw [if_neg h, List.take_of_length_le h5]

theorem fixType_plain (d n : Nat) : fixType d n = plainType d n := by
  unfold fixType plainType
  split
  · rename_i h; subst h
    split
    · rename_i h; subst h; rfl
    · rename_i h; split <;> simp_all
  · split
    · rename_i h; subst h
      split
      · rename_i h; subst h; rfl
      · rename_i h; split <;> simp_all
    · split <;> simp_all

/-- An item within some bytes of a memory. -/
theorem sub_item {m d : List Nat} {off p n : Nat} (h : HasAt m off d) (hp : p + n ≤ d.length) :
    (m.drop (off + p)).take n = (d.drop p).take n := by
  rw [hasAt_getElem] at h
  apply List.ext_getElem?
  intro k
  by_cases hk : k < n
  · rw [List.getElem?_take_of_lt hk, List.getElem?_take_of_lt hk, List.getElem?_drop, List.getElem?_drop, ← h (p + k) (by omega), Nat.add_assoc]
  · have h1 : ((m.drop (off + p)).take n).length ≤ k := by rw [List.length_take]; omega
    have h2 : ((d.drop p).take n).length ≤ k := by rw [List.length_take]; omega
    rw [List.getElem?_eq_none h1, List.getElem?_eq_none h2]

theorem view_shows {a : Src} (ha : a.Ok) {off : Nat} {d m : List Nat} (hd : a.copied = some d) (hm : HasAt m off d)
    (hin : off + d.length ≤ m.length) : Shows (viewOf (a.block off)) m a := by
  have hsz : a.size = a.dims.foldr (· * ·) 1 * a.item := by unfold Src.size; rw [prod_foldr]
  have hdl : d = (a.mem.drop a.base).take a.size := by
    unfold Src.copied readAt at hd
    split at hd
    · exact (Option.some.inj hd).symm
    · nomatch hd
  have hlen : d.length = a.size := by
    have := ha.inside
    rw [hdl, List.length_take, List.length_drop, hsz]; omega
  have hst : (viewOf (a.block off)).strides = a.strides := by
    show ((recorded 0 a.strides).map bits64).map int64 = a.strides
    have h1 : a.strides ≠ [] := by
      intro h
      have := ha.strides
      rw [h] at this
      exact ha.some_dims (List.length_eq_zero_iff.mp this.symm)
    rw [recorded_of 0 h1 (by rw [ha.strides]; exact ha.few_dims), List.map_map]
    conv => rhs; rw [← List.map_id a.strides]
    apply List.map_congr_left
    intro s hs
    exact int64_bits64 (ha.strideRoom s hs)
  have hnr : ¬(fixType a.dtype a.item = 18 ∧ a.item = 0) := by
    rintro ⟨h1, h2⟩
    rcases ha.width with h | h
    · omega
    · unfold fixType at h1
      split at h1
      · split at h1 <;> omega
      · split at h1
        · split at h1 <;> omega
        · exact h h1
  have hit : (viewOf (a.block off)).item = a.item := by
    show (if fixType a.dtype a.item = 18 ∧ a.item = 0 then 1 else a.item) = a.item
    rw [if_neg hnr]
  refine ⟨recorded_of 0 ha.some_dims ha.few_dims, hit, fixType_plain _ _, rfl, ?_⟩
  intro idx hidx
  obtain ⟨p0, p1⟩ := ha.packed idx hidx
  rw [hst, hit]
  show ∃ l, itemAt a.mem a.base a.strides a.item idx = some l ∧ itemAt m off a.strides a.item idx = some l
  obtain ⟨p, hp⟩ := Int.eq_ofNat_of_zero_le p0
  rw [hp] at p1
  have p2 : p + a.item ≤ a.size := by rw [hsz]; exact_mod_cast p1
  have hin2 := ha.inside
  rw [← hsz] at hin2
  have key : ∀ (mem : List Nat) (b : Nat), b + a.size ≤ mem.length →
      itemAt mem b a.strides a.item idx = some ((mem.drop (b + p)).take a.item) := by
    intro mem b hb
    unfold itemAt
    have e : (b : Int) + spot a.strides idx = ((b + p : Nat) : Int) := by rw [hp]; push_cast; rfl
    simp only [e, Int.toNat_natCast]
    rw [if_pos ⟨by omega, by omega⟩]
  refine ⟨_, key a.mem a.base hin2, ?_⟩
  rw [key m off (by omega), sub_item hm (by omega), hdl, ← sub_item (m := a.mem) (off := a.base) (d := (a.mem.drop a.base).take a.size) ?_ ?_]
  · rw [hasAt_iff]
    have : ((a.mem.drop a.base).take a.size).length = a.size := by rw [← hdl]; exact hlen
    rw [this]
    exact ⟨.inr (by omega), rfl⟩
  · rw [← hdl]; omega

theorem copied_ok {a : Src} (ha : a.Ok) : ∃ d, a.copied = some d ∧ d.length = a.size := by
  have hsz : a.size = a.dims.foldr (· * ·) 1 * a.item := by unfold Src.size; rw [prod_foldr]
  have := ha.inside
  rw [← hsz] at this
  refine ⟨(a.mem.drop a.base).take a.size, ?_, ?_⟩
  · unfold Src.copied readAt; rw [if_pos (.inr this)]
  · rw [List.length_take, List.length_drop]; omega

theorem copied_all : ∀ {l : List Src}, (∀ a ∈ l, a.Ok) →
    ∃ ds : List (List Nat), l.mapM Src.copied = some ds ∧ ds.length = l.length ∧ ds.map List.length = l.map Src.size ∧
      ∀ (i : Nat) (h1 : i < l.length) (h2 : i < ds.length), l[i].copied = some ds[i]
  | [], _ => ⟨[], rfl, rfl, rfl, by intro i h; simp at h⟩
  | a :: l, h => by
    obtain ⟨d, hd, hl⟩ := copied_ok (h a (by simp))
    obtain ⟨ds, e1, e2, e3, e4⟩ := copied_all (l := l) (fun b hb => h b (by simp [hb]))
    refine ⟨d :: ds, by simp [List.mapM_cons, hd, e1], by simp [e2], by simp [hl, e3], ?_⟩
    intro i h1 h2
    match i with
    | 0 => exact hd
    | i + 1 => exact e4 i (by simpa using h1) (by simpa using h2)

theorem block_room {a : Src} (ha : a.Ok) {off : Nat} (ho : off + a.size < 2 ^ 64) : (a.block off).Fits := by
  have h1 : a.strides ≠ [] := by
    intro h
    have := ha.strides
    rw [h] at this
    exact ha.some_dims (List.length_eq_zero_iff.mp this.symm)
  have e1 : recorded 0 a.dims = a.dims := recorded_of 0 ha.some_dims ha.few_dims
  have e2 : recorded 0 a.strides = a.strides := recorded_of 0 h1 (by rw [ha.strides]; exact ha.few_dims)
  refine ⟨?_, ?_, ?_⟩
  · show (recorded 0 a.dims).length ≤ 5
    rw [e1]; exact ha.few_dims
  · show ((recorded 0 a.strides).map bits64).length = (recorded 0 a.dims).length
    rw [e1, e2, List.length_map]; exact ha.strides
  · unfold XBlk.members
    show ∀ p ∈ [(2, 0), (2, 128), (1, 253), (1, 1), (1, a.dtype), (1, (recorded 0 a.dims).length), (4, a.item), (4, a.flags)] ++
      ((five (recorded 0 a.dims)).map fun d => (8, d)) ++ ((five ((recorded 0 a.strides).map bits64)).map fun d => (8, d)) ++
      [(8, off), (8, a.size), (8, a.size), (4, 0), (4, 0)], p.2 < 256 ^ p.1
    rw [e1, e2]
    have g1 : ∀ d ∈ five a.dims, d < 2 ^ 64 := getD_five (by decide) ha.dimRoom
    have g2 : ∀ d ∈ five (a.strides.map bits64), d < 2 ^ 64 := getD_five (by decide) (by
      intro d hd
      obtain ⟨s, _, rfl⟩ := List.mem_map.mp hd
      exact bits64_lt s)
    intro p hp
    rcases List.mem_append.mp hp with hp | hp
    · rcases List.mem_append.mp hp with hp | hp
      · rcases List.mem_append.mp hp with hp | hp
        · have := ha.dtype
          have := ha.few_dims
          have := ha.item
          have := ha.flags
          simp only [List.mem_cons, List.not_mem_nil, or_false] at hp
          rcases hp with rfl | rfl | rfl | rfl | rfl | rfl | rfl | rfl
          all_goals (first | decide | (simp only [pow4, pow1]; omega))
        · obtain ⟨d, hd, rfl⟩ := List.mem_map.mp hp
          simp only [pow8]; exact g1 d hd
      · obtain ⟨d, hd, rfl⟩ := List.mem_map.mp hp
        simp only [pow8]; exact g2 d hd
    · simp only [List.mem_cons, List.not_mem_nil, or_false] at hp
      rcases hp with rfl | rfl | rfl | rfl | rfl
      all_goals (first | decide | (simp only [pow8]; omega))

theorem units_size (t : Table) (h : t.metaStored = t.metaData) : t.shareSize = 512 * t.units := by
  unfold Table.shareSize Sds.shareSize Table.units
  rw [h, padTo_units, padTo_units, padTo_units]
  have : ∀ l : List Src, ((l.map Src.size).map padTo).sum = 512 * (l.map fun a => units (a.dims.foldr (· * ·) 1 * a.item)).sum := by
    intro l
    induction l with
    | nil => rfl
    | cons a l ih =>
      simp only [List.map_cons, List.sum_cons, ih]
      have : a.size = a.dims.foldr (· * ·) 1 * a.item := by unfold Src.size; rw [prod_foldr]
      rw [this, padTo_units]; omega
  rw [this, Nat.mul_comm t.arrays.length 128]
  omega

theorem zip_offsets : ∀ (l : List Src) (os : List Nat), os.length = l.length →
    (List.zipWith (fun a o => Src.block a o) l os).map (fun b => b.blk.offset) = os
  | [], [], _ => rfl
  | a :: l, o :: os, h => by
    rw [List.zipWith_cons_cons, List.map_cons, zip_offsets l os (by simpa using h)]; rfl
  | [], _ :: _, h => by simp at h
  | _ :: _, [], h => by simp at h

/-- **C125** (partial: arrays with one to five dimensions and without gaps; strings have a width): a table is written into a share of
as many units as its parts need, nothing is written outside of the share, and reading the share returns the names, the metadata and the
type of the table and arrays which show the arrays of the table. -/
theorem shared_table_read_back_partial {t : Table} (ht : t.Ok) :
    ∃ m out, writeShare t = some m ∧ m.length = 512 * t.units ∧ readShare m = some out ∧
      out.fileType = t.fileType ∧ out.names = t.names ∧ out.nameCount = t.nameCount ∧ out.metaData = t.metaData ∧
      out.mem = m ∧ out.views.length = t.arrays.length ∧
      ∀ (i : Nat) (h1 : i < out.views.length) (h2 : i < t.arrays.length), Shows out.views[i] m t.arrays[i] := by
  obtain ⟨ds, e1, e2, e3, e4⟩ := copied_all ht.arrays
  have hms : t.metaStored = t.metaData := by
    unfold Table.metaStored
    have := ht.metaRoom
    rw [Nat.mod_eq_of_lt this, List.take_length]
  have hsize := units_size t hms
  have htot := ht.total
  rw [← hsize] at htot
  have hfirst : t.header.first = 512 + padTo t.names.length + padTo t.metaStored.length + padTo (t.arrays.length * 128) := rfl
  have hT : t.header.first + ((ds.map List.length).map padTo).sum = t.shareSize := by
    rw [e3, hfirst]; rfl
  have hlen : t.blocks.length = t.arrays.length := by
    unfold Table.blocks
    rw [List.length_zipWith, tally_length, List.length_map, Nat.min_self]
  have hoff : t.blocks.map (fun b => b.blk.offset) = tally t.header.first (ds.map List.length) := by
    rw [e3]
    unfold Table.blocks
    exact zip_offsets _ _ (by rw [tally_length, List.length_map])
  have hparts := (tally_parts t.header.first ds).2
  have hget : ∀ (i : Nat) (h1 : i < t.blocks.length) (h2 : i < t.arrays.length) (h3 : i < (tally t.header.first (ds.map List.length)).length),
      t.blocks[i] = t.arrays[i].block (tally t.header.first (ds.map List.length))[i] := by
    intro i h1 h2 h3
    simp only [Table.blocks, List.getElem_zipWith, e3]
  have hin : ∀ (i : Nat) (h2 : i < ds.length) (h3 : i < (tally t.header.first (ds.map List.length)).length),
      (tally t.header.first (ds.map List.length))[i] + ds[i].length ≤ t.shareSize := by
    intro i h2 h3
    have hm : ((tally t.header.first (ds.map List.length))[i], ds[i]) ∈ List.zipWith Prod.mk (tally t.header.first (ds.map List.length)) ds := by
      have : i < (List.zipWith Prod.mk (tally t.header.first (ds.map List.length)) ds).length := by
        rw [List.length_zipWith]; omega
      have h4 : (List.zipWith Prod.mk (tally t.header.first (ds.map List.length)) ds)[i] =
        ((tally t.header.first (ds.map List.length))[i], ds[i]) := by rw [List.getElem_zipWith]
      rw [← h4]; exact List.getElem_mem this
    have := (hparts _ hm).2
    rw [hT] at this
    exact this
  have hfit : ∀ b ∈ t.blocks, b.Fits := by
    intro b hb
    obtain ⟨i, hi, rfl⟩ := List.getElem_of_mem hb
    have hi2 : i < t.arrays.length := by omega
    have hi3 : i < ds.length := by omega
    have hi4 : i < (tally t.header.first (ds.map List.length)).length := by rw [tally_length, List.length_map]; exact hi3
    rw [hget i hi hi2 hi4]
    refine block_room (ht.arrays _ (List.getElem_mem hi2)) ?_
    have h5 := hin i hi3 hi4
    have h6 : ds[i].length = t.arrays[i].size := by
      have : (ds.map List.length)[i]'(by rw [List.length_map]; exact hi3) = (t.arrays.map Src.size)[i]'(by rw [List.length_map]; exact hi2) := by
        simp only [e3]
      simpa using this
    omega
  have hrunt : ∀ b ∈ t.blocks, ¬(fixType b.dtype b.blk.item = 18 ∧ b.blk.item = 0) := by
    intro b hb
    obtain ⟨i, hi, rfl⟩ := List.getElem_of_mem hb
    have hi2 : i < t.arrays.length := by omega
    have hi4 : i < (tally t.header.first (ds.map List.length)).length := by rw [tally_length, List.length_map]; omega
    rw [hget i hi hi2 hi4]
    show ¬(fixType t.arrays[i].dtype t.arrays[i].item = 18 ∧ t.arrays[i].item = 0)
    rintro ⟨h1, h2⟩
    rcases (ht.arrays _ (List.getElem_mem hi2)).width with h | h
    · omega
    · unfold fixType at h1
      split at h1
      · split at h1 <;> omega
      · split at h1
        · split at h1 <;> omega
        · exact h h1
  have hhead : t.header.Fits := by
    have hn := le_padTo t.names.length
    have hmm := le_padTo t.metaStored.length
    have hb := le_padTo (t.arrays.length * 128)
    have f1 := ht.nameCount
    have f4 := ht.fileType
    have f5 := ht.author
    have f6 : bandClamp t.bandSize < 2 ^ 64 := by
      have := ht.bandSize
      unfold bandClamp
      split
      · decide
      · exact this
    rw [← hT, hfirst] at htot
    unfold Header.Fits Header.members
    simp only [List.forall_mem_cons, pow8, pow4, pow2]
    have hp : ∀ k : Nat, 0 < 256 ^ k := fun k => Nat.pow_pos (by decide)
    simp only [Table.header, shareHeader]
    exact ⟨by decide, by decide, by decide, by decide, by decide, by decide, by decide, by omega, by omega, f1, f4, by decide, f5, by omega,
      by omega, by omega, by omega, by omega, by omega, by omega, by omega, by decide, by decide, by decide, by decide, by decide, f6,
      by decide, by decide, by decide, by decide, by decide, by decide, hp 304, by intro p hp; nomatch hp⟩
  have hheq : t.header = shareHeader t.names.length t.nameCount t.metaStored.length t.blocks.length t.blocks.length t.fileType t.author
      (bandClamp t.bandSize) := by rw [hlen]; rfl
  obtain ⟨m, p1, p2, p3, p4⟩ := share_reads hheq hhead hfit hrunt hoff (T := t.shareSize) (by omega)
  refine ⟨m, _, ?_, ?_, p3, rfl, rfl, rfl, hms, rfl, by rw [List.length_map, hlen], ?_⟩
  · unfold writeShare; rw [e1]; exact p1
  · rw [p2, hsize]
  · intro i h1 h2
    have hi3 : i < ds.length := by omega
    have hi1 : i < t.blocks.length := by omega
    have hi4 : i < (tally t.header.first (ds.map List.length)).length := by rw [tally_length, List.length_map]; exact hi3
    have hz : (t.blocks[i].blk.offset, ds[i]) ∈ List.zipWith (fun (b : XBlk) (d : List Nat) => (b.blk.offset, d)) t.blocks ds := by
      have h5 : i < (List.zipWith (fun (b : XBlk) (d : List Nat) => (b.blk.offset, d)) t.blocks ds).length := by
        rw [List.length_zipWith]; omega
      have h4 : (List.zipWith (fun (b : XBlk) (d : List Nat) => (b.blk.offset, d)) t.blocks ds)[i] = (t.blocks[i].blk.offset, ds[i]) := by
        rw [List.getElem_zipWith]
      rw [← h4]; exact List.getElem_mem h5
    obtain ⟨q1, q2⟩ := p4 _ hz
    have hv : (t.blocks.map viewOf)[i]'(by rw [List.length_map]; exact hi1) = viewOf t.blocks[i] := by simp
    show Shows ((t.blocks.map viewOf)[i]'_) m t.arrays[i]
    rw [hv]
    have hg := hget i hi1 h2 hi4
    rw [hg] at q1 q2 ⊢
    exact view_shows (ht.arrays _ (List.getElem_mem h2)) (e4 i h2 hi3) q1 q2

/-! ### Arrays in the order of C and of Fortran -/

/-- Arrays in the order of C have no gaps. -/
theorem c_order_packed (item : Nat) : ∀ dims : List Nat, Packed dims (cStrides item dims) item
  | [], [], _ => ⟨Int.le_refl _, by simp [spot, cStrides]⟩
  | d :: ds, i :: is, h => by
    obtain ⟨h1, h2⟩ := h
    obtain ⟨p0, p1⟩ := c_order_packed item ds is h2
    have e : spot (cStrides item (d :: ds)) (i :: is) = ((ds.foldr (· * ·) 1 * item : Nat) : Int) * i + spot (cStrides item ds) is := rfl
    have e2 : (d :: ds).foldr (· * ·) 1 * item = d * (ds.foldr (· * ·) 1 * item) := by rw [List.foldr_cons, Nat.mul_assoc]
    rw [e, e2]
    generalize ds.foldr (· * ·) 1 * item = q at *
    generalize spot (cStrides item ds) is = s at *
    have hq : q * i + q ≤ d * q := by
      have : q * (i + 1) ≤ q * d := Nat.mul_le_mul_left q h1
      rw [Nat.mul_comm d q]; rw [Nat.mul_add] at this; omega
    have hq' : (q : Int) * i + q ≤ ((d * q : Nat) : Int) := by exact_mod_cast hq
    have hq0 : (0 : Int) ≤ (q : Int) * i := by exact_mod_cast Nat.zero_le (q * i)
    generalize (q : Int) * i = r at *
    omega

/-- Arrays in the order of Fortran have no gaps: from an item on which is itself of `k` items. -/
theorem f_order_from (item : Nat) : ∀ (dims idx : List Nat), Index dims idx →
    0 ≤ spot (fStrides item dims) idx ∧ spot (fStrides item dims) idx + item ≤ (dims.foldr (· * ·) 1 * item : Nat)
  | [], [], _ => ⟨Int.le_refl _, by simp [spot, fStrides]⟩
  | d :: ds, i :: is, h => by
    obtain ⟨h1, h2⟩ := h
    obtain ⟨p0, p1⟩ := f_order_from (item * d) ds is h2
    have e : spot (fStrides item (d :: ds)) (i :: is) = (item : Int) * i + spot (fStrides (item * d) ds) is := rfl
    have e2 : (d :: ds).foldr (· * ·) 1 * item = ds.foldr (· * ·) 1 * (item * d) := by
      rw [List.foldr_cons, Nat.mul_comm d, Nat.mul_assoc, Nat.mul_comm d item]
    rw [e, e2]
    generalize ((ds.foldr (· * ·) 1 * (item * d) : Nat) : Int) = z at *
    generalize spot (fStrides (item * d) ds) is = s at *
    have hq : item * i + item ≤ item * d := by
      have : item * (i + 1) ≤ item * d := Nat.mul_le_mul_left item h1
      rw [Nat.mul_add] at this; omega
    have hq' : (item : Int) * i + item ≤ ((item * d : Nat) : Int) := by exact_mod_cast hq
    have hq0 : (0 : Int) ≤ (item : Int) * i := by exact_mod_cast Nat.zero_le (item * i)
    generalize (item : Int) * i = r at *
    omega

theorem f_order_packed (item : Nat) (dims : List Nat) : Packed dims (fStrides item dims) item := fun idx h => f_order_from item dims idx h

/-- A table of an array of 2×3 numbers in the order of C and of a part of another memory in the order of Fortran. -/
def exTable : Table :=
  ⟨[97, 0, 0, 98, 0, 0], 2, [123, 125], [⟨[1, 2, 3, 4, 5, 6], 0, [2, 3], 1, 1, 5, cStrides 1 [2, 3]⟩,
    ⟨[9, 9, 1, 0, 2, 0, 3, 0, 4, 0, 9], 2, [2, 2], 2, 7, 6, fStrides 2 [2, 2]⟩], 1, 1, 0⟩

theorem exTable_ok : exTable.Ok := by
  refine ⟨?_, by decide, by decide, by decide, by decide, by decide, by decide⟩
  intro a ha
  rcases List.mem_cons.mp ha with rfl | ha
  · exact ⟨by decide, by decide, by decide, c_order_packed 1 [2, 3], by decide, by decide, by decide, by decide, by decide, by decide, by decide⟩
  · rcases List.mem_cons.mp ha with rfl | ha
    · exact ⟨by decide, by decide, by decide, f_order_packed 2 [2, 2], by decide, by decide, by decide, by decide, by decide, by decide,
        by decide⟩
    · nomatch ha

example := shared_table_read_back_partial exTable_ok

/-! ### What is not read back -/

/-- A table of these arrays. -/
def tableOf (l : List Src) : Table := ⟨[], 0, [], l, 1, 1, 0⟩

/-- The table which is read after it was written. -/
def readBack (t : Table) : Option ShareOut := (writeShare t).bind readShare

/-- A number without dimensions is read back as an array without items. -/
theorem scalars_come_back_empty : (readBack (tableOf [⟨[42], 0, [], 1, 1, 0, []⟩])).map (fun o => o.views.map View.dims) = some [[0]] := by
  decide +kernel

/-- Of an array with six dimensions the last one is lost: only half of the items are read back. -/
theorem sixth_dimension_is_lost : (readBack (tableOf [⟨[1, 2], 0, [1, 1, 1, 1, 1, 2], 1, 1, 0, [2, 2, 2, 2, 2, 1]⟩])).map
    (fun o => o.views.map View.dims) = some [[1, 1, 1, 1, 1]] := by
  decide +kernel

/-- Of every second item of an array the first ones are copied with their neighbours, and the last ones are read from what is behind. -/
theorem every_second_item_is_wrong :
    itemAt [1, 2, 3, 4] 0 [2] 1 [1] = some [3] ∧
    (readBack (tableOf [⟨[1, 2, 3, 4], 0, [2], 1, 1, 0, [2]⟩])).map
      (fun o => o.views.map fun v => itemAt o.mem v.off v.strides v.item [1]) = some [some [0]] := by
  decide +kernel

/-- Of an array in reverse the bytes behind its first item are copied, which are not its own, and its items are read from what is before its
place in the share. -/
theorem reversed_array_is_wrong :
    itemAt [1, 2, 7, 7] 1 [-1] 1 [1] = some [1] ∧
    (readBack (tableOf [⟨[1, 2, 7, 7], 1, [2], 1, 1, 0, [-1]⟩])).map
      (fun o => o.views.map fun v => itemAt o.mem v.off v.strides v.item [1]) = some [some [0]] ∧
    writeShare (tableOf [⟨[1, 2], 1, [2], 1, 1, 0, [-1]⟩]) = none := by
  decide +kernel

/-- Reading strings without a width sets the first byte of the next array in the share to zero, for all readers. -/
theorem strings_without_width_clear_the_next_array :
    itemAt [5, 6] 0 [1] 1 [0] = some [5] ∧
    (readBack (tableOf [⟨[], 0, [3], 0, 18, 0, [0]⟩, ⟨[5, 6], 0, [2], 1, 1, 0, [1]⟩])).map
      (fun o => o.views.map fun v => itemAt o.mem v.off v.strides v.item [0]) = some [some [0], some [0]] := by
  decide +kernel

/-- If there is no next array, the zero is written outside of the share. -/
theorem last_strings_without_width_write_outside :
    (writeShare (tableOf [⟨[], 0, [3], 0, 18, 0, [0]⟩])).isSome = true ∧ readBack (tableOf [⟨[], 0, [3], 0, 18, 0, [0]⟩]) = none := by
  decide +kernel

/-- The header is written first and says that all arrays are there: a reader which maps the share then gets no error but arrays of nothing
under empty names. -/
theorem half_written_share_is_read :
    ((puts (List.replicate exTable.shareSize 0)
      ((shareWrites exTable.header exTable.names exTable.metaStored exTable.blocks [[1, 2, 3, 4, 5, 6], [1, 0, 2, 0, 3, 0, 4, 0]]).take 1)).bind
        readShare).map (fun o => (o.names, o.views.map fun v => (v.dims, v.item))) =
      some ([0, 0, 0, 0, 0, 0], [([], 0), ([], 0)]) := by
  decide +kernel

end Riptide.Sds
