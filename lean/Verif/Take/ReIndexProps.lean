import Verif.Take.ReIndexSpec
import Verif.Take.Lemmas
import Verif.Hash.MultiKeyFull
/-! C122: which items re-indexing gives, and where it leaves the arrays. -/
namespace Riptide.ReIndex
open Riptide.Work Riptide.Hash

theorem leWord_lt' : ∀ b : List UInt8, leWord b < 256 ^ b.length
  | [] => by simp [leWord]
  | x :: xs => by
    have ih := leWord_lt' xs
    have hx := x.toNat_lt
    simp only [leWord, List.length_cons, Nat.pow_succ]
    omega

theorem indexVal_32 {ty : Ty} {b : List UInt8} (hb : b.length = 4) (ht : ty = .i32 ∨ ty = .u32)
    (hu : ty = .u32 → leWord b < 2 ^ 31) : indexVal 32 b = entry ty b := by
  have h := leWord_lt' b
  rw [hb] at h
  unfold indexVal entry
  rw [BitVec.toInt_eq_toNat_cond, BitVec.toNat_ofNat]
  rcases ht with rfl | rfl
  · dsimp only
    split <;> split <;> omega
  · have := hu rfl
    dsimp only
    split <;> omega

theorem indexVal_64 {ty : Ty} {b : List UInt8} (hb : b.length = 8) (ht : ty = .i64 ∨ ty = .u64)
    (hu : ty = .u64 → leWord b < 2 ^ 63) : indexVal 64 b = entry ty b := by
  have h := leWord_lt' b
  rw [hb] at h
  unfold indexVal entry
  rw [BitVec.toInt_eq_toNat_cond, BitVec.toNat_ofNat]
  rcases ht with rfl | rfl
  · dsimp only
    split <;> split <;> omega
  · have := hu rfl
    dsimp only
    split <;> omega

theorem entry_u32 (b : List UInt8) : entry .u32 b = (leWord b : Int) := rfl

theorem entry_u64 (b : List UInt8) : entry .u64 b = (leWord b : Int) := rfl

/-- The index is read as it is meant, if unsigned entries have no top bit. -/
theorem index_read {index : Col} (hi : IsIndex index) {n : Nat} (hr : InRange index n)
    (hu32 : index.ty = .u32 → n ≤ 2 ^ 31) (hu64 : index.ty = .u64 → n ≤ 2 ^ 63) :
    ∃ bits, indexBits index.ty = some bits ∧
      ∀ b ∈ index.items, indexVal bits b = entry index.ty b := by
  rcases hi with ⟨ht, _, hl⟩ | ⟨ht, _, hl⟩
  · have h32 : indexBits index.ty = some 32 := by rcases ht with h | h <;> rw [h] <;> rfl
    refine ⟨32, h32, fun b hb => indexVal_32 (hl b hb) ht ?_⟩
    intro h
    have := (hr b hb).2
    have hn := hu32 h
    rw [h] at this
    rw [entry_u32] at this
    omega
  · have h64 : indexBits index.ty = some 64 := by rcases ht with h | h <;> rw [h] <;> rfl
    refine ⟨64, h64, fun b hb => indexVal_64 (hl b hb) ht ?_⟩
    intro h
    have := (hr b hb).2
    have hn := hu64 h
    rw [h] at this
    rw [entry_u64] at this
    omega

/-- The rows which are given. -/
theorem rowOf_eq {index data : Col} {bits : Nat}
    (hb : ∀ b ∈ index.items, indexVal bits b = entry index.ty b)
    (hr : InRange index data.items.length) (hal : data.width = 16 → data.addr % 16 = 0)
    {i : Nat} (hi : i < index.items.length) :
    rowOf bits index data i = some ((taken index data).getD i []) := by
  have hm : index.items[i] ∈ index.items := List.getElem_mem hi
  have h1 := hr _ hm
  unfold rowOf taken
  rw [List.getElem?_eq_getElem hi]
  dsimp only
  rw [hb _ hm, if_neg (by omega), if_neg (by intro h; exact h.2 (hal h.1))]
  have hlt : (entry index.ty index.items[i]).toNat < data.items.length := by omega
  simp [List.getD, hi, hlt]

theorem rows_flat {α : Type} (l : List (List α)) (w : Nat) (hw : ∀ x ∈ l, x.length = w) :
    (((List.range l.length).map fun i => (i, l.getD i [])).flatMap
      fun r => r.2.zipIdx.map fun p => (r.1 * w + p.2, p.1)) =
      l.flatten.zipIdx.map Prod.swap := by
  have hl : l.flatten = (List.range l.length).flatMap fun i => l.getD i [] := by
    rw [List.flatMap_def]
    congr 1
    apply List.ext_getElem?
    intro i
    by_cases h : i < l.length
    · simp [h, List.getD]
    · rw [List.getElem?_eq_none (by omega), List.getElem?_eq_none (by simp; omega)]
  have h := (Take.flatMap_zipIdx (fun i => l.getD i []) w l.length (fun i hi => by
    have : l.getD i [] = l[i] := by simp [List.getD, hi]
    rw [this]; exact hw _ (List.getElem_mem hi))).2
  rw [hl, h, List.flatMap_map, List.map_flatMap]
  congr 1
  funext i
  rw [List.zipIdx_eq_map_add (i := i * w), List.map_map]
  rfl

theorem buildInfo_two {a b : Arg} {rest : List Arg} (ha : a.ok = true) (hb : b.ok = true)
    (hab : b.rows = a.rows) (hrest : ∀ x ∈ rest, x.ok = true ∧ x.rows = a.rows) :
    buildInfo (a :: b :: rest) = some (a :: b :: rest) := by
  unfold buildInfo
  rw [if_pos (by simp [ha, hb]; exact fun x hx => (hrest x hx).1)]
  dsimp only
  rw [if_pos (by simp [hab]; exact fun x hx => (hrest x hx).2)]

/-- A pair of an index and of data which is accepted: arrays of one dimension with the same number of
rows, whose items have the size they should have. -/
structure Fits (c : Call) (index data : Col) (rest : List Arg) : Prop where
  call : c.arrays = .array index :: .array data :: rest
  dims : index.dims = 1 ∧ data.dims = 1
  len : index.items.length = data.items.length
  index : IsIndex index
  known : data.ty ≠ .beyond
  items : ∀ x ∈ data.items, x.length = data.width
  rest : ∀ x ∈ rest, x.ok = true ∧ x.rows = data.items.length

theorem Fits.info {c : Call} {index data : Col} {rest : List Arg} (h : Fits c index data rest) :
    buildInfo c.arrays = some (.array index :: .array data :: rest) := by
  rw [h.call]
  refine buildInfo_two ?_ ?_ ?_ ?_
  · have : index.ty ≠ .beyond := by
      rcases h.index with ⟨ht | ht, _⟩ | ⟨ht | ht, _⟩ <;> rw [ht] <;> nofun
    simp [Arg.ok, h.dims.1, this]
  · simp [Arg.ok, h.dims.2, h.known]
  · simp [Arg.rows, h.len]
  · intro x hx
    exact ⟨(h.rest x hx).1, by rw [(h.rest x hx).2]; simp [Arg.rows, h.len]⟩

theorem gather_rows {index data : Col} {bits ow : Nat}
    (hb : ∀ b ∈ index.items, indexVal bits b = entry index.ty b)
    (hr : InRange index data.items.length) (hal : data.width = 16 → data.addr % 16 = 0)
    {workers : Nat} {nt : Bool} {par : Option (List Nat)}
    (hs : ChunkSched workers index.items.length nt par) :
    ∃ ws : List (Nat × List UInt8), ws.Perm ((List.range index.items.length).map fun i => (i, (taken index data).getD i [])) ∧
      gather bits index data ow par =
        (runWrites (index.items.length * ow)
          ((if runt data.ty data.width ∧ 0 < index.items.length then [(0, (0 : UInt8))] else []) ++
            ws.flatMap (rowWrites data.width))).map (Reply.array ow) := by
  obtain ⟨ws, h1, h2⟩ := elemWork_perm (rowOf bits index data) (fun i => (taken index data).getD i [])
    (fun i hi => rowOf_eq hb hr hal hi) hs
  refine ⟨ws, h2, ?_⟩
  unfold gather
  rw [h1]
  dsimp only
  generalize runWrites _ _ = o
  cases o <;> rfl

theorem taken_items {index data : Col} (hr : InRange index data.items.length)
    (hit : ∀ x ∈ data.items, x.length = data.width) :
    ∀ x ∈ taken index data, x.length = data.width := by
  intro x hx
  obtain ⟨b, hb, rfl⟩ := List.mem_map.1 hx
  have := hr b hb
  have hlt : (entry index.ty b).toNat < data.items.length := by omega
  have : data.items.getD (entry index.ty b).toNat [] = data.items[(entry index.ty b).toNat] := by
    simp [List.getD, hlt]
  rw [this]
  exact hit _ (List.getElem_mem hlt)

/-- C122.  For an index of integers within the rows of the data, and data of numbers or strings, every
way of sharing the rows among threads gives, for each entry of the index, the bytes of the item of that
number.  Missing: an unsigned index into more than 2^31 rows, items of 16 bytes at an odd address, and
structures; see below. -/
theorem reIndex_takes_partial {c : Call} {index data : Col} {rest : List Arg}
    (hf : Fits c index data rest) (hr : InRange index data.items.length)
    (hty : data.ty ≠ .void ∧ data.ty ≠ .object) (hw : 0 < data.width)
    (hal : data.width = 16 → data.addr % 16 = 0)
    (hu32 : index.ty = .u32 → data.items.length ≤ 2 ^ 31)
    (hu64 : index.ty = .u64 → data.items.length ≤ 2 ^ 63)
    {workers : Nat} {nt : Bool} {par : Option (List Nat)}
    (hs : ChunkSched workers index.items.length nt par) :
    reIndex c par = some (.array data.width ((taken index data).flatten.map some)) := by
  obtain ⟨bits, hbits, hb⟩ := index_read hf.index hr hu32 hu64
  obtain ⟨ws, hp, hg⟩ := gather_rows (ow := data.width) hb hr hal hs
  have hlw : likeWidth data.ty data.width = some data.width := by
    unfold likeWidth
    cases hd : data.ty <;> simp_all <;> omega
  have hrunt : runt data.ty data.width = false := by
    unfold runt
    cases hd : data.ty <;> simp_all; omega
  unfold reIndex
  rw [hf.info]
  dsimp only
  rw [hlw]
  dsimp only
  rw [hbits]
  dsimp only
  rw [hg, hrunt]
  have hti := taken_items hr hf.items
  have hlen : (taken index data).length = index.items.length := by simp [taken]
  have hflat : (taken index data).flatten.length = index.items.length * data.width := by
    rw [← hlen]
    clear hp hg hlen
    generalize taken index data = l at hti ⊢
    induction l with
    | nil => simp
    | cons a l ih =>
      have := ih (fun x hx => hti x (by simp [hx]))
      rw [List.flatten_cons, List.length_append, this, hti a (by simp), List.length_cons, Nat.add_mul]
      omega
  have := runWrites_perm (l := (taken index data).flatten) (ws := ws.flatMap (rowWrites data.width)) (by
    have h := rows_flat (taken index data) data.width hti
    rw [← h, hlen]
    exact hp.flatMap_right _)
  rw [hflat] at this
  simp [this]

/-- C122, fails for structures (`NPY_VOID`): the new array has one byte per row, whatever the size of an
item is, and all bytes of every item are written, beyond the end of the array. -/
theorem structures_overflow {c : Call} {index data : Col} {rest : List Arg}
    (hf : Fits c index data rest) (hr : InRange index data.items.length)
    (hty : data.ty = .void) (hw : 2 ≤ data.width) (hn : 0 < data.items.length)
    (hal : data.width = 16 → data.addr % 16 = 0)
    (hu32 : index.ty = .u32 → data.items.length ≤ 2 ^ 31)
    (hu64 : index.ty = .u64 → data.items.length ≤ 2 ^ 63)
    {workers : Nat} {nt : Bool} {par : Option (List Nat)}
    (hs : ChunkSched workers index.items.length nt par) :
    reIndex c par = none := by
  obtain ⟨bits, hbits, hb⟩ := index_read hf.index hr hu32 hu64
  obtain ⟨ws, hp, hg⟩ := gather_rows (ow := 1) hb hr hal hs
  unfold reIndex
  rw [hf.info]
  dsimp only
  rw [hty]
  simp only [likeWidth]
  rw [hbits]
  dsimp only
  rw [hg]
  have hti := taken_items hr hf.items
  have hlen : (taken index data).length = index.items.length := by simp [taken]
  have hl := hf.len
  have hlast : index.items.length - 1 < (taken index data).length := by omega
  have hx := hti _ (List.getElem_mem hlast)
  have hmem : (index.items.length - 1, (taken index data).getD (index.items.length - 1) []) ∈ ws := by
    rw [hp.mem_iff]
    exact List.mem_map.2 ⟨index.items.length - 1, by simp; omega, rfl⟩
  have hgd : (taken index data).getD (index.items.length - 1) [] = (taken index data)[index.items.length - 1] := by
    simp [List.getD, hlast]
  rw [hgd] at hmem
  generalize (taken index data)[index.items.length - 1] = x at hx hmem
  have hj : data.width - 1 < x.length := by omega
  rw [runWrites_oob (w := ((index.items.length - 1) * data.width + (data.width - 1), x[data.width - 1]))]
  · rfl
  · refine List.mem_append_right _ (List.mem_flatMap.2 ⟨_, hmem, ?_⟩)
    unfold rowWrites
    exact List.mem_map.2 ⟨(x[data.width - 1], data.width - 1),
      List.mem_zipIdx_iff_getElem?.2 (by simp), rfl⟩
  · show index.items.length * 1 ≤ _
    obtain ⟨k, hk⟩ : ∃ k, index.items.length = k + 1 := ⟨index.items.length - 1, by omega⟩
    rw [hk, Nat.add_sub_cancel]
    have : k * 2 ≤ k * data.width := Nat.mul_le_mul_left k hw
    omega

/-- C122.  Nothing checks the index: an entry outside of the rows, as it is read, reads outside of the
data. -/
theorem index_not_checked {c : Call} {index data : Col} {rest : List Arg}
    (hf : Fits c index data rest) (hty : data.ty ≠ .object) {bits : Nat}
    (hbits : indexBits index.ty = some bits) {b : List UInt8} (hbm : b ∈ index.items)
    (hout : indexVal bits b < 0 ∨ (data.items.length : Int) ≤ indexVal bits b)
    {workers : Nat} {nt : Bool} {par : Option (List Nat)}
    (hs : ChunkSched workers index.items.length nt par) :
    reIndex c par = none := by
  obtain ⟨i, hi, he⟩ := List.getElem_of_mem hbm
  have hrow : rowOf bits index data i = none := by
    unfold rowOf
    rw [List.getElem?_eq_getElem hi, he]
    dsimp only
    split
    · rfl
    · split
      · rfl
      · exact List.getElem?_eq_none (by omega)
  have hew := elemWork_none hi hrow hs
  obtain ⟨ow, how⟩ : ∃ ow, likeWidth data.ty data.width = some ow := by
    unfold likeWidth
    cases hd : data.ty <;> simp_all
  unfold reIndex
  rw [hf.info]
  dsimp only
  rw [how]
  dsimp only
  rw [hbits]
  dsimp only
  unfold gather
  rw [hew]

/-- C122.  An entry of an unsigned index of 32 bits with its top bit set is read as a negative number, so
that even an entry within the rows reads before the data. -/
theorem unsigned_index_wraps {c : Call} {index data : Col} {rest : List Arg}
    (hf : Fits c index data rest) (hty : data.ty ≠ .object) (hi : index.ty = .u32) {b : List UInt8}
    (hbm : b ∈ index.items) (hbig : 2 ^ 31 ≤ entry index.ty b)
    {workers : Nat} {nt : Bool} {par : Option (List Nat)}
    (hs : ChunkSched workers index.items.length nt par) :
    reIndex c par = none := by
  have hb32 : indexBits index.ty = some 32 := by rw [hi]; rfl
  refine index_not_checked hf hty hb32 hbm (Or.inl ?_) hs
  have hl : b.length = 4 := by
    rcases hf.index with ⟨_, _, h⟩ | ⟨ht, _⟩
    · exact h b hbm
    · rw [hi] at ht; rcases ht with h | h <;> cases h
  have h := leWord_lt' b
  rw [hl] at h
  rw [hi] at hbig
  rw [entry_u32] at hbig
  unfold indexVal
  rw [BitVec.toInt_eq_toNat_cond, BitVec.toNat_ofNat]
  split <;> omega

/-- C122.  Items of 16 bytes at an address which is not a multiple of 16 fault. -/
theorem odd_address_faults {c : Call} {index data : Col} {rest : List Arg}
    (hf : Fits c index data rest) (hty : data.ty ≠ .object) (hw : data.width = 16)
    (hal : data.addr % 16 ≠ 0) (hn : 0 < data.items.length)
    {workers : Nat} {nt : Bool} {par : Option (List Nat)}
    (hs : ChunkSched workers index.items.length nt par) :
    reIndex c par = none := by
  have hl := hf.len
  have hi : 0 < index.items.length := by omega
  obtain ⟨bits, hbits⟩ : ∃ bits, indexBits index.ty = some bits := by
    rcases hf.index with ⟨ht | ht, _⟩ | ⟨ht | ht, _⟩ <;> rw [ht] <;> exact ⟨_, rfl⟩
  have hrow : rowOf bits index data 0 = none := by
    unfold rowOf
    rw [List.getElem?_eq_getElem hi]
    dsimp only
    split
    · rfl
    · rw [if_pos ⟨hw, hal⟩]
  have hew := elemWork_none hi hrow hs
  obtain ⟨ow, how⟩ : ∃ ow, likeWidth data.ty data.width = some ow := by
    unfold likeWidth
    cases hd : data.ty <;> simp_all
  unfold reIndex
  rw [hf.info]
  dsimp only
  rw [how]
  dsimp only
  rw [hbits]
  dsimp only
  unfold gather
  rw [hew]

/-- C122.  Python objects give `None` without an exception. -/
theorem objects_give_None {c : Call} {index data : Col} {rest : List Arg}
    (hf : Fits c index data rest) (hty : data.ty = .object) (par : Option (List Nat)) :
    reIndex c par = some .pyNone := by
  unfold reIndex
  rw [hf.info]
  dsimp only
  rw [hty]
  rfl

/-- C122.  The index must have as many rows as the data: nothing else can be taken. -/
theorem needs_as_many_rows {c : Call} {a b : Arg} {rest : List Arg}
    (hc : c.arrays = a :: b :: rest) (h : a.rows ≠ b.rows) (par : Option (List Nat)) :
    reIndex c par = some .error := by
  have : buildInfo c.arrays = none := by
    rw [hc]
    unfold buildInfo
    split
    · dsimp only
      rw [if_neg (by simp; intro h2; exact absurd h2.symm h)]
    · rfl
  unfold reIndex
  rw [this]

/-- C122.  Any array which is passed, even one which is not used, must be of one dimension and of a known
type. -/
theorem every_array_is_checked {c : Call} {a : Arg} (ha : a ∈ c.arrays) (h : a.ok = false)
    (par : Option (List Nat)) : reIndex c par = some .error := by
  have : buildInfo c.arrays = none := by
    unfold buildInfo
    rw [if_neg]
    intro h2
    rw [List.all_eq_true] at h2
    rw [h2 a ha] at h
    cases h
  unfold reIndex
  rw [this]

/-- C122.  An index of another type is refused. -/
theorem other_index_is_refused {c : Call} {index data : Col} {rest : List Arg}
    (hi : buildInfo c.arrays = some (.array index :: .array data :: rest)) (hty : data.ty ≠ .object)
    (hx : index.ty ≠ .i32 ∧ index.ty ≠ .u32 ∧ index.ty ≠ .i64 ∧ index.ty ≠ .u64)
    (par : Option (List Nat)) : reIndex c par = some .error := by
  obtain ⟨ow, how⟩ : ∃ ow, likeWidth data.ty data.width = some ow := by
    unfold likeWidth
    cases hd : data.ty <;> simp_all
  have hb : indexBits index.ty = none := by
    obtain ⟨h1, h2, h3, h4⟩ := hx
    cases hd : index.ty <;> simp_all [indexBits]
  unfold reIndex
  rw [hi]
  dsimp only
  rw [how]
  dsimp only
  rw [hb]

/-- C122.  An empty index with `None` for the data passes the checks, and a null pointer is followed. -/
theorem none_crashes {c : Call} {index : Col} {rest : List Arg}
    (hi : buildInfo c.arrays = some (.array index :: .pyNone :: rest)) (par : Option (List Nat)) :
    reIndex c par = none := by
  unfold reIndex
  rw [hi]

/-- C122.  Without any array, too, memory which is not there is read. -/
theorem nothing_crashes {c : Call} (h : c.arrays = []) (par : Option (List Nat)) :
    reIndex c par = none := by
  unfold reIndex
  rw [h]
  rfl

/-! A case: the index 2, 0, 1 and strings of three bytes. -/

def exIndex : Col :=
  { ty := .i32, width := 4, items := [[2, 0, 0, 0], [0, 0, 0, 0], [1, 0, 0, 0]] }

def exData : Col :=
  { ty := .text, width := 3, items := [[97, 98, 99], [100, 101, 102], [103, 104, 105]] }

theorem exFits (d : Col) (hd : d = exData ∨ d = { exData with ty := .void } ∨ d = { exData with ty := .object }) :
    Fits (.args [.array exIndex, .array d]) exIndex d [] := by
  rcases hd with rfl | rfl | rfl <;>
  exact ⟨rfl, ⟨rfl, rfl⟩, rfl, Or.inl ⟨Or.inl rfl, rfl, by decide⟩, by decide, by decide, by nofun⟩

theorem exRange : InRange exIndex 3 := by
  unfold InRange
  decide

example := reIndex_takes_partial (exFits exData (Or.inl rfl)) exRange ⟨by decide, by decide⟩ (by decide)
  (by nofun) (by nofun) (by nofun) (ChunkSched.direct (workers := 4) (len := 3) (noThreading := false) (by decide))

example : reIndex (.args [.array exIndex, .array exData]) none =
    some (.array 3 ([103, 104, 105, 97, 98, 99, 100, 101, 102].map some)) := by decide +kernel

example := structures_overflow (exFits { exData with ty := .void } (Or.inr (Or.inl rfl))) exRange rfl
  (by decide) (by decide) (by nofun) (by nofun) (by nofun) 
  (ChunkSched.direct (workers := 4) (len := 3) (noThreading := false) (by decide))

example := objects_give_None (exFits { exData with ty := .object } (Or.inr (Or.inr rfl))) rfl none

/-- Four bytes `ff ff ff ff` as an unsigned index: read as -1. -/
def exWrap : Col := { exIndex with ty := .u32, items := [[255, 255, 255, 255]] }

def exOne : Col := { ty := .number, width := 16, items := [List.replicate 16 7], addr := 8 }

theorem exWrapFits : Fits (.args [.array exWrap, .array exOne]) exWrap exOne [] :=
  ⟨rfl, ⟨rfl, rfl⟩, rfl, Or.inl ⟨Or.inr rfl, rfl, by decide⟩, by decide, by decide, by nofun⟩

example := index_not_checked exWrapFits (by decide) (bits := 32) rfl (b := [255, 255, 255, 255]) (by decide)
  (Or.inl (by decide)) (ChunkSched.direct (workers := 4) (len := 1) (noThreading := false) (by decide))

example := unsigned_index_wraps exWrapFits (by decide) rfl (b := [255, 255, 255, 255]) (by decide)
  (by decide) (ChunkSched.direct (workers := 4) (len := 1) (noThreading := false) (by decide))

example := odd_address_faults exWrapFits (by decide) rfl (by decide) (by decide)
  (ChunkSched.direct (workers := 4) (len := 1) (noThreading := false) (by decide))

example : reIndex (.args [.array { exIndex with items := [[3, 0, 0, 0], [0, 0, 0, 0], [1, 0, 0, 0]] },
    .array exData]) none = none := by decide +kernel

example : reIndex (.args [.array { exIndex with items := [[3, 0, 0, 0]] }, .array exData]) none =
    some .error := needs_as_many_rows rfl (by decide) none

example : reIndex (.args [.array exIndex, .array exData, .other]) none = some .error :=
  every_array_is_checked (a := .other) (by simp [Call.arrays]) rfl none

example : reIndex (.args [.array { exIndex with ty := .number }, .array exData]) none = some .error :=
  other_index_is_refused rfl (by decide) (by decide) none

example : reIndex (.list [.array { exIndex with items := [] }, .pyNone] [.other]) none = none :=
  none_crashes rfl none

example : reIndex (.args []) none = none := nothing_crashes rfl none

end Riptide.ReIndex
