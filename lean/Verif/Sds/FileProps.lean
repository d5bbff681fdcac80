import Verif.Sds.FileLemmas
import Verif.Sds.BlockProps
/-! # C109: a file is read as it was written, whatever the threads did -/
namespace Riptide.Sds

/-! ## Specification -/

/-- What reading of a file must return. -/
def Input.out (x : Input) : Out :=
  ⟨x.fileType, x.names, x.nameCount, some x.metaData,
    x.arrays.map fun a => ⟨a.arr.dims, a.arr.item, a.dtype, a.flags, a.strides, some a.arr.data⟩⟩

/-- An array which can be kept in a file: it is `Arr.Ok`, its numbers have room in the block, and it is not a banded array whose stored
size is by chance its own. -/
structure ArrIn.Ok (c : Codec) (zstd : Bool) (bandSize : Nat) (a : ArrIn) : Prop where
  arr : a.arr.Ok
  strides : a.strides.length = a.arr.dims.length
  dtype : a.dtype < 2 ^ 8
  item : a.arr.item < 2 ^ 32
  flags : a.flags < 2 ^ 32
  dimRoom : ∀ d ∈ a.arr.dims, d < 2 ^ 64
  strideRoom : ∀ d ∈ a.strides, d < 2 ^ 64
  bands : (writeArr c zstd bandSize a.arr 0).1.bandCount < 2 ^ 32
  noChance : ¬(0 < (writeArr c zstd bandSize a.arr 0).1.bandCount ∧
    (writeArr c zstd bandSize a.arr 0).1.cSize = (writeArr c zstd bandSize a.arr 0).1.uSize)

/-- An input which can be written: all arrays can, and its numbers have room in the header. -/
structure Input.Ok (c : Codec) (x : Input) : Prop where
  arrays : ∀ a ∈ x.arrays, a.Ok c x.zstd x.bandSize
  nameCount : x.nameCount < 2 ^ 64
  metaRoom : x.metaData.length < 2 ^ 64
  level : x.level < 2 ^ 16
  fileType : x.fileType < 2 ^ 16
  author : x.author < 2 ^ 32
  bandSize : x.bandSize < 2 ^ 32
  total : (x.arrays.map fun a => prod a.arr.dims * a.arr.item).sum < 2 ^ 64

/-- Where a file ends: `GetEndOfFileOffset`, `src/SDSFile.h:389-392`. -/
def Input.fileEnd (c : Codec) (x : Input) (fo metaC : Nat) (order : List Nat) : Nat :=
  (fillHeader fo x metaC).first + allocTotal (x.stored c) order 0

/-- A file holds an input from `fo` on: all parts are where the header says, and nothing of it is at or behind `e`. -/
def Stored (c : Codec) (x : Input) (f : List Nat) (fo e : Nat) : Prop :=
  ∃ (m order : List Nat) (s1 s2 s3 s4 st sk : Nat),
    packMeta c x.zstd x.metaData = some m ∧ order.Perm (List.range x.arrays.length) ∧
    s1 < 2 ^ 64 ∧ s2 < 2 ^ 64 ∧ s3 < 2 ^ 64 ∧ s4 < 2 ^ 64 ∧ st < 2 ^ 64 ∧ sk < 2 ^ 16 ∧
    x.fileEnd c fo m.length order ≤ e ∧ e < 2 ^ 64 ∧
    HasAt f fo ((fullHeader c fo x m.length order).marked s1 s2 s3 s4 st sk).bytes ∧
    HasAt f (fillHeader fo x m.length).nameOffset x.names ∧
    HasAt f (fillHeader fo x m.length).metaOffset m ∧
    HasAt f (fillHeader fo x m.length).blockOffset
      ((List.range x.arrays.length).flatMap fun i => enc (x.block c fo m.length order i).members) ∧
    ∀ i < x.arrays.length, HasAt f (x.offset c fo m.length order i)
      (writeArr c x.zstd x.bandSize (x.arrayAt i).arr (x.offset c fo m.length order i)).2

/-! ## Reading what is stored -/

theorem pow8 : (256 : Nat) ^ 8 = 2 ^ 64 := by decide
theorem pow4 : (256 : Nat) ^ 4 = 2 ^ 32 := by decide
theorem pow2 : (256 : Nat) ^ 2 = 2 ^ 16 := by decide
theorem pow1 : (256 : Nat) ^ 1 = 2 ^ 8 := by decide

theorem packMeta_length {c : Codec} {z : Bool} {l m : List Nat} (h : packMeta c z l = some m) : m.length ≤ l.length := by
  unfold packMeta at h
  split at h
  · split at h
    · split at h
      · injection h with h; rw [h]; exact Nat.le_refl _
      · injection h with h; rw [← h]; omega
    · nomatch h
  · injection h with h; rw [h]; exact Nat.le_refl _

theorem header_fits {c : Codec} {x : Input} (hx : x.Ok c) {fo mC : Nat} {order : List Nat} {s1 s2 s3 s4 st sk : Nat}
    (ho : order.Perm (List.range x.arrays.length)) (hm : mC ≤ x.metaData.length)
    (h1 : s1 < 2 ^ 64) (h2 : s2 < 2 ^ 64) (h3 : s3 < 2 ^ 64) (h4 : s4 < 2 ^ 64) (h5 : st < 2 ^ 64) (h6 : sk < 2 ^ 16)
    (he : x.fileEnd c fo mC order < 2 ^ 64) : ((fullHeader c fo x mC order).marked s1 s2 s3 s4 st sk).Fits := by
  have hn := le_padTo x.names.length
  have hmm := le_padTo mC
  have hb := le_padTo (x.arrays.length * 128)
  have hlen : order.length = x.arrays.length := by rw [ho.length_eq, List.length_range]
  have hu : (order.map fun i => prod (x.arrayAt i).arr.dims * (x.arrayAt i).arr.item).sum < 2 ^ 64 := by
    have e1 := (ho.map fun i => prod (x.arrayAt i).arr.dims * (x.arrayAt i).arr.item).sum_nat
    have e2 : ((List.range x.arrays.length).map fun i => prod (x.arrayAt i).arr.dims * (x.arrayAt i).arr.item) =
        x.arrays.map fun a => prod a.arr.dims * a.arr.item := by
      apply List.ext_getElem (by simp)
      intro i h1 h2
      simp only [List.length_map, List.length_range] at h1
      simp [Input.arrayAt, List.getD, h1]
    rw [e1, e2]; exact hx.total
  unfold Input.fileEnd at he
  have f1 := hx.nameCount
  have f2 := hx.metaRoom
  have f3 := hx.level
  have f4 := hx.fileType
  have f5 := hx.author
  have f6 := hx.bandSize
  have hf : (fillHeader fo x mC).first = 512 + fo + padTo x.names.length + padTo mC + padTo (x.arrays.length * 128) := rfl
  rw [hf] at he
  unfold Header.Fits Header.members
  simp only [List.forall_mem_cons, pow8, pow4, pow2]
  have hp : ∀ k : Nat, 0 < 256 ^ k := fun k => Nat.pow_pos (by decide)
  simp only [Header.marked, fullHeader, fillHeader]
  refine ⟨by decide, by decide, by decide, by decide, ?_, f3, by decide, by omega, by omega, f1, f4, h6, f5, by omega, by omega, by omega,
    by omega, by omega, by omega, by omega, by omega, by omega, hu, by decide, by decide, by decide, by omega, h1, h2, h3, h4, by omega, h5,
    hp 304, by intro p hp; nomatch hp⟩
  split <;> decide

theorem getD_five {l : List Nat} {P : Nat → Prop} (h0 : P 0) (h : ∀ d ∈ l, P d) : ∀ d ∈ five l, P d := by
  intro d hd
  unfold five at hd
  obtain ⟨i, _, hi⟩ := List.mem_map.mp hd
  rw [← hi]
  by_cases hl : i < l.length
  · have : l.getD i 0 = l[i] := by simp [List.getD, hl]
    rw [this]; exact h _ (List.getElem_mem hl)
  · have : l.getD i 0 = 0 := by simp [List.getD, Nat.le_of_not_lt hl]
    rw [this]; exact h0

/-- The place does not matter for what is stored. -/
theorem writeArr_off (c : Codec) (z : Bool) (bs : Nat) (a : Arr) (off : Nat) :
    (writeArr c z bs a off).2 = (writeArr c z bs a 0).2 ∧ (writeArr c z bs a off).1 = { (writeArr c z bs a 0).1 with offset := off } :=
  ⟨rfl, rfl⟩

theorem band_le (c : Codec) (z : Bool) (bs : Nat) (a : Arr) (off : Nat) : (writeArr c z bs a off).1.bandSize ≤ bs := by
  have h : ∀ q : Bool, (if q then 0 else bs) ≤ bs := by
    intro q; cases q <;> simp
  exact h _

theorem block_fits {c : Codec} {x : Input} (hx : x.Ok c) {fo mC : Nat} {order : List Nat} {i : Nat}
    (hi : i < x.arrays.length) (ho : x.offset c fo mC order i + x.stored c i < 2 ^ 64) : (x.block c fo mC order i).Fits := by
  have hm : x.arrayAt i ∈ x.arrays := by
    have : x.arrayAt i = x.arrays[i] := by simp [Input.arrayAt, List.getD, hi]
    rw [this]; exact List.getElem_mem hi
  have ha := hx.arrays _ hm
  have hdl := ha.arr.dims
  have hst : (x.arrayAt i).strides.take 5 = (x.arrayAt i).strides := List.take_of_length_le (by rw [ha.strides]; exact hdl)
  have hdt : (x.arrayAt i).arr.dims.take 5 = (x.arrayAt i).arr.dims := List.take_of_length_le hdl
  have h1 : (x.block c fo mC order i).blk.dims = (x.arrayAt i).arr.dims := hdt
  have h2 : (x.block c fo mC order i).strides = (x.arrayAt i).strides := hst
  have hs : (x.block c fo mC order i).blk.cSize = x.stored c i := rfl
  have hu : (x.block c fo mC order i).blk.uSize < 2 ^ 64 := by
    have e1 := ha.arr.bytes
    have e2 := ha.arr.size
    show prod (x.arrayAt i).arr.dims * (x.arrayAt i).arr.item < 2 ^ 64
    omega
  have hbs : (x.block c fo mC order i).blk.bandSize < 2 ^ 32 :=
    Nat.lt_of_le_of_lt (band_le c x.zstd x.bandSize (x.arrayAt i).arr (x.offset c fo mC order i)) hx.bandSize
  have hoff : (x.block c fo mC order i).blk.offset = x.offset c fo mC order i := rfl
  refine ⟨by rw [h1]; exact hdl, by rw [h1, h2]; exact ha.strides, ?_⟩
  have g1 : ∀ p ∈ [(2, 0), (2, 128), (1, 253), (1, 1), (1, (x.block c fo mC order i).dtype), (1, (x.block c fo mC order i).blk.dims.length),
      (4, (x.block c fo mC order i).blk.item), (4, (x.block c fo mC order i).flags)], p.2 < 256 ^ p.1 := by
    simp only [List.forall_mem_cons, pow4, pow2, pow1]
    exact ⟨by decide, by decide, by decide, by decide, ha.dtype, by rw [h1]; omega, ha.item, ha.flags, by intro p hp; nomatch hp⟩
  have g4 : ∀ p ∈ [(8, (x.block c fo mC order i).blk.offset), (8, (x.block c fo mC order i).blk.cSize),
      (8, (x.block c fo mC order i).blk.uSize), (4, (x.block c fo mC order i).blk.bandCount),
      (4, (x.block c fo mC order i).blk.bandSize)], p.2 < 256 ^ p.1 := by
    simp only [List.forall_mem_cons, pow8, pow4]
    exact ⟨by omega, by omega, hu, ha.bands, hbs, by intro p hp; nomatch hp⟩
  intro p hp
  unfold XBlk.members at hp
  rcases List.mem_append.mp hp with hp | hp
  · rcases List.mem_append.mp hp with hp | hp
    · rcases List.mem_append.mp hp with hp | hp
      · exact g1 p hp
      · obtain ⟨d, hd, he⟩ := List.mem_map.mp hp
        rw [← he]
        show d < 256 ^ 8
        rw [pow8]
        rw [h1] at hd
        exact getD_five (P := fun d => d < 2 ^ 64) (by decide) ha.dimRoom d hd
    · obtain ⟨d, hd, he⟩ := List.mem_map.mp hp
      rw [← he]
      show d < 256 ^ 8
      rw [pow8]
      rw [h2] at hd
      exact getD_five (P := fun d => d < 2 ^ 64) (by decide) ha.strideRoom d hd
  · exact g4 p hp

theorem readMeta_of {c : Codec} (hc : c.Lawful) {z : Bool} {l m f : List Nat} {h : Header} (hp : packMeta c z l = some m)
    (h1 : h.metaC = m.length) (h2 : h.metaU = l.length) (hf : HasAt f h.metaOffset m) : readMeta c f h = some l := by
  unfold HasAt at hf
  unfold readMeta
  rw [h1, h2, hf]
  unfold packMeta at hp
  split at hp
  · split at hp
    · next w hw =>
      split at hp
      · injection hp with hp
        subst hp
        rw [if_neg (by omega)]
      · injection hp with hp
        subst hp
        have h0 := hc.some_bytes hw
        rw [if_pos (by omega)]
        simp only [hc.back hw, if_pos]
    · nomatch hp
  · injection hp with hp
    subst hp
    rw [if_neg (by omega)]

theorem arrays_range (x : Input) {α : Type} (g : ArrIn → α) : (List.range x.arrays.length).map (fun i => g (x.arrayAt i)) = x.arrays.map g := by
  apply List.ext_getElem (by simp)
  intro i h1 h2
  simp only [List.length_map, List.length_range] at h1
  simp [Input.arrayAt, List.getD, h1]

/-- What is stored is read. -/
theorem stored_read {c : Codec} (hc : c.Lawful) {x : Input} (hx : x.Ok c) {f : List Nat} {fo e : Nat} (h : Stored c x f fo e) :
    readFile c f fo = some x.out := by
  obtain ⟨m, order, s1, s2, s3, s4, st, sk, hm, ho, b1, b2, b3, b4, b5, b6, he, hE, hh, hn, hmd, hb, ha⟩ := h
  have hend : x.fileEnd c fo m.length order < 2 ^ 64 := Nat.lt_of_le_of_lt he hE
  have hfit := header_fits hx ho (packMeta_length hm) b1 b2 b3 b4 b5 b6 hend
  have hrh := readHeader_of hh hfit rfl rfl
  have hlen : order.length = x.arrays.length := by rw [ho.length_eq, List.length_range]
  have hblk : ∀ b ∈ (List.range x.arrays.length).map (x.block c fo m.length order), b.Fits := by
    intro b hbm
    obtain ⟨i, hi, rfl⟩ := List.mem_map.mp hbm
    have hi' := List.mem_range.mp hi
    refine block_fits hx hi' ?_
    have h1 := allocAt_end (x.stored c) order 0 i (ho.mem_iff.mpr hi)
    have h2 := le_padTo (x.stored c i)
    unfold Input.fileEnd at hend
    unfold Input.offset
    omega
  have hrb : readAt f (fillHeader fo x m.length).blockOffset (x.arrays.length * 128) =
      some (((List.range x.arrays.length).map (x.block c fo m.length order)).flatMap fun b => enc b.members) := by
    have h1 : ((List.range x.arrays.length).flatMap fun i => enc (x.block c fo m.length order i).members).length = x.arrays.length * 128 := by
      rw [List.length_flatMap]
      have h2 : ((List.range x.arrays.length).map fun i => (enc (x.block c fo m.length order i).members).length) =
          List.replicate x.arrays.length 128 := by
        apply List.ext_getElem (by simp)
        intro i _ _
        simp only [List.getElem_map, List.getElem_replicate, block_length]
      rw [h2, List.sum_replicate_nat]
    have h3 := hb
    unfold HasAt at h3
    rw [h1] at h3
    rw [h3, List.flatMap_map]
  have hrbs := readBlocks_of _ hblk
  rw [List.length_map, List.length_range] at hrbs
  unfold readFile
  rw [hrh]
  show (match readAt f (fillHeader fo x m.length).nameOffset x.names.length with
    | none => none
    | some names => match readAt f (fillHeader fo x m.length).blockOffset (x.arrays.length * 128) with
      | none => none
      | some bs => some (⟨x.fileType, names, x.nameCount, readMeta c f ((fullHeader c fo x m.length order).marked s1 s2 s3 s4 st sk),
          (readBlocks order.length bs).map (readOne c f)⟩ : Out)) = some x.out
  unfold HasAt at hn
  rw [hn, hrb]
  show some (⟨x.fileType, x.names, x.nameCount, readMeta c f ((fullHeader c fo x m.length order).marked s1 s2 s3 s4 st sk),
    (readBlocks order.length (((List.range x.arrays.length).map (x.block c fo m.length order)).flatMap fun b => enc b.members)).map
      (readOne c f)⟩ : Out) = some x.out
  rw [hlen, hrbs, readMeta_of hc hm (h := (fullHeader c fo x m.length order).marked s1 s2 s3 s4 st sk) rfl rfl hmd, List.map_map]
  have hall : (List.range x.arrays.length).map (readOne c f ∘ x.block c fo m.length order) =
      x.arrays.map fun a => (⟨a.arr.dims, a.arr.item, a.dtype, a.flags, a.strides, some a.arr.data⟩ : OutArr) := by
    rw [← arrays_range x fun a => (⟨a.arr.dims, a.arr.item, a.dtype, a.flags, a.strides, some a.arr.data⟩ : OutArr)]
    apply List.map_congr_left
    intro i hi
    have hi' := List.mem_range.mp hi
    have hmem : x.arrayAt i ∈ x.arrays := by
      have : x.arrayAt i = x.arrays[i] := by simp [Input.arrayAt, List.getD, hi']
      rw [this]; exact List.getElem_mem hi'
    have hok := hx.arrays _ hmem
    have hr := read_written_partial hc x.zstd x.bandSize (x.arrayAt i).arr hok.arr (x.offset c fo m.length order i) f (ha i hi') hok.noChance
    show (⟨(x.arrayAt i).arr.dims.take 5, (x.arrayAt i).arr.item, (x.arrayAt i).dtype, (x.arrayAt i).flags,
      (x.arrayAt i).strides.take 5, readArr c f (writeArr c x.zstd x.bandSize (x.arrayAt i).arr (x.offset c fo m.length order i)).1⟩ : OutArr) =
      _
    rw [hr, List.take_of_length_le hok.arr.dims, List.take_of_length_le (by rw [hok.strides]; exact hok.arr.dims)]
  rw [hall]
  rfl

/-! ## What is written is stored -/

/-- The writes of a file from `fo` on, with some others before the end and some header there. -/
def fileWrites (c : Codec) (fo : Nat) (x : Input) (m order worder : List Nat) (mid : List (Nat × List Nat)) (h : Header) :
    List (Nat × List Nat) :=
  startWrites fo x m ++ arrayWrites c fo x m.length order worder ++ mid ++ endWrites c fo x m.length order h

theorem blocks_length (c : Codec) (x : Input) (fo mC : Nat) (order : List Nat) :
    ((List.range x.arrays.length).flatMap fun i => enc (x.block c fo mC order i).members).length = x.arrays.length * 128 := by
  rw [List.length_flatMap]
  have h2 : ((List.range x.arrays.length).map fun i => (enc (x.block c fo mC order i).members).length) =
      List.replicate x.arrays.length 128 := by
    apply List.ext_getElem (by simp)
    intro i _ _
    simp only [List.getElem_map, List.getElem_replicate, block_length]
  rw [h2, List.sum_replicate_nat]

/-- Where the arrays are: behind the blocks, apart from each other, and before the end. -/
theorem array_place (c : Codec) (x : Input) (fo mC : Nat) {order : List Nat} (ho : order.Perm (List.range x.arrays.length)) {i : Nat}
    (hi : i < x.arrays.length) :
    (fillHeader fo x mC).first ≤ x.offset c fo mC order i ∧
    x.offset c fo mC order i + (writeArr c x.zstd x.bandSize (x.arrayAt i).arr (x.offset c fo mC order i)).2.length ≤
      x.fileEnd c fo mC order := by
  have h1 := allocAt_end (x.stored c) order 0 i (ho.mem_iff.mpr (List.mem_range.mpr hi))
  have h2 := le_padTo (x.stored c i)
  have h3 : (writeArr c x.zstd x.bandSize (x.arrayAt i).arr (x.offset c fo mC order i)).2.length = x.stored c i := rfl
  rw [h3]
  unfold Input.offset Input.fileEnd
  omega

theorem arrays_apart (c : Codec) (x : Input) (fo mC : Nat) {order : List Nat} (ho : order.Perm (List.range x.arrays.length)) {i j : Nat}
    (hi : i < x.arrays.length) (hj : j < x.arrays.length) (hne : i ≠ j) :
    Apart (x.offset c fo mC order i, (writeArr c x.zstd x.bandSize (x.arrayAt i).arr (x.offset c fo mC order i)).2)
      (x.offset c fo mC order j, (writeArr c x.zstd x.bandSize (x.arrayAt j).arr (x.offset c fo mC order j)).2) := by
  have h1 := allocAt_apart (x.stored c) order 0 i j (ho.mem_iff.mpr (List.mem_range.mpr hi)) (ho.mem_iff.mpr (List.mem_range.mpr hj)) hne
  have h2 := le_padTo (x.stored c i)
  have h3 := le_padTo (x.stored c j)
  have h4 : (writeArr c x.zstd x.bandSize (x.arrayAt i).arr (x.offset c fo mC order i)).2.length = x.stored c i := rfl
  have h5 : (writeArr c x.zstd x.bandSize (x.arrayAt j).arr (x.offset c fo mC order j)).2.length = x.stored c j := rfl
  refine .inr ?_
  simp only [h4, h5]
  unfold Input.offset
  omega

/-- All writes of a file are within it. -/
theorem writes_inside (c : Codec) (fo : Nat) (x : Input) (m : List Nat) {order worder : List Nat} (h : Header)
    (ho : order.Perm (List.range x.arrays.length)) (hw : ∀ i ∈ worder, i < x.arrays.length)
    (hh : h.blockOffset = (fillHeader fo x m.length).blockOffset) :
    ∀ w ∈ fileWrites c fo x m order worder [] h, fo ≤ w.1 ∧ w.1 + w.2.length ≤ x.fileEnd c fo m.length order := by
  have hn := le_padTo x.names.length
  have hmm := le_padTo m.length
  have hb := le_padTo (x.arrays.length * 128)
  have hf : (fillHeader fo x m.length).first = 512 + fo + padTo x.names.length + padTo m.length + padTo (x.arrays.length * 128) := rfl
  have hbl := blocks_length c x fo m.length order
  have he : (fillHeader fo x m.length).first ≤ x.fileEnd c fo m.length order := Nat.le_add_right _ _
  intro w hm
  unfold fileWrites startWrites arrayWrites endWrites at hm
  rw [List.append_nil] at hm
  rcases List.mem_append.mp hm with hm | hm
  · rcases List.mem_append.mp hm with hm | hm
    · simp only [List.mem_cons, List.not_mem_nil, or_false] at hm
      rcases hm with rfl | rfl | rfl
      · simp only [header_length]; omega
      · show fo ≤ 512 + fo ∧ 512 + fo + x.names.length ≤ _; omega
      · show fo ≤ 512 + fo + padTo x.names.length ∧ 512 + fo + padTo x.names.length + m.length ≤ _; omega
    · obtain ⟨i, hi, rfl⟩ := List.mem_map.mp hm
      have := array_place c x fo m.length ho (hw i hi)
      constructor
      · show fo ≤ x.offset c fo m.length order i; omega
      · exact this.2
  · simp only [List.mem_cons, List.not_mem_nil, or_false] at hm
    rcases hm with rfl | rfl
    · simp only [header_length]; omega
    · simp only [hbl, hh]
      show fo ≤ 512 + fo + padTo x.names.length + padTo m.length ∧
        512 + fo + padTo x.names.length + padTo m.length + x.arrays.length * 128 ≤ _
      omega

/-- Writes elsewhere change nothing. -/
theorem stored_keep {c : Codec} {x : Input} {f : List Nat} {fo e : Nat} (h : Stored c x f fo e) (ws : List (Nat × List Nat))
    (hw : ∀ w ∈ ws, w.1 + w.2.length ≤ fo ∨ e ≤ w.1) : Stored c x (writes f ws) fo e := by
  obtain ⟨m, order, s1, s2, s3, s4, st, sk, hm, ho, b1, b2, b3, b4, b5, b6, he, hE, hh, hn, hmd, hb, ha⟩ := h
  have h1 := le_padTo x.names.length
  have h2 := le_padTo m.length
  have h3 := le_padTo (x.arrays.length * 128)
  have hf : (fillHeader fo x m.length).first = 512 + fo + padTo x.names.length + padTo m.length + padTo (x.arrays.length * 128) := rfl
  have hle : (fillHeader fo x m.length).first ≤ x.fileEnd c fo m.length order := Nat.le_add_right _ _
  refine ⟨m, order, s1, s2, s3, s4, st, sk, hm, ho, b1, b2, b3, b4, b5, b6, he, hE, ?_, ?_, ?_, ?_, ?_⟩
  · refine writes_kept ws f hh fun w hwm => .inr ?_
    have := hw w hwm
    simp only [header_length]; omega
  · refine writes_kept ws f hn fun w hwm => .inr ?_
    have := hw w hwm
    show 512 + fo + x.names.length ≤ w.1 ∨ w.1 + w.2.length ≤ 512 + fo
    omega
  · refine writes_kept ws f hmd fun w hwm => .inr ?_
    have := hw w hwm
    show 512 + fo + padTo x.names.length + m.length ≤ w.1 ∨ w.1 + w.2.length ≤ 512 + fo + padTo x.names.length
    omega
  · refine writes_kept ws f hb fun w hwm => .inr ?_
    have := hw w hwm
    simp only [blocks_length]
    show 512 + fo + padTo x.names.length + padTo m.length + x.arrays.length * 128 ≤ w.1 ∨
      w.1 + w.2.length ≤ 512 + fo + padTo x.names.length + padTo m.length
    omega
  · intro i hi
    refine writes_kept ws f (ha i hi) fun w hwm => .inr ?_
    have := hw w hwm
    have := array_place c x fo m.length ho hi
    dsimp only
    omega

/-- Whatever the orders in which the threads take offsets and write, and whatever was in the file or is written elsewhere: the input is
stored. -/
theorem writes_stored {c : Codec} {x : Input} {fo : Nat} {m order worder : List Nat} {s1 s2 s3 s4 st sk : Nat} (f : List Nat)
    (mid : List (Nat × List Nat)) (hmid : ∀ w ∈ mid, w.1 + w.2.length ≤ fo ∨ x.fileEnd c fo m.length order ≤ w.1)
    (hm : packMeta c x.zstd x.metaData = some m) (ho : order.Perm (List.range x.arrays.length))
    (hw : worder.Perm (List.range x.arrays.length))
    (b1 : s1 < 2 ^ 64) (b2 : s2 < 2 ^ 64) (b3 : s3 < 2 ^ 64) (b4 : s4 < 2 ^ 64) (b5 : st < 2 ^ 64) (b6 : sk < 2 ^ 16)
    (he : x.fileEnd c fo m.length order < 2 ^ 64) :
    Stored c x (writes f (fileWrites c fo x m order worder mid ((fullHeader c fo x m.length order).marked s1 s2 s3 s4 st sk))) fo
      (x.fileEnd c fo m.length order) := by
  have h1 := le_padTo x.names.length
  have h2 := le_padTo m.length
  have h3 := le_padTo (x.arrays.length * 128)
  have hf : (fillHeader fo x m.length).first = 512 + fo + padTo x.names.length + padTo m.length + padTo (x.arrays.length * 128) := rfl
  have hno : (fillHeader fo x m.length).nameOffset = 512 + fo := rfl
  have hmo : (fillHeader fo x m.length).metaOffset = 512 + fo + padTo x.names.length := rfl
  have hbo : (fillHeader fo x m.length).blockOffset = 512 + fo + padTo x.names.length + padTo m.length := rfl
  have hbl := blocks_length c x fo m.length order
  have harr : ∀ w ∈ arrayWrites c fo x m.length order worder, (fillHeader fo x m.length).first ≤ w.1 := by
    intro w hwm
    obtain ⟨i, hi, rfl⟩ := List.mem_map.mp hwm
    exact (array_place c x fo m.length ho (List.mem_range.mp (hw.mem_iff.mp hi))).1
  generalize hH : (fullHeader c fo x m.length order).marked s1 s2 s3 s4 st sk = H
  have hHb : H.blockOffset = (fillHeader fo x m.length).blockOffset := by rw [← hH]; rfl
  have hHl := header_length H
  have hle : (fillHeader fo x m.length).first ≤ x.fileEnd c fo m.length order := Nat.le_add_right _ _
  refine ⟨m, order, s1, s2, s3, s4, st, sk, hm, ho, b1, b2, b3, b4, b5, b6, Nat.le_refl _, he, ?_, ?_, ?_, ?_, ?_⟩
  · rw [hH]
    refine writes_has (startWrites fo x m ++ arrayWrites c fo x m.length order worder ++ mid) (fo, H.bytes) [_] ?_
    intro v hv
    rw [List.mem_singleton] at hv
    subst hv
    refine .inr (.inl ?_)
    simp only [hHl, hHb, hbo]; omega
  · show HasAt (writes f ([(fo, (fillHeader fo x m.length).bytes)] ++ ((fillHeader fo x m.length).nameOffset, x.names) ::
      ([((fillHeader fo x m.length).metaOffset, m)] ++ arrayWrites c fo x m.length order worder ++ mid ++ endWrites c fo x m.length order H)))
      _ _
    refine writes_has [_] ((fillHeader fo x m.length).nameOffset, x.names) _ ?_
    intro v hv
    rcases List.mem_append.mp hv with hv | hv
    · rcases List.mem_append.mp hv with hv | hv
      · rcases List.mem_append.mp hv with hv | hv
        · rw [List.mem_singleton] at hv; subst hv
          refine .inr (.inl ?_); simp only [hno, hmo]; omega
        · have := harr v hv
          refine .inr (.inl ?_); simp only [hno]; omega
      · have := hmid v hv
        refine .inr ?_; simp only [hno]; omega
    · unfold endWrites at hv
      simp only [List.mem_cons, List.not_mem_nil, or_false] at hv
      rcases hv with rfl | rfl
      · refine .inr (.inr ?_); simp only [hHl, hno]; omega
      · refine .inr (.inl ?_); simp only [hHb, hno, hbo]; omega
  · show HasAt (writes f ([(fo, (fillHeader fo x m.length).bytes), ((fillHeader fo x m.length).nameOffset, x.names)] ++
      ((fillHeader fo x m.length).metaOffset, m) :: (arrayWrites c fo x m.length order worder ++ mid ++ endWrites c fo x m.length order H))) _ _
    refine writes_has [_, _] ((fillHeader fo x m.length).metaOffset, m) _ ?_
    intro v hv
    rcases List.mem_append.mp hv with hv | hv
    · rcases List.mem_append.mp hv with hv | hv
      · have := harr v hv
        refine .inr (.inl ?_); simp only [hmo]; omega
      · have := hmid v hv
        refine .inr ?_; simp only [hmo]; omega
    · unfold endWrites at hv
      simp only [List.mem_cons, List.not_mem_nil, or_false] at hv
      rcases hv with rfl | rfl
      · refine .inr (.inr ?_); simp only [hHl, hmo]; omega
      · refine .inr (.inl ?_); simp only [hHb, hmo, hbo]; omega
  · have h4 : fileWrites c fo x m order worder mid H = (startWrites fo x m ++ arrayWrites c fo x m.length order worder ++ mid ++ [(fo, H.bytes)]) ++
        (H.blockOffset, (List.range x.arrays.length).flatMap fun i => enc (x.block c fo m.length order i).members) :: [] := by
      unfold fileWrites endWrites; simp only [List.append_assoc, List.cons_append, List.nil_append]
    rw [h4, ← hHb]
    exact writes_has _ (H.blockOffset, _) [] (by intro v hv; nomatch hv)
  · intro i hi
    have hiw : i ∈ worder := hw.mem_iff.mpr (List.mem_range.mpr hi)
    obtain ⟨a, b, hab⟩ := List.append_of_mem hiw
    have hnd : worder.Nodup := hw.nodup_iff.mpr List.nodup_range
    rw [hab] at hnd
    have hnb : i ∉ b := (List.nodup_cons.mp (List.nodup_append.mp hnd).2.1).1
    have h4 : fileWrites c fo x m order worder mid H = (startWrites fo x m ++ arrayWrites c fo x m.length order a) ++
        (x.offset c fo m.length order i, (writeArr c x.zstd x.bandSize (x.arrayAt i).arr (x.offset c fo m.length order i)).2) ::
        (arrayWrites c fo x m.length order b ++ mid ++ endWrites c fo x m.length order H) := by
      unfold fileWrites arrayWrites
      rw [hab]
      simp only [List.map_append, List.map_cons, List.append_assoc, List.cons_append]
    rw [h4]
    refine writes_has _ (x.offset c fo m.length order i, _) _ ?_
    have hp := array_place c x fo m.length ho hi
    intro v hv
    rcases List.mem_append.mp hv with hv | hv
    · rcases List.mem_append.mp hv with hv | hv
      · obtain ⟨j, hj, rfl⟩ := List.mem_map.mp hv
        have hjw : j ∈ worder := by rw [hab]; simp [hj]
        exact arrays_apart c x fo m.length ho hi (List.mem_range.mp (hw.mem_iff.mp hjw)) (by intro h; exact hnb (h ▸ hj))
      · have := hmid v hv
        refine .inr ?_; dsimp only; omega
    · unfold endWrites at hv
      simp only [List.mem_cons, List.not_mem_nil, or_false] at hv
      rcases hv with rfl | rfl
      · refine .inr (.inr ?_); simp only [hHl]; omega
      · refine .inr (.inr ?_); simp only [hHb, hbo, hbl]; omega

/-- The input is written unless the metadata cannot be compressed. -/
theorem write_iff (c : Codec) (x : Input) (order worder : List Nat) (stamp : Nat) :
    (writeFile c x order worder stamp).isSome ↔ (x.zstd = true → (c.comp (c.bound x.metaData.length) x.metaData).isSome) := by
  unfold writeFile packMeta
  cases x.zstd
  · simp
  · cases h : c.comp (c.bound x.metaData.length) x.metaData with
    | none => simp
    | some z =>
      simp only [if_true]
      by_cases hl : x.metaData.length ≤ z.length
      · rw [if_pos hl]; simp
      · rw [if_neg hl]; simp

/-- C109: a file is read as it was written, whatever the order in which the threads took offsets and wrote their arrays. -/
theorem file_read_partial {c : Codec} (hc : c.Lawful) {x : Input} (hx : x.Ok c) {order worder : List Nat} {stamp : Nat} {f : List Nat}
    (ho : order.Perm (List.range x.arrays.length)) (hw : worder.Perm (List.range x.arrays.length)) (hs : stamp < 2 ^ 64)
    (he : ∀ m, packMeta c x.zstd x.metaData = some m → x.fileEnd c 0 m.length order < 2 ^ 64)
    (h : writeFile c x order worder stamp = some f) : readFile c f 0 = some x.out := by
  unfold writeFile at h
  split at h
  · nomatch h
  · next m hm =>
    injection h with h
    have h1 := writes_stored (c := c) (x := x) (fo := 0) (worder := worder) (s1 := 0) (s2 := 0) (s3 := 0) (s4 := 0) (st := stamp) (sk := 0) []
      [] (by intro w hw; nomatch hw) hm ho hw (by decide) (by decide) (by decide) (by decide) hs (by decide) (he m hm)
    unfold fileWrites at h1
    rw [List.append_nil] at h1
    rw [← h]
    exact stored_read hc hx h1

theorem padTo_dvd (n : Nat) : 512 ∣ padTo n := ⟨(n + 511) / 512, by unfold padTo; omega⟩

theorem allocAt_dvd (size : Nat → Nat) : ∀ (js : List Nat) (tot i : Nat), 512 ∣ tot → 512 ∣ allocAt size js tot i
  | [], _, _, h => h
  | j :: js, tot, i, h => by
    rw [allocAt]
    split
    · exact h
    · exact allocAt_dvd size js _ i (Nat.dvd_add h (padTo_dvd _))

/-- All arrays start at a multiple of 512. -/
theorem offset_aligned (c : Codec) (x : Input) (fo mC : Nat) (order : List Nat) (i : Nat) (h : 512 ∣ fo) : 512 ∣ x.offset c fo mC order i := by
  refine Nat.dvd_add ?_ (allocAt_dvd _ order 0 i (Nat.dvd_zero 512))
  exact Nat.dvd_add (Nat.dvd_add (Nat.dvd_add (Nat.dvd_add (Nat.dvd_refl 512) h) (padTo_dvd _)) (padTo_dvd _)) (padTo_dvd _)

/-- Two arrays in a file for examples: the second is compressed in bands. -/
def two : Input := ⟨[97, 0, 1, 98, 0, 1], 2, [7, 0, 0, 0], [⟨⟨[3], 1, [1, 2, 3]⟩, 1, 3, [1]⟩, ⟨four, 1, 1, [2, 1]⟩], true, 3, 1, 0, 3⟩

theorem two_ok : two.Ok toy where
  arrays := by
    intro a ha
    simp only [two, List.mem_cons, List.not_mem_nil, or_false] at ha
    rcases ha with rfl | rfl
    · exact ⟨⟨by decide, by decide, by decide⟩, by decide, by decide, by decide, by decide, by decide, by decide, by decide, by decide⟩
    · exact ⟨⟨by decide, by decide, by decide⟩, by decide, by decide, by decide, by decide, by decide, by decide, by decide, by decide⟩
  nameCount := by decide
  metaRoom := by decide
  level := by decide
  fileType := by decide
  author := by decide
  bandSize := by decide
  total := by decide

example : [1, 0].Perm (List.range two.arrays.length) := by decide
example : packMeta toy two.zstd two.metaData = some [4, 7] := by decide
example : two.fileEnd toy 0 2 [1, 0] = 3072 := by decide
example : two.offset toy 0 2 [1, 0] 0 = 2560 ∧ two.offset toy 0 2 [0, 1] 0 = 2048 := by decide
example : ∃ f : List Nat, writeFile toy two [1, 0] [0, 1] 5 = some f ∧ readFile toy f 0 = some two.out :=
  ⟨_, rfl, file_read_partial toy_lawful two_ok (order := [1, 0]) (worder := [0, 1]) (stamp := 5) (by decide) (by decide) (by decide)
    (by intro m hm; rw [show packMeta toy two.zstd two.metaData = some [4, 7] by decide] at hm; injection hm with hm; subst hm; decide) rfl⟩

/-- The array of `read_written_wrong` in a file. -/
def one : Input := ⟨[97, 0, 1], 1, [], [⟨chance, 1, 3, [1]⟩], true, 3, 1, 0, 10000⟩

/-- C109 fails for a banded array whose stored size is by chance its own: its stored bytes are read. -/
theorem file_read_wrong : ((writeFile toy one [0] [0] 0).bind fun f => readFile toy f 0) ≠ some one.out ∧
    ((writeFile toy one [0] [0] 0).bind fun f => (readFile toy f 0).map fun o => o.arrays.map (·.data)) =
      some [some [4, 0, 0, 0, 0, 0, 0, 0, 12, 1, 2, 3]] := by
  decide +kernel

end Riptide.Sds
