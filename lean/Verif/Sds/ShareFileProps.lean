import Verif.Sds.ShareProps
import Verif.Sds.ShareFileSpec
/-! # C126: what a file is read as through a share -/
namespace Riptide.Sds

/-! ### The parts of a file -/

theorem stored_parts {c : Codec} (hc : c.Lawful) {x : Input} (hx : x.Ok c) {f : List Nat} {e : Nat} (h : Stored c x f 0 e) :
    ∃ (H : Header) (blocks : List XBlk), readHeader f 0 = some H ∧ H.nameSize = x.names.length ∧ H.nameCount = x.nameCount ∧
      H.metaU = x.metaData.length ∧ H.written = x.arrays.length ∧ H.fileType = x.fileType ∧ H.author = x.author ∧
      H.blockSize = x.arrays.length * 128 ∧ readAt f H.nameOffset H.nameSize = some x.names ∧ readMeta c f H = some x.metaData ∧
      (∃ bs, readAt f H.blockOffset H.blockSize = some bs ∧ readBlocks x.arrays.length bs = blocks ∧ bs.length = x.arrays.length * 128) ∧
      blocks.length = x.arrays.length ∧
      ∀ (i : Nat) (h1 : i < blocks.length) (h2 : i < x.arrays.length), blocks[i].Fits ∧
        blocks[i].blk.dims = x.arrays[i].arr.dims ∧ blocks[i].blk.item = x.arrays[i].arr.item ∧
        blocks[i].blk.uSize = x.arrays[i].arr.data.length ∧ blocks[i].dtype = x.arrays[i].dtype ∧ blocks[i].flags = x.arrays[i].flags ∧
        blocks[i].strides = x.arrays[i].strides ∧ readArr c f blocks[i].blk = some x.arrays[i].arr.data := by
  obtain ⟨m, order, s1, s2, s3, s4, st, sk, hm, ho, b1, b2, b3, b4, b5, b6, he, hE, hh, hn, hmd, hb, ha⟩ := h
  have hend : x.fileEnd c 0 m.length order < 2 ^ 64 := Nat.lt_of_le_of_lt he hE
  have hfit := header_fits hx ho (packMeta_length hm) b1 b2 b3 b4 b5 b6 hend
  have hrh := readHeader_of hh hfit rfl rfl
  have hlen : order.length = x.arrays.length := by rw [ho.length_eq, List.length_range]
  have hblk : ∀ b ∈ (List.range x.arrays.length).map (x.block c 0 m.length order), b.Fits := by
    intro b hbm
    obtain ⟨i, hi, rfl⟩ := List.mem_map.mp hbm
    have hi' := List.mem_range.mp hi
    refine block_fits hx hi' ?_
    have h1 := allocAt_end (x.stored c) order 0 i (ho.mem_iff.mpr hi)
    have h2 := le_padTo (x.stored c i)
    unfold Input.fileEnd at hend
    unfold Input.offset
    omega
  have hbl := blocks_length c x 0 m.length order
  have hrb : readAt f (fillHeader 0 x m.length).blockOffset (x.arrays.length * 128) =
      some ((List.range x.arrays.length).flatMap fun i => enc (x.block c 0 m.length order i).members) := by
    have h3 := hb
    unfold HasAt at h3
    rw [hbl] at h3
    exact h3
  have hrbs := readBlocks_of _ hblk
  rw [List.length_map, List.length_range, List.flatMap_map] at hrbs
  refine ⟨_, (List.range x.arrays.length).map (x.block c 0 m.length order), hrh, rfl, rfl, rfl, hlen, rfl, rfl, rfl, ?_, ?_,
    ⟨_, hrb, hrbs, hbl⟩, by rw [List.length_map, List.length_range], ?_⟩
  · exact hn
  · exact readMeta_of hc hm (h := (fullHeader c 0 x m.length order).marked s1 s2 s3 s4 st sk) rfl rfl hmd
  · intro i h1 h2
    have hat : x.arrayAt i = x.arrays[i] := by simp [Input.arrayAt, List.getD, h2]
    have hok := hx.arrays _ (List.getElem_mem h2)
    have hg : ((List.range x.arrays.length).map (x.block c 0 m.length order))[i] = x.block c 0 m.length order i := by simp
    have hdt : x.arrays[i].arr.dims.take 5 = x.arrays[i].arr.dims := List.take_of_length_le hok.arr.dims
    have hst : x.arrays[i].strides.take 5 = x.arrays[i].strides := List.take_of_length_le (by rw [hok.strides]; exact hok.arr.dims)
    have hr := read_written_partial hc x.zstd x.bandSize x.arrays[i].arr hok.arr (x.offset c 0 m.length order i) f
      (by rw [← hat]; exact ha i h2) hok.noChance
    refine ⟨hblk _ (List.getElem_mem h1), ?_⟩
    rw [hg]
    refine ⟨?_, ?_, ?_, ?_, ?_, ?_, ?_⟩
    · show (x.arrayAt i).arr.dims.take 5 = _
      rw [hat, hdt]
    · show (x.arrayAt i).arr.item = _
      rw [hat]
    · show prod (x.arrayAt i).arr.dims * (x.arrayAt i).arr.item = _
      rw [hat, hok.arr.bytes]
    · show (x.arrayAt i).dtype = _
      rw [hat]
    · show (x.arrayAt i).flags = _
      rw [hat]
    · show (x.arrayAt i).strides.take 5 = _
      rw [hat, hst]
    · show readArr c f (writeArr c x.zstd x.bandSize (x.arrayAt i).arr (x.offset c 0 m.length order i)).1 = _
      rw [hat]; exact hr

theorem moved_fits {b : XBlk} (hb : b.Fits) {off : Nat} (ho : off < 2 ^ 64) : (b.moved off).Fits := by
  refine ⟨hb.dims, hb.strides, ?_⟩
  have hu : b.blk.uSize < 256 ^ 8 := hb.room (8, b.blk.uSize) (by unfold XBlk.members; simp)
  intro p hp
  have h := hb.room p
  unfold XBlk.members at h hp
  rcases List.mem_append.mp hp with hp | hp
  · exact h (List.mem_append_left _ hp)
  · simp only [XBlk.moved, List.mem_cons, List.not_mem_nil, or_false] at hp
    rcases hp with rfl | rfl | rfl | rfl | rfl
    · simp only [pow8]; exact ho
    · exact hu
    · exact hu
    · decide
    · decide

theorem zip_moved : ∀ (l : List XBlk) (os : List Nat), os.length = l.length →
    (List.zipWith XBlk.moved l os).map (fun b => b.blk.offset) = os
  | [], [], _ => rfl
  | a :: l, o :: os, h => by
    rw [List.zipWith_cons_cons, List.map_cons, zip_moved l os (by simpa using h)]; rfl
  | [], _ :: _, h => by simp at h
  | _ :: _, [], h => by simp at h

theorem bits64_int64 {n : Nat} (h : n < 2 ^ 64) : (int64 n % 2 ^ 64).toNat = n := by
  unfold int64; split <;> omega

/-- A file is copied into a share which holds what was written to the file. -/
theorem copy_holds {c : Codec} (hc : c.Lawful) {x : Input} (hx : x.Ok c) {f : List Nat} {e : Nat} (h : Stored c x f 0 e)
    (hw : ∀ a ∈ x.arrays, 0 < a.arr.item ∨ a.dtype ≠ 18) (ht : 512 * x.shareUnits < 2 ^ 64) :
    ∃ m o, copyShare c f none = some (.made m) ∧ m.length = 512 * x.shareUnits ∧ readShare m = some o ∧ o.mem = m ∧ Holds o x := by
  obtain ⟨H, blocks, g1, g2, g3, g4, g5, g6, g7, g8, g9, g10, ⟨bs, g11, g12, g13⟩, g14, g15⟩ := stored_parts hc hx h
  have hsm : shareMeta c f H = some x.metaData := by
    unfold shareMeta
    split
    · exact g10
    · rw [g10]; rfl
  have hus : (blocks.map fun b => b.blk.uSize) = x.arrays.map fun a => a.arr.data.length := by
    apply List.ext_getElem (by simp [g14])
    intro i h1 h2
    simp only [List.length_map] at h1 h2
    simp only [List.getElem_map]
    exact (g15 i h1 h2).2.2.2.1
  have hdat : (blocks.zipIdx.map fun p => shareData c f none p.2 p.1) = x.arrays.map fun a => a.arr.data := by
    apply List.ext_getElem (by simp [g14])
    intro i h1 h2
    simp only [List.length_map, List.length_zipIdx] at h1 h2
    simp only [List.getElem_map, List.getElem_zipIdx, shareData, (g15 i h1 h2).2.2.2.2.2.2.2, Option.getD_some]
  have hlens : (x.arrays.map fun a => a.arr.data).map List.length = x.arrays.map fun a => a.arr.data.length := by rw [List.map_map]; rfl
  -- the header
  have hH : ∀ w, copyHeader H w = shareHeader x.names.length x.nameCount x.metaData.length x.arrays.length w x.fileType x.author 0 := by
    intro w; unfold copyHeader; rw [g2, g3, g4, g5, g6, g7]
  have hfirst : (copyHeader H x.arrays.length).first =
      512 + padTo x.names.length + padTo x.metaData.length + padTo (x.arrays.length * 128) := by rw [hH]; rfl
  have hfirst0 : (copyHeader H 0).first = (copyHeader H x.arrays.length).first := rfl
  -- the size
  have hsum : ∀ l : List ArrIn, ((l.map fun a => a.arr.data.length).map padTo).sum = 512 * (l.map fun a => units a.arr.data.length).sum := by
    intro l
    induction l with
    | nil => rfl
    | cons a l ih => simp only [List.map_cons, List.sum_cons, ih, padTo_units]; omega
  have hsize : shareSize x.names.length x.metaData.length (x.arrays.length * 128) (x.arrays.map fun a => a.arr.data.length) =
      512 * x.shareUnits := by
    unfold shareSize Input.shareUnits
    rw [hsum, padTo_units, padTo_units, padTo_units, Nat.mul_comm x.arrays.length 128]
    omega
  have hT : (copyHeader H x.arrays.length).first + ((x.arrays.map fun a => a.arr.data.length).map padTo).sum = 512 * x.shareUnits := by
    rw [← hsize, hfirst]; rfl
  have hmlen : (copyBlocks H blocks).length = x.arrays.length := by
    unfold copyBlocks
    rw [List.length_zipWith, tally_length, List.length_map, g14, Nat.min_self]
  have hoff : (copyBlocks H blocks).map (fun b => b.blk.offset) =
      tally (copyHeader H x.arrays.length).first ((x.arrays.map fun a => a.arr.data).map List.length) := by
    unfold copyBlocks
    rw [zip_moved _ _ (by rw [tally_length, List.length_map]), hus, hlens, hfirst0]
  have hheq : copyHeader H x.arrays.length = shareHeader x.names.length x.nameCount x.metaData.length (copyBlocks H blocks).length
      (copyBlocks H blocks).length x.fileType x.author 0 := by rw [hmlen, hH]
  obtain ⟨m, p1, p2, p3⟩ := share_late (datas := x.arrays.map fun a => a.arr.data) (h0 := copyHeader H 0) (T := 512 * x.shareUnits) hheq hoff
    (by rw [hlens, hT]; exact Nat.le_refl _)
  have hin : ∀ (i : Nat) (h1 : i < (copyBlocks H blocks).length) (h2 : i < x.arrays.length),
      (copyBlocks H blocks)[i].blk.offset + x.arrays[i].arr.data.length ≤ 512 * x.shareUnits ∧
      ((copyBlocks H blocks)[i].blk.offset, x.arrays[i].arr.data) ∈
        List.zipWith (fun (b : XBlk) (d : List Nat) => (b.blk.offset, d)) (copyBlocks H blocks) (x.arrays.map fun a => a.arr.data) := by
    intro i h1 h2
    have hmem : ((copyBlocks H blocks)[i].blk.offset, x.arrays[i].arr.data) ∈
        List.zipWith (fun (b : XBlk) (d : List Nat) => (b.blk.offset, d)) (copyBlocks H blocks) (x.arrays.map fun a => a.arr.data) := by
      have h5 : i < (List.zipWith (fun (b : XBlk) (d : List Nat) => (b.blk.offset, d)) (copyBlocks H blocks)
          (x.arrays.map fun a => a.arr.data)).length := by rw [List.length_zipWith, List.length_map]; omega
      have h4 : (List.zipWith (fun (b : XBlk) (d : List Nat) => (b.blk.offset, d)) (copyBlocks H blocks)
          (x.arrays.map fun a => a.arr.data))[i] = ((copyBlocks H blocks)[i].blk.offset, x.arrays[i].arr.data) := by
        rw [List.getElem_zipWith, List.getElem_map]
      rw [← h4]; exact List.getElem_mem h5
    exact ⟨(p3 _ (by unfold shareWrites; exact List.mem_append_right _ hmem)).2, hmem⟩
  have hcb : ∀ (i : Nat) (h1 : i < (copyBlocks H blocks).length) (h2 : i < blocks.length),
      (copyBlocks H blocks)[i] = blocks[i].moved (copyBlocks H blocks)[i].blk.offset := by
    intro i h1 h2
    have h3 : i < (tally (copyHeader H 0).first (blocks.map fun b => b.blk.uSize)).length := by
      rw [tally_length, List.length_map]; exact h2
    have h4 : (copyBlocks H blocks)[i] = blocks[i].moved (tally (copyHeader H 0).first (blocks.map fun b => b.blk.uSize))[i] := by
      simp only [copyBlocks, List.getElem_zipWith]
    rw [h4]; rfl
  have hfit : ∀ b ∈ copyBlocks H blocks, b.Fits := by
    intro b hb
    obtain ⟨i, hi, rfl⟩ := List.getElem_of_mem hb
    have hi2 : i < x.arrays.length := by omega
    have hi3 : i < blocks.length := by omega
    rw [hcb i hi hi3]
    refine moved_fits (g15 i hi3 hi2).1 ?_
    have := (hin i hi hi2).1
    omega
  have hnr : ∀ d n : Nat, 0 < n ∨ d ≠ 18 → ¬(fixType d n = 18 ∧ n = 0) := by
    rintro d n h ⟨h1, h2⟩
    rcases h with h | h
    · omega
    · unfold fixType at h1
      split at h1
      · split at h1 <;> omega
      · split at h1
        · split at h1 <;> omega
        · exact h h1
  have hrunt : ∀ b ∈ copyBlocks H blocks, ¬(fixType b.dtype b.blk.item = 18 ∧ b.blk.item = 0) := by
    intro b hb
    obtain ⟨i, hi, rfl⟩ := List.getElem_of_mem hb
    have hi2 : i < x.arrays.length := by omega
    have hi3 : i < blocks.length := by omega
    rw [hcb i hi hi3]
    show ¬(fixType blocks[i].dtype blocks[i].blk.item = 18 ∧ blocks[i].blk.item = 0)
    rw [(g15 i hi3 hi2).2.2.1, (g15 i hi3 hi2).2.2.2.2.1]
    exact hnr _ _ (hw _ (List.getElem_mem hi2))
  have hhead : (copyHeader H x.arrays.length).Fits := by
    have hn := le_padTo x.names.length
    have hmm := le_padTo x.metaData.length
    have hb := le_padTo (x.arrays.length * 128)
    have f1 := hx.nameCount
    have f4 := hx.fileType
    have f5 := hx.author
    rw [← hT, hfirst] at ht
    rw [hH]
    unfold Header.Fits Header.members
    simp only [List.forall_mem_cons, pow8, pow4, pow2]
    have hp : ∀ k : Nat, 0 < 256 ^ k := fun k => Nat.pow_pos (by decide)
    simp only [shareHeader]
    exact ⟨by decide, by decide, by decide, by decide, by decide, by decide, by decide, by omega, by omega, f1, f4, by decide, f5, by omega,
      by omega, by omega, by omega, by omega, by omega, by omega, by omega, by decide, by decide, by decide, by decide, by decide, by decide,
      by decide, by decide, by decide, by decide, by decide, by decide, hp 304, by intro p hp; nomatch hp⟩
  have hread := readShare_of hheq hhead hfit hrunt (p3 (0, (copyHeader H x.arrays.length).bytes) (by simp [shareWrites])).1
    (p3 ((copyHeader H x.arrays.length).nameOffset, x.names) (by simp [shareWrites])).1
    (p3 ((copyHeader H x.arrays.length).metaOffset, x.metaData) (by simp [shareWrites])).1
    (p3 ((copyHeader H x.arrays.length).blockOffset, shareBlocks (copyBlocks H blocks)) (by simp [shareWrites])).1
  refine ⟨m, _, ?_, p2, hread, rfl, ?_⟩
  · have hdrop : bs.drop (x.arrays.length * 128) = [] := List.drop_eq_nil_of_le (by omega)
    have hsz2 : shareSize H.nameSize H.metaU H.blockSize (x.arrays.map fun a => a.arr.data.length) = 512 * x.shareUnits := by
      rw [g2, g4, g8]; exact hsize
    unfold copyShare
    rw [g1]
    dsimp only
    rw [g11]
    dsimp only
    rw [hsm]
    dsimp only
    rw [g5, g9, g12, hus, hdat, hsz2, hdrop, List.append_nil]
    exact congrArg (Option.map Copied.made) p1
  · have each : ∀ {α : Type} (g : View → α) (k : ArrIn → α), (∀ (i : Nat) (h1 : i < (copyBlocks H blocks).length) (h2 : i < x.arrays.length),
        g (viewOf (copyBlocks H blocks)[i]) = k x.arrays[i]) → ((copyBlocks H blocks).map viewOf).map g = x.arrays.map k := by
      intro α g k hk
      apply List.ext_getElem (by simp [hmlen])
      intro i h1 h2
      simp only [List.length_map] at h1 h2
      simp only [List.getElem_map]
      exact hk i h1 h2
    have q : ∀ (i : Nat) (h1 : i < (copyBlocks H blocks).length) (h2 : i < x.arrays.length),
        viewOf (copyBlocks H blocks)[i] = ⟨(copyBlocks H blocks)[i].blk.offset, x.arrays[i].arr.dims, x.arrays[i].arr.item,
          fixType x.arrays[i].dtype x.arrays[i].arr.item, x.arrays[i].flags, x.arrays[i].strides.map int64⟩ := by
      intro i h1 h2
      have h3 : i < blocks.length := by omega
      obtain ⟨_, r1, r2, r3, r4, r5, r6, _⟩ := g15 i h3 h2
      have h4 : viewOf (copyBlocks H blocks)[i] = viewOf (blocks[i].moved (copyBlocks H blocks)[i].blk.offset) := congrArg viewOf (hcb i h1 h3)
      rw [h4]
      show (⟨(copyBlocks H blocks)[i].blk.offset, blocks[i].blk.dims,
        if fixType blocks[i].dtype blocks[i].blk.item = 18 ∧ blocks[i].blk.item = 0 then 1 else blocks[i].blk.item,
        fixType blocks[i].dtype blocks[i].blk.item, blocks[i].flags, blocks[i].strides.map int64⟩ : View) = _
      rw [r1, r2, r4, r5, r6, if_neg (hnr _ _ (hw _ (List.getElem_mem h2)))]
    refine ⟨rfl, rfl, rfl, rfl, by simp [hmlen], ?_, ?_, ?_, ?_, ?_, ?_⟩
    · exact each _ _ fun i h1 h2 => by rw [q i h1 h2]
    · exact each _ _ fun i h1 h2 => by rw [q i h1 h2]
    · exact each _ _ fun i h1 h2 => by rw [q i h1 h2]; exact fixType_plain _ _
    · exact each _ _ fun i h1 h2 => by rw [q i h1 h2]
    · refine each _ _ fun i h1 h2 => ?_
      rw [q i h1 h2]
      simp only [List.map_map]
      conv => rhs; rw [← List.map_id x.arrays[i].strides]
      apply List.map_congr_left
      intro s hs
      exact bits64_int64 ((hx.arrays _ (List.getElem_mem h2)).strideRoom s hs)
    · intro i h1 h2
      have h3 : i < (copyBlocks H blocks).length := by rw [hmlen]; exact h2
      have hv : (((copyBlocks H blocks).map viewOf)[i]'h1).off = (copyBlocks H blocks)[i].blk.offset := by
        rw [List.getElem_map, q i h3 h2]
      obtain ⟨q1, q2⟩ := hin i h3 h2
      have q3 := (p3 _ (by unfold shareWrites; exact List.mem_append_right _ q2)).1
      rw [hasAt_iff] at q3
      show (((copyBlocks H blocks).map viewOf)[i]'h1).off + _ ≤ m.length ∧ (m.drop (((copyBlocks H blocks).map viewOf)[i]'h1).off).take _ = _
      rw [hv, p2]
      exact ⟨q1, q3.2⟩

/-! ### Names -/

theorem lastPart_plain : ∀ {l : List Nat} (found : List Nat), Plain l → lastPart found l = found
  | [], _, _ => rfl
  | ch :: l, found, h => by
    obtain ⟨h1, h2, h3⟩ := h ch (by simp)
    rw [lastPart, if_neg (by omega)]
    exact lastPart_plain found (fun c hc => h c (by simp [hc]))

theorem lastPart_dir {file : List Nat} (h : Plain file) : ∀ (dir found : List Nat), lastPart found (inDir dir file) = file
  | [], found => by
    show lastPart (if 47 = 92 ∨ 47 = 58 ∨ 47 = 47 then file else found) file = file
    rw [if_pos (by decide), lastPart_plain file h]
  | ch :: dir, found => by
    show lastPart (if ch = 92 ∨ ch = 58 ∨ ch = 47 then inDir dir file else found) (inDir dir file) = file
    exact lastPart_dir h dir _

/-- The letters of `Global_`. -/
theorem shareName_dir {file : List Nat} (h : Plain file) (dir share : List Nat) (hl : 7 + share.length + 1 + file.length + 1 ≤ 300) :
    shareName (inDir dir file) share = some ([71, 108, 111, 98, 97, 108, 95] ++ share ++ [33] ++ file) := by
  unfold shareName
  rw [lastPart_dir h dir]
  dsimp only
  rw [if_pos (by simp only [List.length_append, List.length_cons, List.length_nil]; omega)]

/-- **C126** is false for long names: the name of the share is put into a buffer of 300 bytes whatever its length is. -/
theorem long_names_leave_the_buffer (c : Codec) (w : World) {file : List Nat} (h : Plain file) (dir share : List Nat) (mask : Option ShareMask)
    (hl : 300 ≤ 8 + share.length + file.length) : readVia c w (inDir dir file) share mask = none := by
  have : shareName (inDir dir file) share = none := by
    unfold shareName
    rw [lastPart_dir h dir]
    dsimp only
    rw [if_neg (by simp only [List.length_append, List.length_cons, List.length_nil]; omega)]
  unfold readVia
  rw [this]

example := long_names_leave_the_buffer toy ⟨fun _ => none, fun _ => none⟩ (file := List.replicate 200 97)
  (fun ch h => by rw [List.eq_of_mem_replicate h]; decide) [120] (List.replicate 92 98) none
  (by rw [List.length_replicate, List.length_replicate]; decide)

theorem shmName_dir {file share : List Nat} (h : Plain file) (hs : 47 ∉ share) (hl : 8 + share.length + file.length ≤ 255) :
    shmName ([71, 108, 111, 98, 97, 108, 95] ++ share ++ [33] ++ file) = true := by
  unfold shmName
  rw [Bool.and_eq_true]
  refine ⟨decide_eq_true (by simp only [List.length_append, List.length_cons, List.length_nil]; omega), ?_⟩
  rw [Bool.not_eq_true', List.contains_eq_mem, decide_eq_false_iff_not]
  simp only [List.mem_append]
  rintro (((h1 | h1) | h1) | h1)
  · revert h1; decide
  · exact hs h1
  · revert h1; decide
  · exact (h 47 h1).2.2 rfl

/-! ### Reading -/

/-- **C126** (partial: there is no share for a file of this name yet, and no mask): a file is read through a share as it was written, and
the share stays there. -/
theorem first_read_through_a_share_partial {c : Codec} (hc : c.Lawful) {x : Input} (hx : x.Ok c) {f : List Nat} {e : Nat}
    (h : Stored c x f 0 e) (hwd : ∀ a ∈ x.arrays, 0 < a.arr.item ∨ a.dtype ≠ 18) (ht : 512 * x.shareUnits < 2 ^ 64)
    (w : World) (dir file share : List Nat) (hp : Plain file) (hs : 47 ∉ share) (hl : 8 + share.length + file.length ≤ 255)
    (hf : w.files (inDir dir file) = some f)
    (hno : w.shares ([71, 108, 111, 98, 97, 108, 95] ++ share ++ [33] ++ file) = none) :
    ∃ w' o, readVia c w (inDir dir file) share none = some (w', .shared o) ∧ Holds o x ∧ readShare o.mem = some o ∧
      w'.files = w.files ∧
      w'.shares = fun k => if k = [71, 108, 111, 98, 97, 108, 95] ++ share ++ [33] ++ file then some o.mem else w.shares k := by
  obtain ⟨m, o, q1, _, q3, q4, q5⟩ := copy_holds hc hx h hwd ht
  refine ⟨((w.withShare ([71, 108, 111, 98, 97, 108, 95] ++ share ++ [33] ++ file) m).withShare
    ([71, 108, 111, 98, 97, 108, 95] ++ share ++ [33] ++ file) o.mem), o, ?_, q5, by rw [q4]; exact q3, rfl, ?_⟩
  · unfold readVia
    rw [shareName_dir hp dir share (by omega)]
    dsimp only
    rw [hno, hf]
    dsimp only
    rw [if_pos (shmName_dir hp hs hl), q1]
    dsimp only
    unfold readMapped
    rw [q3]
  · funext k
    unfold World.withShare
    dsimp only
    split <;> rfl

/-- A share which is there is read, whatever the file is and wherever it is. -/
theorem share_is_read (c : Codec) (w : World) (dir file share : List Nat) (mask : Option ShareMask) (hp : Plain file)
    (hl : 8 + share.length + file.length ≤ 255) {m : List Nat} {o : ShareOut}
    (hm : w.shares ([71, 108, 111, 98, 97, 108, 95] ++ share ++ [33] ++ file) = some m) (ho : readShare m = some o) :
    ∃ w', readVia c w (inDir dir file) share mask = some (w', .shared o) := by
  unfold readVia
  rw [shareName_dir hp dir share (by omega)]
  dsimp only
  rw [hm]
  dsimp only
  unfold readMapped
  rw [ho]
  exact ⟨_, rfl⟩

/-- **C126** is false once a file was read through a share: whatever is written to it or to a file of the same name in another directory,
the old table is returned, and masks are ignored. -/
theorem later_reads_return_the_first_table {c : Codec} (hc : c.Lawful) {x : Input} (hx : x.Ok c) {f : List Nat} {e : Nat}
    (h : Stored c x f 0 e) (hwd : ∀ a ∈ x.arrays, 0 < a.arr.item ∨ a.dtype ≠ 18) (ht : 512 * x.shareUnits < 2 ^ 64)
    (w : World) (dir file share : List Nat) (hp : Plain file) (hs : 47 ∉ share) (hl : 8 + share.length + file.length ≤ 255)
    (hf : w.files (inDir dir file) = some f)
    (hno : w.shares ([71, 108, 111, 98, 97, 108, 95] ++ share ++ [33] ++ file) = none) :
    ∃ w' o, readVia c w (inDir dir file) share none = some (w', .shared o) ∧
      ∀ (files : List Nat → Option (List Nat)) (dir' : List Nat) (mask : Option ShareMask), ∃ w'' o',
        readVia c { w' with files := files } (inDir dir' file) share mask = some (w'', .shared o') ∧ Holds o' x := by
  obtain ⟨w', o, r1, r2, r3, _, r5⟩ := first_read_through_a_share_partial hc hx h hwd ht w dir file share hp hs hl hf hno
  refine ⟨w', o, r1, fun files dir' mask => ?_⟩
  obtain ⟨w'', r6⟩ := share_is_read c { w' with files := files } dir' file share mask hp hl (m := o.mem) (o := o) (by
    show w'.shares _ = _
    rw [r5]; dsimp only; rw [if_pos rfl]) r3
  exact ⟨w'', o, r6, r2⟩

/-- Two pairs of different names have the same share: file `c` of share `a!b` and file `b!c` of share `a`. -/
theorem share_names_collide : shareName [99] [97, 33, 98] = shareName [98, 33, 99] [97] ∧ (shareName [99] [97, 33, 98]).isSome = true := by
  decide

/-! ### Examples -/

/-- A world with one file. -/
def worldOf (p f : List Nat) : World := ⟨fun k => if k = p then some f else none, fun _ => none⟩

theorem two_stored : ∃ f, writeFile toy two [1, 0] [0, 1] 5 = some f ∧ Stored toy two f 0 3072 := by
  refine ⟨_, rfl, ?_⟩
  have hm : packMeta toy two.zstd two.metaData = some [4, 7] := by decide
  have h1 := writes_stored (c := toy) (x := two) (fo := 0) (m := [4, 7]) (order := [1, 0]) (worder := [0, 1]) (s1 := 0) (s2 := 0) (s3 := 0)
    (s4 := 0) (st := 5) (sk := 0) [] [] (by intro w hw; nomatch hw) hm (by decide) (by decide) (by decide) (by decide) (by decide) (by decide)
    (by decide) (by decide) (by decide)
  exact h1

example : ∃ f w' o, readVia toy (worldOf (inDir [100] [102]) f) (inDir [100] [102]) [115] none = some (w', .shared o) ∧ Holds o two := by
  obtain ⟨f, _, hs⟩ := two_stored
  obtain ⟨w', o, h1, h2, _⟩ := first_read_through_a_share_partial toy_lawful two_ok hs (by decide) (by decide)
    (worldOf (inDir [100] [102]) f) [100] [102] [115] (by unfold Plain; decide) (by decide) (by decide) (by unfold worldOf; simp) rfl
  exact ⟨f, w', o, h1, h2⟩

example : ∃ f w' o, readVia toy (worldOf (inDir [100] [102]) f) (inDir [100] [102]) [115] none = some (w', .shared o) ∧
    ∃ w'' o', readVia toy { w' with files := fun _ => none } (inDir [101] [102]) [115] none = some (w'', .shared o') ∧ Holds o' two := by
  obtain ⟨f, _, hs⟩ := two_stored
  obtain ⟨w', o, h1, h2⟩ := later_reads_return_the_first_table toy_lawful two_ok hs (by decide) (by decide)
    (worldOf (inDir [100] [102]) f) [100] [102] [115] (by unfold Plain; decide) (by decide) (by decide) (by unfold worldOf; simp) rfl
  obtain ⟨w'', o', h3, h4⟩ := h2 (fun _ => none) [101] none
  exact ⟨f, w', o, h1, w'', o', h3, h4⟩

/-- What two reads of the same file return, the first with a mask. -/
def twice (c : Codec) (f : List Nat) (mask : Option ShareMask) : Option Reply :=
  (readVia c (worldOf [102] f) [102] [115] mask).bind fun r => (readVia c r.1 [102] [115] none).map Prod.snd

/-- The shapes, and the first three bytes of the arrays. -/
def glance : Reply → Option (List (List Nat × List Nat))
  | .shared o => some (o.views.map fun v => (v.dims, (o.mem.drop v.off).take 3))
  | _ => none

/-- Three bytes in a file. -/
def three : Input := ⟨[97, 0, 1], 1, [], [⟨⟨[3], 1, [1, 2, 3]⟩, 1, 3, [1]⟩], false, 3, 1, 0, 0⟩

/-- **C126** is false with a mask: the rows of the mask are put into the share, but the array keeps its shape, and all readers without a mask
get the same. -/
theorem mask_spoils_the_share :
    ((writeFile toy three [0] [0] 0).bind fun f => (twice toy f none).bind glance) = some [([3], [1, 2, 3])] ∧
    ((writeFile toy three [0] [0] 0).bind fun f => (twice toy f (some ⟨[false, true, true], fun _ => true⟩)).bind glance) =
      some [([3], [2, 3, 0])] := by
  decide +kernel

/-- **C126** is false if the metadata cannot be decompressed: the share stays there, and the next reader gets a table without arrays and no
error. -/
theorem failed_copy_leaves_an_empty_table :
    ((writeFile toy two [0, 1] [0, 1] 0).bind fun f => (twice toy f none).bind glance).map List.length = some 2 ∧
    ((writeFile toy two [0, 1] [0, 1] 0).bind fun f => (twice toy (writeAt f 1024 [9]) none).bind glance).map List.length = some 0 := by
  decide +kernel

end Riptide.Sds
