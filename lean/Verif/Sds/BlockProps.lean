import Verif.Sds.BlockLemmas
/-! # C108: an array of an SDS file is read as it was written -/
namespace Riptide.Sds

/-! ## Specification -/

/-- The rows of some bytes at the chosen indices, one after the other. -/
def pickRows (bpr : Nat) (sel : Nat → Bool) (n : Nat) (data : List Nat) : List Nat :=
  ((List.range n).filter sel).flatMap fun i => (data.drop (i * bpr)).take bpr

/-- An array which can be written: its bytes are those of its items, it has at most five dimensions and a size which fits. -/
structure Arr.Ok (a : Arr) : Prop where
  dims : a.dims.length ≤ 5
  bytes : a.data.length = prod a.dims * a.item
  size : a.data.length < 2 ^ 63

/-! ## A small codec for examples -/

/-- The length and then the bytes without the zeros at the end. -/
def toyZip (l : List Nat) : List Nat := l.length :: (l.reverse.dropWhile (· == 0)).reverse

/-- The bytes, filled up with zeros. -/
def toyUnzip : List Nat → Option (List Nat)
  | [] => none
  | n :: l => some (l ++ List.replicate (n - l.length) 0)

/-- A lawful codec which only saves zeros at the end. -/
def toy : Codec where
  comp a l := if (toyZip l).length ≤ a then some (toyZip l) else none
  decomp := toyUnzip
  part z n := (toyUnzip z).map (·.take n)
  bound n := n + 1

theorem dropWhile_pad (l : List Nat) : ∃ k, l = List.replicate k 0 ++ l.dropWhile (· == 0) := by
  induction l with
  | nil => exact ⟨0, rfl⟩
  | cons x l ih =>
    by_cases hx : x = 0
    · obtain ⟨k, hk⟩ := ih
      refine ⟨k + 1, ?_⟩
      subst hx
      rw [List.dropWhile_cons_of_pos (by simp), List.replicate_succ, List.cons_append, ← hk]
    · exact ⟨0, by rw [List.dropWhile_cons_of_neg (by simp [hx])]; rfl⟩

theorem toy_pad (l : List Nat) : ∃ (r : List Nat) (k : Nat), toyZip l = l.length :: r ∧ l = r ++ List.replicate k 0 := by
  obtain ⟨k, hk⟩ := dropWhile_pad l.reverse
  refine ⟨(l.reverse.dropWhile (· == 0)).reverse, k, rfl, ?_⟩
  have := congrArg List.reverse hk
  rw [List.reverse_reverse, List.reverse_append, List.reverse_replicate] at this
  exact this

theorem toy_lawful : toy.Lawful where
  bound_ge := fun n => Nat.le_succ n
  room := fun {a l z} h => by
    simp only [toy] at h
    split at h
    · rw [← Option.some.inj h]; assumption
    · cases h
  back := fun {a l z} h => by
    simp only [toy] at h
    split at h
    · obtain ⟨r, k, h1, h2⟩ := toy_pad l
      rw [← Option.some.inj h, h1]
      have hl := congrArg List.length h2
      simp only [List.length_append, List.length_replicate] at hl
      show some _ = _
      rw [show l.length - r.length = k by omega, ← h2]
    · cases h
  some_bytes := fun {a l z} h => by
    simp only [toy] at h
    split at h
    · rw [← Option.some.inj h]; exact Nat.succ_pos _
    · cases h
  part_back := fun {a l z n k} h hn hk => by
    simp only [toy] at h hk
    split at h
    · obtain ⟨r, m, h1, h2⟩ := toy_pad l
      rw [← Option.some.inj h, h1] at hk ⊢
      have hl := congrArg List.length h2
      simp only [List.length_append, List.length_replicate] at hl
      simp only [List.length_cons] at hk
      cases k with
      | zero => simp only [slack] at hk; omega
      | succ k =>
        rw [List.take_succ_cons]
        show some _ = _
        congr 1
        have hk' : r.length ≤ k ∨ n ≤ k := by simp only [slack] at hk; omega
        rcases hk' with hk' | hk'
        · rw [List.take_of_length_le hk', show l.length - r.length = m by omega, ← h2]
        · by_cases hrk : r.length ≤ k
          · rw [List.take_of_length_le hrk, show l.length - r.length = m by omega, ← h2]
          · have e1 : (r.take k ++ List.replicate (l.length - (r.take k).length) 0).take n = r.take n := by
              rw [List.take_append_of_le_length (by rw [List.length_take]; omega), List.take_take, Nat.min_eq_left hk']
            have e2 : l.take n = r.take n := by rw [h2, List.take_append_of_le_length (by omega)]
            rw [e2]; exact e1
    · cases h

/-! ## Reading everything -/

theorem bands_count {d bs : Nat} (hd : 0 < d) (hb : 0 < bs) :
    ∃ n, (d + (bs - 1)) / bs = n + 1 ∧ n * bs < d := by
  have h1 : 1 ≤ (d + (bs - 1)) / bs := by rw [Nat.le_div_iff_mul_le hb]; omega
  refine ⟨(d + (bs - 1)) / bs - 1, by omega, ?_⟩
  have h2 := Nat.div_mul_le_self (d + (bs - 1)) bs
  rw [Nat.sub_mul]; omega

theorem banded_length (zs : List (List Nat)) : (bandedBytes zs).length = 8 * zs.length + zs.flatten.length := by
  unfold bandedBytes
  rw [List.length_append, le8s_length, ends_length]

theorem readBanded_header {c : Codec} {pb n avail : Nat} {data f : List Nat} {off : Nat} (hs : data.length < 2 ^ 63)
    (h : HasAt f off (bandedBytes (bandLoop c pb n avail data))) :
    readAt f off (8 * n) = some ((ends 0 (bandLoop c pb n avail data)).flatMap (le 8)) ∧
    unle8s n ((ends 0 (bandLoop c pb n avail data)).flatMap (le 8)) = ends 0 (bandLoop c pb n avail data) ∧
    HasAt f (off + 8 * n) (bandLoop c pb n avail data).flatten := by
  obtain ⟨h1, h2⟩ := hasAt_append.mp h
  have hl := bandLoop_length c pb n avail data
  have hsz := bandLoop_size c pb n avail data
  rw [le8s_length, ends_length, hl] at h2
  have h1' : readAt f off ((ends 0 (bandLoop c pb n avail data)).flatMap (le 8)).length = _ := h1
  rw [le8s_length, ends_length, hl] at h1'
  refine ⟨h1', ?_, h2⟩
  have h3 := unle8s_le (ends 0 (bandLoop c pb n avail data)) (fun x hx => by
    have := ends_le 0 _ x hx
    have : (256 : Nat) ^ 8 = 2 ^ 64 := by decide
    omega)
  rwa [ends_length, hl] at h3

/-- What `writeArr` does with bands. -/
theorem write_banded (c : Codec) {bs d : Nat} {ds : List Nat} (item : Nat) (data : List Nat) (off : Nat) (hb : 0 < bs) (hd : 0 < d) :
    ∃ n bs', (d + (bs - 1)) / bs = n + 1 ∧ n * bs < d ∧ bs' * (prod ds * item) = bs * (prod ds * item) ∧
      writeArr c true bs ⟨d :: ds, item, data⟩ off =
        (⟨(d :: ds).take 5, item, (bandedBytes (bandLoop c (bs * (prod ds * item)) (n + 1) (c.bound (prod (d :: ds) * item)) data)).length,
          prod (d :: ds) * item, off, n + 1, bs'⟩,
         bandedBytes (bandLoop c (bs * (prod ds * item)) (n + 1) (c.bound (prod (d :: ds) * item)) data)) := by
  obtain ⟨n, hn, hlt⟩ := bands_count hd hb
  have e1 : prod ds * bs * item = bs * (prod ds * item) := by
    rw [Nat.mul_comm (prod ds) bs, Nat.mul_assoc]
  refine ⟨n, if prod ds * bs * item = 0 then 0 else bs, hn, hlt, ?_, ?_⟩
  · split
    · rename_i h0; rw [Nat.zero_mul, ← e1, h0]
    · rfl
  · unfold writeArr
    simp [hb, bands_cons hd, hn, e1, maxDims]

/-- Without bands. -/
theorem write_plain (c : Codec) (zstd : Bool) (bs : Nat) (a : Arr) (off : Nat)
    (h : zstd = false ∨ bs = 0 ∨ a.dims.headD 0 = 0) :
    ∃ bs', writeArr c zstd bs a off =
      (⟨a.dims.take 5, a.item, (if zstd then pack c (c.bound (prod a.dims * a.item)) a.data else a.data).length,
        prod a.dims * a.item, off, 0, bs'⟩, if zstd then pack c (c.bound (prod a.dims * a.item)) a.data else a.data) := by
  cases zstd with
  | false => exact ⟨bs, by simp [writeArr, maxDims]⟩
  | true =>
    by_cases hb : 0 < bs
    · have hd : a.dims.headD 0 = 0 := by
        rcases h with h | h | h
        · cases h
        · omega
        · exact h
      have hbands : bands a.dims a.item bs = (0, 0) := by
        unfold bands
        split
        · rfl
        · rename_i d ds heq
          rw [heq] at hd
          simp only [List.headD_cons] at hd
          subst hd; simp
      exact ⟨0, by simp [writeArr, hb, hbands, maxDims]⟩
    · exact ⟨bs, by simp [writeArr, hb, maxDims]⟩

theorem write_cases (zstd : Bool) (bs : Nat) (a : Arr) :
    (zstd = false ∨ bs = 0 ∨ a.dims.headD 0 = 0) ∨ (zstd = true ∧ 0 < bs ∧ ∃ d ds, a.dims = d :: ds ∧ 0 < d) := by
  cases zstd with
  | false => exact .inl (.inl rfl)
  | true =>
    by_cases hb : bs = 0
    · exact .inl (.inr (.inl hb))
    · cases hd : a.dims with
      | nil => exact .inl (.inr (.inr rfl))
      | cons d ds =>
        by_cases h0 : d = 0
        · exact .inl (.inr (.inr (by simpa using h0)))
        · exact .inr ⟨rfl, by omega, d, ds, rfl, by omega⟩

/-- **C108**, partial: an array which was written with any codec, any band size, with or without compression, is read again, provided it
is not the case that it has bands and its stored size is by chance that of the array (`read_written_wrong`). -/
theorem read_written_partial {c : Codec} (hc : c.Lawful) (zstd : Bool) (bs : Nat) (a : Arr) (ha : a.Ok) (off : Nat) (f : List Nat)
    (hf : HasAt f off (writeArr c zstd bs a off).2)
    (hne : ¬(0 < (writeArr c zstd bs a off).1.bandCount ∧ (writeArr c zstd bs a off).1.cSize = (writeArr c zstd bs a off).1.uSize)) :
    readArr c f (writeArr c zstd bs a off).1 = some a.data := by
  rcases write_cases zstd bs a with h | ⟨hz, hb, d, ds, hd, hd0⟩
  · obtain ⟨bs', hw⟩ := write_plain c zstd bs a off h
    rw [hw] at hf ⊢
    have hsz := ha.bytes
    cases zstd with
    | false =>
      simp only [Bool.false_eq_true, if_false] at hf
      unfold readArr
      simp only [Bool.false_eq_true, if_false, hsz, if_true]
      rw [← hsz]; exact hf
    | true =>
      simp only [if_true] at hf
      unfold readArr
      simp only [if_true, Nat.lt_irrefl, if_false]
      have hch := pack_chunk hc hf
      rw [hsz] at hch
      split
      · rename_i heq
        unfold readChunk at hch
        rw [if_pos heq] at hch
        rw [heq]; exact hch
      · exact hch
  · subst hz
    obtain ⟨dims, item, data⟩ := a
    subst hd
    obtain ⟨n, bs', hn, hlt, hbs, hw⟩ := write_banded c (ds := ds) item data off hb hd0
    rw [hw] at hf hne ⊢
    have hsz := ha.bytes
    have hdl := ha.dims
    simp only at hsz hdl
    have h5 : (d :: ds).take 5 = d :: ds := List.take_of_length_le hdl
    obtain ⟨h1, h2, h3⟩ := readBanded_header ha.size hf
    unfold readArr
    simp only at hne ⊢
    rw [if_neg (by intro h; exact hne ⟨by omega, h⟩), if_pos (by omega), h1]
    simp only
    rw [h2, h5, rowBytes_cons hd0, hbs, ← hsz]
    apply readBands_ok hc f _ _ n _ data 0 _ 0 _ (by omega)
    · rw [hsz, prod_cons, ← Nat.mul_assoc, Nat.mul_assoc d]
      exact Nat.mul_le_mul_right _ (by omega)
    · rw [hsz]; exact h3

theorem chunk_length {c : Codec} {f : List Nat} {pos cs us : Nat} {d : List Nat} (h : readChunk c f pos cs us = some d) :
    d.length = us := by
  unfold readChunk at h
  split at h
  · unfold readAt at h
    split at h
    · injection h with h; subst h; simp only [List.length_take, List.length_drop]; omega
    · nomatch h
  · split at h
    · split at h
      · split at h
        · injection h with h; subst h; assumption
        · nomatch h
      · nomatch h
    · nomatch h

theorem readBands_length {c : Codec} {f : List Nat} {pb us : Nat} : ∀ (es : List Nat) (prev pos done : Nat) (d : List Nat),
    es ≠ [] → done + (es.length - 1) * pb ≤ us → readBands c f pb us es prev pos done = some d → done + d.length = us
  | [], _, _, _, _, h, _, _ => absurd rfl h
  | [e], prev, pos, done, d, _, hu, h => by
    have := chunk_length (c := c) (f := f) (pos := pos) (cs := e - prev) (us := us - done) (d := d) h
    simp only [List.length_cons, List.length_nil] at hu
    omega
  | e :: e' :: es, prev, pos, done, d, _, hu, h => by
    rw [readBands] at h
    have hm : (es.length + 1) * pb = es.length * pb + pb := Nat.succ_mul _ _
    simp only [List.length_cons, Nat.add_sub_cancel] at hu
    split at h
    next d1 h1 =>
      split at h
      next r h2 =>
        injection h with h
        subst h
        have h3 := readBands_length (e' :: es) _ _ _ r (by simp) (by simp only [List.length_cons, Nat.add_sub_cancel]; omega) h2
        have h4 := chunk_length h1
        simp only [List.length_append]; omega
      next => nomatch h
    next => nomatch h

theorem unle8s_length : ∀ (n : Nat) (l : List Nat), (unle8s n l).length = n
  | 0, _ => rfl
  | n + 1, l => by simp [unle8s, unle8s_length n]

/-- Whatever a file holds: what is read of a block has the size the block tells, if its full bands fit in that. -/
theorem read_length {c : Codec} {f : List Nat} {b : Blk} {d : List Nat} (h : readArr c f b = some d)
    (hb : (b.bandCount - 1) * (b.bandSize * rowBytes b.dims b.item) ≤ b.uSize) : d.length = b.uSize := by
  unfold readArr at h
  split at h
  · next he => rw [he] at h; exact chunk_length (c := c) (cs := b.uSize) (by unfold readChunk; rw [if_pos rfl]; exact h)
  · split at h
    · split at h
      · have := readBands_length _ _ _ _ _ (by
          intro h0; have := congrArg List.length h0; rw [unle8s_length] at this; simp at this; omega) (by
          rw [unle8s_length]; omega) h
        omega
      · nomatch h
    · exact chunk_length h

example : ∃ d : List Nat, readArr toy (writeArr toy true 2 ⟨[5, 2], 1, [1, 0, 2, 0, 0, 0, 0, 0, 9, 9]⟩ 0).2
    (writeArr toy true 2 ⟨[5, 2], 1, [1, 0, 2, 0, 0, 0, 0, 0, 9, 9]⟩ 0).1 = some d ∧ d.length = 10 := ⟨_, rfl, by decide⟩

/-- The bands are all within the array: all but the last are full. -/
theorem bands_inside {d bs : Nat} (hd : 0 < d) (hb : 0 < bs) (ds : List Nat) (item : Nat) :
    ((bands (d :: ds) item bs).2 - 1) * (bands (d :: ds) item bs).1 ≤ prod (d :: ds) * item ∧
    prod (d :: ds) * item ≤ (bands (d :: ds) item bs).2 * (bands (d :: ds) item bs).1 := by
  obtain ⟨n, hn, hlt⟩ := bands_count hd hb
  have h1 : d ≤ (n + 1) * bs := by
    have := Nat.lt_mul_div_succ (d + (bs - 1)) hb
    rw [hn, Nat.mul_comm, Nat.succ_mul] at this
    omega
  have e1 : prod ds * bs * item = bs * (prod ds * item) := by
    rw [Nat.mul_comm (prod ds) bs, Nat.mul_assoc]
  rw [bands_cons hd, prod_cons, hn, e1, Nat.mul_assoc d, Nat.add_sub_cancel, ← Nat.mul_assoc n, ← Nat.mul_assoc (n + 1)]
  exact ⟨Nat.mul_le_mul_right _ (by omega), Nat.mul_le_mul_right _ h1⟩

/-- The bytes of an array fit in the memory which is taken for them, `src/SDSFile.cpp:2574-2609`. -/
theorem write_fits {c : Codec} (hc : c.Lawful) (zstd : Bool) (bs : Nat) (a : Arr) (ha : a.Ok) (off : Nat) :
    (writeArr c zstd bs a off).2.length ≤ c.bound (prod a.dims * a.item) + 8 * (writeArr c zstd bs a off).1.bandCount := by
  rcases write_cases zstd bs a with h | ⟨hz, hb, d, ds, hd, hd0⟩
  · obtain ⟨bs', hw⟩ := write_plain c zstd bs a off h
    rw [hw]
    have h1 := ha.bytes
    have h2 := hc.bound_ge (prod a.dims * a.item)
    have h3 := pack_length c (c.bound (prod a.dims * a.item)) a.data
    cases zstd <;> simp <;> omega
  · subst hz
    obtain ⟨dims, item, data⟩ := a
    subst hd
    obtain ⟨n, bs', hn, hlt, hbs, hw⟩ := write_banded c (ds := ds) item data off hb hd0
    rw [hw]
    have h1 := ha.bytes
    simp only at h1 ⊢
    have h2 := hc.bound_ge (prod (d :: ds) * item)
    have h3 := bandLoop_size c (bs * (prod ds * item)) (n + 1) (c.bound (prod (d :: ds) * item)) data
    rw [banded_length, bandLoop_length]
    omega

/-- Twelve bytes of which nine are zero, one band.  The stored bytes are the end of the band, the length and three bytes: twelve. -/
def chance : Arr := ⟨[12], 1, [1, 2, 3, 0, 0, 0, 0, 0, 0, 0, 0, 0]⟩

example : chance.Ok := ⟨by decide, by decide, by decide⟩
example : toy.comp 13 chance.data = some [12, 1, 2, 3] := by decide

/-- If bands and their ends take by chance as many bytes as the array itself, the stored bytes are returned instead of the array. -/
theorem read_written_wrong : HasAt (writeArr toy true 10000 chance 0).2 0 (writeArr toy true 10000 chance 0).2 ∧
    readArr toy (writeArr toy true 10000 chance 0).2 (writeArr toy true 10000 chance 0).1 = some [4, 0, 0, 0, 0, 0, 0, 0, 12, 1, 2, 3] := by
  unfold HasAt; decide

/-- The exact result in that case. -/
theorem read_chance {c : Codec} (zstd : Bool) (bs : Nat) (a : Arr) (off : Nat) (f : List Nat)
    (hf : HasAt f off (writeArr c zstd bs a off).2) (h : (writeArr c zstd bs a off).1.cSize = (writeArr c zstd bs a off).1.uSize) :
    readArr c f (writeArr c zstd bs a off).1 = some (writeArr c zstd bs a off).2 := by
  unfold readArr
  rw [if_pos h]
  exact hf

/-- An example: three bands of two rows. -/
example : ∃ a : Arr, a = ⟨[5, 2], 1, [1, 0, 2, 0, 0, 0, 0, 0, 9, 9]⟩ ∧ a.Ok ∧ (writeArr toy true 2 a 7).1.bandCount = 3 ∧
    readArr toy (List.replicate 7 1 ++ (writeArr toy true 2 a 7).2) (writeArr toy true 2 a 7).1 = some a.data :=
  ⟨_, rfl, ⟨by decide, by decide, by decide⟩, by decide, by decide⟩

/-! ## More than five dimensions -/

/-- The dimensions beyond the fifth are lost: the new array has fewer bytes than are read into it. -/
theorem dims_lost_wrong : ∃ a : Arr, a = ⟨[2, 1, 1, 1, 1, 3], 1, [1, 2, 3, 4, 5, 6]⟩ ∧ a.data.length = prod a.dims * a.item ∧
    prod (writeArr toy false 0 a 0).1.dims * a.item = 2 ∧
    readArr toy (writeArr toy false 0 a 0).2 (writeArr toy false 0 a 0).1 = some [1, 2, 3, 4, 5, 6] :=
  ⟨_, rfl, by decide, by decide, by decide⟩

/-- With at most five dimensions the new array has as many bytes as are read. -/
theorem dims_kept {c : Codec} (zstd : Bool) (bs : Nat) (a : Arr) (ha : a.Ok) (off : Nat) :
    prod (writeArr c zstd bs a off).1.dims * (writeArr c zstd bs a off).1.item = a.data.length := by
  rw [ha.bytes]
  show prod (a.dims.take 5) * a.item = _
  rw [List.take_of_length_le ha.dims]

/-! ## Reading the rows of a mask -/

theorem sift_pick (bpr : Nat) : ∀ (ms : List Bool) (l : List Nat) (n : Nat), ms.length ≤ n →
    sift bpr ms l = pickRows bpr (fun i => ms.getD i false) n l
  | [], l, n, _ => by
    have : (List.range n).filter (fun _ => false) = [] := by simp
    simp [pickRows, sift]
  | m :: ms, l, 0, h => by simp at h
  | m :: ms, l, n + 1, h => by
    have ih := sift_pick bpr ms (l.drop bpr) n (by simpa using h)
    unfold pickRows at ih ⊢
    rw [List.range_succ_eq_map, List.filter_cons, List.filter_map]
    have he : ((List.range n).filter ((fun i => (m :: ms).getD i false) ∘ Nat.succ)) = (List.range n).filter (fun i => ms.getD i false) := rfl
    have hrow : ∀ i : Nat, (((l.drop bpr).drop (i * bpr)).take bpr) = (l.drop ((i + 1) * bpr)).take bpr := by
      intro i; rw [List.drop_drop, Nat.succ_mul, Nat.add_comm]
    simp only [hrow] at ih
    rw [he, sift, ih]
    cases m with
    | true => simp [List.flatMap_map]
    | false => simp [List.flatMap_map]

theorem sift_pick_mask (bpr : Nat) (mask : List Bool) (row r : Nat) (l : List Nat) :
    sift bpr ((mask.drop row).take r) l = pickRows bpr (fun i => mask.getD (row + i) false) r l := by
  rw [sift_pick bpr _ l r (by rw [List.length_take]; omega)]
  unfold pickRows
  congr 1
  apply List.filter_congr
  intro i hi
  have hi' : i < r := List.mem_range.mp hi
  simp only [List.getD, List.getElem?_take, if_pos hi', List.getElem?_drop]

/-- **C108** with a mask: whatever the codec, the bands and the mask are, and whatever row of a stack the array starts at, the rows are
those of the array at which the mask is set.  The first dimension of the block may have been changed to any number but 0. -/
theorem rows_written {c : Codec} (hc : c.Lawful) (zstd : Bool) (bs d : Nat) (ds : List Nat) (item : Nat) (data : List Nat)
    (ha : Arr.Ok ⟨d :: ds, item, data⟩) (hne : data ≠ []) (off : Nat) (f : List Nat)
    (hf : HasAt f off (writeArr c zstd bs ⟨d :: ds, item, data⟩ off).2) (mask : List Bool) (row d' : Nat) (hd' : 0 < d') :
    readArrRows c f { (writeArr c zstd bs ⟨d :: ds, item, data⟩ off).1 with dims := d' :: ds } ⟨mask, mask.count true⟩ row =
      some (pickRows (prod ds * item) (fun i => mask.getD (row + i) false) d data) := by
  have hsz := ha.bytes
  simp only at hsz
  have hlen : data.length ≠ 0 := by
    intro h; exact hne (List.eq_nil_of_length_eq_zero h)
  rw [prod_cons, Nat.mul_assoc] at hsz
  have hd : 0 < d := by
    rcases Nat.eq_zero_or_pos d with h | h
    · rw [h, Nat.zero_mul] at hsz; omega
    · exact h
  have hb : 0 < prod ds * item := by
    rcases Nat.eq_zero_or_pos (prod ds * item) with h | h
    · rw [h, Nat.mul_zero] at hsz; omega
    · exact h
  rw [← sift_pick_mask]
  rcases write_cases zstd bs ⟨d :: ds, item, data⟩ with h | ⟨hz, hbs0, d0, ds0, hd0, hd0'⟩
  · obtain ⟨bs', hw⟩ := write_plain c zstd bs ⟨d :: ds, item, data⟩ off h
    rw [hw] at hf ⊢
    unfold readArrRows
    simp only [Nat.lt_irrefl, if_false]
    rw [rowBytes_cons hd', prod_cons, Nat.mul_assoc, ← hsz]
    rw [prod_cons, Nat.mul_assoc, ← hsz] at hf
    cases zstd with
    | true => exact readRows_ok hc hf hb hsz mask row
    | false =>
      have hp : pack ⟨fun _ _ => none, c.decomp, c.part, c.bound⟩ 0 data = data := rfl
      have hl' : Codec.Lawful ⟨fun _ _ => none, c.decomp, c.part, c.bound⟩ :=
        { bound_ge := hc.bound_ge, room := nofun, back := nofun, some_bytes := nofun, part_back := nofun }
      simp only [Bool.false_eq_true, if_false] at hf ⊢
      rw [← hp] at hf
      have := readRows_ok hl' hf hb hsz mask row
      rw [hp] at this
      exact this
  · subst hz
    obtain ⟨n, bs', hn, hlt, hbs, hw⟩ := write_banded c (ds := ds) item data off hbs0 hd
    rw [hw] at hf ⊢
    obtain ⟨h1, h2, h3⟩ := readBanded_header ha.size hf
    unfold readArrRows
    simp only
    rw [if_pos (by omega), h1]
    simp only
    rw [h2, rowBytes_cons hd', hbs]
    exact bandRows_ok hc f bs (prod (d :: ds) * item) (prod ds * item) hb mask n _ data 0 0 _ row d h3
      (by rw [Nat.mul_zero, Nat.zero_add, prod_cons, hsz, Nat.mul_assoc]) (by omega) hsz

/-- The block of an array with its dimensions changed by a mask. -/
theorem shrink_written (c : Codec) (zstd : Bool) (bs d : Nat) (ds : List Nat) (item : Nat) (data : List Nat) (hdl : (d :: ds).length ≤ 5)
    (off : Nat) (flt : Filter) :
    shrink (writeArr c zstd bs ⟨d :: ds, item, data⟩ off).1 flt =
      { (writeArr c zstd bs ⟨d :: ds, item, data⟩ off).1 with dims := min flt.count d :: ds } := by
  have h : (writeArr c zstd bs ⟨d :: ds, item, data⟩ off).1.dims = d :: ds := by
    show (d :: ds).take 5 = _
    exact List.take_of_length_le hdl
  unfold shrink
  rw [h]

/-- **C108** with a mask for one file, exactly: if the mask selects no row, or the array is empty, the read divides by zero; otherwise it
gives the rows. -/
theorem masked_iff {c : Codec} (hc : c.Lawful) (zstd : Bool) (bs d : Nat) (ds : List Nat) (item : Nat) (data : List Nat)
    (ha : Arr.Ok ⟨d :: ds, item, data⟩) (off : Nat) (f : List Nat) (hf : HasAt f off (writeArr c zstd bs ⟨d :: ds, item, data⟩ off).2)
    (mask : List Bool) :
    (mask.count true = 0 ∨ data = [] → (readMasked c f (writeArr c zstd bs ⟨d :: ds, item, data⟩ off).1 mask).1 = none) ∧
    (mask.count true ≠ 0 → data ≠ [] →
      (readMasked c f (writeArr c zstd bs ⟨d :: ds, item, data⟩ off).1 mask).1 =
        some (pickRows (prod ds * item) (fun i => mask.getD i false) d data)) := by
  unfold readMasked
  simp only
  rw [shrink_written c zstd bs d ds item data ha.dims off]
  have hsz := ha.bytes
  simp only at hsz
  rw [prod_cons, Nat.mul_assoc] at hsz
  constructor
  · intro h
    have h0 : rowBytes (min (mask.count true) d :: ds) item = 0 := by
      by_cases hm : 0 < min (mask.count true) d
      · rw [rowBytes_cons hm]
        rcases h with h | h
        · omega
        · rw [h] at hsz
          have : d * (prod ds * item) = 0 := by simpa using hsz.symm
          rcases Nat.mul_eq_zero.mp this with h | h
          · omega
          · exact h
      · unfold rowBytes
        simp only [hm, if_false]
    unfold readArrRows
    split
    · rename_i hb
      have : zstd = true ∧ 0 < bs ∧ 0 < d := by
        rcases write_cases zstd bs ⟨d :: ds, item, data⟩ with h | ⟨hz, hbs0, d0, ds0, hd0, hd0'⟩
        · obtain ⟨bs', hw⟩ := write_plain c zstd bs ⟨d :: ds, item, data⟩ off h
          rw [hw] at hb; simp at hb
        · simp only [List.cons.injEq] at hd0
          exact ⟨hz, hbs0, by omega⟩
      obtain ⟨hz, hbs0, hd⟩ := this
      subst hz
      obtain ⟨n, bs', hn, hlt, hbs, hw⟩ := write_banded c (ds := ds) item data off hbs0 hd
      rw [hw] at hf ⊢
      obtain ⟨h1, h2, h3⟩ := readBanded_header ha.size hf
      simp only
      rw [h1]
      simp only
      rw [h2]
      have hl := bandLoop_length c (bs * (prod ds * item)) (n + 1) (c.bound (prod (d :: ds) * item)) data
      generalize bandLoop c (bs * (prod ds * item)) (n + 1) (c.bound (prod (d :: ds) * item)) data = zs at hl
      cases zs with
      | nil => simp at hl
      | cons z zs => simp only [ends, bandRows, if_pos h0]
    · unfold readRows; exact if_pos h0
  · intro hcount hne
    have hd : 0 < d := by
      rcases Nat.eq_zero_or_pos d with h | h
      · rw [h, Nat.zero_mul] at hsz; exact absurd (List.eq_nil_of_length_eq_zero hsz) hne
      · exact h
    have h := rows_written hc zstd bs d ds item data ha hne off f hf mask 0 (min (mask.count true) d) (by omega)
    rw [h]
    simp only [Nat.zero_add]

/-- The new array has as many rows as the mask selects, but at most those of the array. -/
theorem masked_rows (c : Codec) (zstd : Bool) (bs d : Nat) (ds : List Nat) (item : Nat) (data : List Nat) (hdl : (d :: ds).length ≤ 5)
    (off : Nat) (f : List Nat) (mask : List Bool) :
    (readMasked c f (writeArr c zstd bs ⟨d :: ds, item, data⟩ off).1 mask).2 = min (mask.count true) d := by
  unfold readMasked
  simp only
  rw [shrink_written c zstd bs d ds item data hdl off]
  rfl

theorem pick_count (bpr : Nat) (sel : Nat → Bool) (data : List Nat) : ∀ n : Nat, n * bpr ≤ data.length →
    (pickRows bpr sel n data).length = ((List.range n).filter sel).length * bpr
  | 0, _ => by simp [pickRows]
  | n + 1, h => by
    rw [Nat.succ_mul] at h
    have ih := pick_count bpr sel data n (by omega)
    unfold pickRows at ih ⊢
    rw [List.range_succ, List.filter_append, List.flatMap_append, List.length_append, List.length_append, ih, Nat.add_mul]
    congr 1
    by_cases hs : sel n = true
    · simp [hs]; omega
    · simp [hs]

theorem mask_count (mask : List Bool) : ∀ d : Nat, ((List.range d).filter fun i => mask.getD i false).length = (mask.take d).count true
  | 0 => by simp
  | d + 1 => by
    rw [List.range_succ, List.filter_append, List.length_append, mask_count mask d, List.take_add_one, List.count_append]
    congr 1
    by_cases hd : d < mask.length
    · have he : mask[d]? = some mask[d] := List.getElem?_eq_getElem hd
      rw [he]
      cases hv : mask[d] <;> simp [List.getD, he, hv]
    · rw [List.getElem?_eq_none (by omega)]
      simp [List.getD, List.getElem?_eq_none (by omega : mask.length ≤ d)]

/-- All rows of the new array are filled if and only if the mask selects no row behind the end of the array, or selects all of its rows. -/
theorem masked_filled_iff {c : Codec} (hc : c.Lawful) (zstd : Bool) (bs d : Nat) (ds : List Nat) (item : Nat) (data : List Nat)
    (ha : Arr.Ok ⟨d :: ds, item, data⟩) (off : Nat) (f : List Nat) (hf : HasAt f off (writeArr c zstd bs ⟨d :: ds, item, data⟩ off).2)
    (mask : List Bool) (hm : mask.count true ≠ 0) (hne : data ≠ []) :
    (∃ l, (readMasked c f (writeArr c zstd bs ⟨d :: ds, item, data⟩ off).1 mask).1 = some l ∧
      l.length = (readMasked c f (writeArr c zstd bs ⟨d :: ds, item, data⟩ off).1 mask).2 * (prod ds * item)) ↔
    (mask.take d).count true = min (mask.count true) d := by
  have hsz := ha.bytes
  simp only at hsz
  rw [prod_cons, Nat.mul_assoc] at hsz
  rw [(masked_iff hc zstd bs d ds item data ha off f hf mask).2 hm hne, masked_rows c zstd bs d ds item data ha.dims off f mask]
  have hlen := pick_count (prod ds * item) (fun i => mask.getD i false) data d (by omega)
  rw [mask_count] at hlen
  have hb : 0 < prod ds * item := by
    rcases Nat.eq_zero_or_pos (prod ds * item) with h | h
    · rw [h, Nat.mul_zero] at hsz; exact absurd (List.eq_nil_of_length_eq_zero hsz) hne
    · exact h
  constructor
  · rintro ⟨l, hl, h⟩
    rw [← Option.some.inj hl, hlen] at h
    exact Nat.eq_of_mul_eq_mul_right hb h
  · intro h
    exact ⟨_, rfl, by rw [hlen, h]⟩

/-- **C108** with a mask for several files which are not stacked: always the rows, and as many as the new array has. -/
theorem masked_multi {c : Codec} (hc : c.Lawful) (zstd : Bool) (bs d : Nat) (ds : List Nat) (item : Nat) (data : List Nat)
    (ha : Arr.Ok ⟨d :: ds, item, data⟩) (off : Nat) (f : List Nat) (hf : HasAt f off (writeArr c zstd bs ⟨d :: ds, item, data⟩ off).2)
    (mask : List Bool) :
    readMaskedMulti c f (writeArr c zstd bs ⟨d :: ds, item, data⟩ off).1 mask d =
        (some (pickRows (prod ds * item) (fun i => mask.getD i false) d data), (mask.take d).count true) ∧
    (pickRows (prod ds * item) (fun i => mask.getD i false) d data).length = (mask.take d).count true * (prod ds * item) := by
  have hsz := ha.bytes
  simp only at hsz
  rw [prod_cons, Nat.mul_assoc] at hsz
  have hlen := pick_count (prod ds * item) (fun i => mask.getD i false) data d (by omega)
  rw [mask_count] at hlen
  refine ⟨?_, hlen⟩
  have hcd : (mask.take d).count true ≤ d := by
    have h1 := List.count_le_length (a := true) (l := mask.take d)
    rw [List.length_take] at h1; omega
  unfold readMaskedMulti
  simp only
  rw [shrink_written c zstd bs d ds item data ha.dims off]
  simp only [List.headD_cons, Nat.min_eq_left hcd, Prod.mk.injEq, and_true]
  have hitem : (writeArr c zstd bs ⟨d :: ds, item, data⟩ off).1.item = item := rfl
  rw [hitem]
  split
  · rename_i h0
    symm
    congr 1
    apply List.eq_nil_of_length_eq_zero
    rw [hlen]
    by_cases hm : 0 < (mask.take d).count true
    · rw [rowBytes_cons hm] at h0; rw [h0, Nat.mul_zero]
    · rw [show (mask.take d).count true = 0 by omega, Nat.zero_mul]
  · rename_i h0
    have hm : 0 < (mask.take d).count true := by
      rcases Nat.eq_zero_or_pos ((mask.take d).count true) with h | h
      · exact absurd (by rw [h]; rfl) h0
      · exact h
    rw [rowBytes_cons hm] at h0
    have hne : data ≠ [] := by
      intro h
      rw [h] at hsz
      have : d * (prod ds * item) = 0 := by simpa using hsz.symm
      rcases Nat.mul_eq_zero.mp this with h | h
      · omega
      · exact h0 h
    have h := rows_written hc zstd bs d ds item data ha hne off f hf mask 0 ((mask.take d).count true) hm
    simp only [Nat.zero_add] at h
    exact h

/-- Four rows of two bytes. -/
def four : Arr := ⟨[4, 2], 1, [1, 2, 3, 4, 5, 6, 0, 0]⟩

example : four.Ok := ⟨by decide, by decide, by decide⟩
example : (readMasked toy (writeArr toy true 3 four 0).2 (writeArr toy true 3 four 0).1 [true, false, false, true]).1 =
    some [1, 2, 0, 0] := by decide
example : (readMasked toy (writeArr toy true 0 four 0).2 (writeArr toy true 0 four 0).1 [true, true]).1 =
    some [1, 2, 3, 4] := by decide

/-- A mask without a row divides by zero when one file is read. -/
theorem masked_none_undefined :
    (readMasked toy (writeArr toy true 3 four 0).2 (writeArr toy true 3 four 0).1 [false, false, false, false]).1 = none := by decide

/-- A mask which is longer than the array: one row of two is written, the other one is what the memory held. -/
theorem masked_long_wrong :
    readMasked toy (writeArr toy true 3 four 0).2 (writeArr toy true 3 four 0).1 [true, false, false, false, true] = (some [1, 2], 2) := by
  decide

/-- In column-major order the bytes of a row are not next to each other: of `[[1, 2], [3, 4]]` the mask `[True, False]` gives `[[1, 3]]`. -/
theorem masked_fortran_wrong : ∃ a : Arr, a = ⟨[2, 2], 1, [1, 3, 2, 4]⟩ ∧
    readMasked toy (writeArr toy false 0 a 0).2 (writeArr toy false 0 a 0).1 [true, false] = (some [1, 3], 1) :=
  ⟨_, rfl, by decide⟩

/-! ## The buffer for compressed data -/

/-- The buffer holds all stored bytes of an array, except when the stored size is that of the array. -/
theorem temp_enough (cur : Nat) (b : Blk) (masked : Bool) (h : b.cSize ≠ b.uSize) : b.cSize ≤ tempSize cur b masked := by
  unfold tempSize
  simp only [h, ne_eq, not_false_eq_true, true_and]
  split <;> split <;> omega

/-- In that case a masked read may decompress a band of 4 bytes by way of a buffer of one byte, which a former array left. -/
theorem temp_chance_wrong : tempSize 1 (writeArr toy true 10000 chance 0).1 true = 1 ∧
    0 < (writeArr toy true 10000 chance 0).1.bandCount ∧ pack toy 13 chance.data = [12, 1, 2, 3] := by decide

example : (writeArr toy true 10000 chance 0).1.cSize = (writeArr toy true 10000 chance 0).1.uSize := by decide
example : tempSize 1 (writeArr toy true 3 four 0).1 true = (writeArr toy true 3 four 0).1.cSize := by decide

end Riptide.Sds
