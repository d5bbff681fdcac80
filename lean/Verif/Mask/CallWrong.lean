import Verif.Mask.CallProps
/-! Where the calls on masks go wrong (C140). -/
namespace Riptide.Mask.Call
open Riptide.Binary Riptide.Unary Riptide.Work Riptide.Mask Riptide.Mask.Call.Spec

/-- The sum which is found with the stride 1, if just one byte is not 0. -/
theorem sum_one_byte {a : Lay} {b : Nat} (hs : step a = 1) (hb : b < a.len) {workers : Nat} {nt : Bool} {par : Option (List Nat)}
    (hp : ChunkSched workers a.len nt par) : sumCall ⟨true, a⟩ (fun o => if o = (b : Int) then 1#8 else 0#8) par = .ok 1 := by
  unfold sumCall
  rw [if_neg (by simp)]
  simp only
  rw [parallel_count_true_exact _ a.len _ hp, hs]
  congr 1
  unfold Mask.Spec.numTrue view
  rw [List.countP_map]
  have : ((id : Bool → Bool) ∘ fun (i : Nat) => decide ((if (i : Int) * 1 = (b : Int) then 1#8 else 0#8) ≠ 0#8)) = fun (i : Nat) => i == b := by
    funext i
    by_cases h : i = b
    · simp [h]
    · have : ¬ (i : Int) = b := by omega
      simp [h, this]
  rw [this]
  have hc : (List.range a.len).countP (fun i => i == b) = (List.range a.len).count b := rfl
  rw [hc, List.nodup_range.count]
  simp [hb]

/-- A byte which belongs to no item. -/
theorem no_item {l : List Int} {b : Int} (h : b ∉ l) : flags (fun o => if o = b then 1#8 else 0#8) l = flags (fun _ => 0#8) l := by
  unfold flags
  apply List.map_congr_left
  intro o ho
  have : o ≠ b := fun e => h (e ▸ ho)
  simp [this]

theorem none_true (l : List Int) : Mask.Spec.numTrue (flags (fun _ => 0#8) l) = 0 := by
  unfold Mask.Spec.numTrue flags
  rw [List.countP_map]
  simp [Function.comp_def]

/-- The answer is wrong: there is a mask none of whose items is True, but the sum is 1. -/
def SumWrong (a : Lay) (par : Option (List Nat)) : Prop :=
  ∃ m : Mem, Mask.Spec.numTrue (flags m (inC a.dims a.strides)) = 0 ∧ sumCall ⟨true, a⟩ m par = .ok 1

theorem sum_wrong {a : Lay} {b : Nat} (hs : step a = 1) (hb : b < a.len) (hn : (b : Int) ∉ inC a.dims a.strides) {workers : Nat} {nt : Bool}
    {par : Option (List Nat)} (hp : ChunkSched workers a.len nt par) : SumWrong a par :=
  ⟨fun o => if o = (b : Int) then 1#8 else 0#8, by rw [no_item hn, none_true], sum_one_byte hs hb hp⟩

theorem mem_rows {h w p : Nat} {x : Int} (hx : x ∈ inC [h, w] [(p : Int), 1]) : ∃ i j : Nat, j < w ∧ x = ((i * p + j : Nat) : Int) := by
  simp only [inC, List.mem_flatMap, List.mem_range, List.mem_map] at hx
  obtain ⟨i, _, y, ⟨j, hj, z, hz, rfl⟩, rfl⟩ := hx
  have : z = 0 := by simpa using hz
  subst this
  exact ⟨i, j, hj, by push_cast; omega⟩

theorem gap {p w i j : Nat} (hp : w < p) (hj : j < w) : i * p + j ≠ w := by
  rcases Nat.eq_zero_or_pos i with h | h
  · subst h; omega
  · have := Nat.mul_le_mul_right p h
    omega

/-- C140 is false of masks which are columns of a larger one: `BooleanSum` of `h` rows of `w` flags at distances of `p > w` counts the first `h * w`
bytes, whatever they are, since the answer that one stride is not enough is not looked at (`src/Merge.cpp:746`). -/
theorem rows_sum_wrong (h w p : Nat) (hh : 1 < h) (hw : 1 < w) (hp : w < p) {workers : Nat} {nt : Bool} {par : Option (List Nat)}
    (hs : ChunkSched workers (h * w) nt par) : SumWrong ⟨[h, w], [(p : Int), 1], 1⟩ par := by
  have hl : Lay.len ⟨[h, w], [(p : Int), 1], 1⟩ = h * w := by simp [Lay.len, prod]
  have e1 : headStride ⟨[h, w], [(p : Int), 1], 1⟩ = p := by simp [headStride, dim, str, hh]
  have e2 : lastStride ⟨[h, w], [(p : Int), 1], 1⟩ = 1 := by simp [lastStride, str]
  have hst : step ⟨[h, w], [(p : Int), 1], 1⟩ = 1 := by
    unfold step
    rw [contig_fst, if_neg (by simp), e1, e2, if_neg (by omega), if_pos (by omega)]
  refine sum_wrong (b := w) hst ?_ ?_ (by rw [hl]; exact hs)
  · rw [hl]
    have := Nat.mul_le_mul_right w hh
    omega
  · intro hm
    obtain ⟨i, j, hj, e⟩ := mem_rows hm
    exact gap hp hj (by exact_mod_cast e.symm)

/-- Two of three columns. -/
example : ChunkSched 0 (2 * 2) false none := .direct (.inl (by decide))

/-- C140 is false of a single row which is a slice with a step: `BooleanSum` of `n` flags at distances of two bytes, with a dimension of one item
before them, counts the first `n` bytes (`src/RipTide.cpp:2312-2322`). -/
theorem single_row_sum_wrong (n : Nat) (q : Int) (hn : 1 < n) {workers : Nat} {nt : Bool} {par : Option (List Nat)}
    (hs : ChunkSched workers n nt par) : SumWrong ⟨[1, n], [q, 2], 1⟩ par := by
  have hl : Lay.len ⟨[1, n], [q, 2], 1⟩ = n := by simp [Lay.len, prod]
  have e1 : headStride ⟨[1, n], [q, 2], 1⟩ = 1 := by simp [headStride, dim]
  have e2 : lastStride ⟨[1, n], [q, 2], 1⟩ = 2 := by simp [lastStride, str, dim, hn]
  have hst : step ⟨[1, n], [q, 2], 1⟩ = 1 := by
    unfold step
    rw [contig_fst, if_neg (by simp), e1, e2, if_neg (by omega), if_neg (by omega)]
  refine sum_wrong (b := 1) hst (by rw [hl]; exact hn) ?_ (by rw [hl]; exact hs)
  intro hm
  simp only [inC, List.mem_flatMap, List.mem_range, List.mem_map] at hm
  obtain ⟨i, hi, y, ⟨j, hj, z, hz, rfl⟩, e⟩ := hm
  have : z = 0 := by simpa using hz
  have : i = 0 := by omega
  subst this
  omega

/-- C140 is false of columns of a larger mask behind a dimension of one item: its stride is taken to be the size of an item, that is the last
stride, and the mask is taken to be contiguous (`src/RipTide.cpp:2330-2333`). -/
theorem hidden_rows_sum_wrong (h w p : Nat) (q : Int) (hh : 1 < h) (hp : w < p) (hw : 0 < w) {workers : Nat} {nt : Bool} {par : Option (List Nat)}
    (hs : ChunkSched workers (h * w) nt par) : SumWrong ⟨[1, h, w], [q, (p : Int), 1], 1⟩ par := by
  have hl : Lay.len ⟨[1, h, w], [q, (p : Int), 1], 1⟩ = h * w := by simp [Lay.len, prod]
  have e1 : headStride ⟨[1, h, w], [q, (p : Int), 1], 1⟩ = 1 := by simp [headStride, dim]
  have e2 : lastStride ⟨[1, h, w], [q, (p : Int), 1], 1⟩ = 1 := by simp [lastStride, str]
  have hst : step ⟨[1, h, w], [q, (p : Int), 1], 1⟩ = 1 := by
    unfold step
    rw [contig_fst, if_neg (by simp), e1, e2, if_pos rfl]
  refine sum_wrong (b := w) hst ?_ ?_ (by rw [hl]; exact hs)
  · rw [hl]
    have := Nat.mul_le_mul_right w hh
    omega
  · intro hm
    have hm : (w : Int) ∈ (List.range 1).flatMap fun (i : Nat) => (inC [h, w] [(p : Int), 1]).map fun o => (i : Int) * q + o := hm
    simp only [List.mem_flatMap, List.mem_range, List.mem_map] at hm
    obtain ⟨i, hi, y, hy, e⟩ := hm
    have : i = 0 := by omega
    subst this
    obtain ⟨i, j, hj, rfl⟩ := mem_rows hy
    have e' : ((i * p + j : Nat) : Int) = (w : Int) := by simpa using e
    exact gap hp hj (by exact_mod_cast e')

/-- C140 is false of the same values in `BooleanIndex`: they are not refused, and items are taken which are not in the array. Here 0, 8, 24, 32 are
the places of the items and all flags are True. -/
theorem hidden_rows_index_wrong : inC [1, 2, 2] [48, 24, 8] = [0, 8, 24, 32] ∧
    indexCall .plain ⟨[1, 2, 2], [48, 24, 8], 8⟩ id ⟨true, ⟨[1, 2, 2], [4, 2, 1], 1⟩⟩ (fun _ => 1#8) none none =
      .ok [some 0, some 8, some 16, some 24] := by decide +kernel

/-- C140 is false of arrays in Fortran order: the result of `BooleanIndex` is in the order of the memory. -/
theorem fortran_order_wrong : indexCall .plain ⟨[2, 2], [8, 16], 8⟩ id ⟨true, ⟨[2, 2], [1, 2], 1⟩⟩ (fun _ => 1#8) none none =
      .ok [some 0, some 8, some 16, some 24] ∧
    (Mask.Spec.select ((inC [2, 2] [8, 16]).map id) (flags (fun _ => 1#8) (inC [2, 2] [1, 2]))) = [0, 16, 8, 24] := by decide +kernel

/-- C140 is false of values in C order and a mask of the same shape in Fortran order: flags are applied to items at other indices. The only True flag
is that of the second row and the first column, and the item of the first row and the second column is returned. -/
theorem mixed_order_wrong : indexCall .plain ⟨[2, 2], [16, 8], 8⟩ id ⟨true, ⟨[2, 2], [1, 2], 1⟩⟩ (fun o => if o = 1 then 1#8 else 0#8) none none =
      .ok [some 8] ∧
    (Mask.Spec.select ((inC [2, 2] [16, 8]).map id) (flags (fun o => if o = 1 then 1#8 else 0#8) (inC [2, 2] [1, 2]))) = [16] := by decide +kernel

/-- C140: shapes are not compared. A mask of three rows and two columns is applied to values of two rows and three columns. -/
theorem shapes_not_compared : indexCall .plain ⟨[2, 3], [24, 8], 8⟩ id ⟨true, ⟨[3, 2], [2, 1], 1⟩⟩ (fun o => if o = 4 then 1#8 else 0#8) none none =
    .ok [some 32] := by decide +kernel

/-- C140 is false of records: the result is allocated with items of one byte, and whole items are copied into it (`src/RipTide.cpp:671-675`, since
`AllocateLikeResize` passes the size on for strings only). Whenever a flag is True, the call writes beyond its result. -/
theorem records_undefined {α : Type} (a : Lay) (vals : Int → α) (f : Lay) (m : Mem) (hi : 1 < a.item) (hlen : f.len = a.len)
    (hwa : a.strides.length = a.dims.length) (hwf : f.strides.length = f.dims.length) (hca : a.cContig = true) (hcf : f.cContig = true)
    (ht : 0 < Mask.Spec.numTrue (flags m (inC f.dims f.strides)))
    {workers : Nat} {nt : Bool} {par1 par2 : Option (List Nat)} (h1 : ChunkSched workers a.len nt par1) (h2 : ChunkSched workers a.len nt par2) :
    indexCall .record a vals ⟨true, f⟩ m par1 par2 = .undefined := by
  have hef := contiguous_even_c hwf hcf
  have hea := contiguous_even_c hwa hca
  have sf : 1 < f.len → step f = f.item := fun hl => step_even hwf hl (.inl hef) (.inr (.inl rfl))
  have hv := flags_view (m := m) sf hef (inC_length _ _ hwf)
  have hpos : a.len ≠ 0 := by
    intro h0
    have : inC f.dims f.strides = [] := List.eq_nil_of_length_eq_zero (by rw [inC_length _ _ hwf]; unfold Lay.len at *; omega)
    rw [this] at ht
    simp [flags, Mask.Spec.numTrue] at ht
  have sa : step a = a.item := by
    rcases (by omega : a.len = 1 ∨ 1 < a.len) with h | h
    · exact step_single h
    · exact step_even hwa h (.inl hea) (.inr (.inl rfl))
  unfold indexCall
  rw [if_neg (by simp), if_neg (by simp [refuses, hca]), if_neg (by simp [refuses, hcf]), if_neg (by simp [hlen])]
  obtain ⟨copies, hc, hp⟩ := booleanIndex_perm m a.len (step f) a.item (step a) h1 h2 (fun _ => by
    unfold tailInc
    split
    · rfl
    · exact sa)
  rw [hc]
  simp only [outItem]
  rw [← hv, hlen, numTrue_view] at ht
  unfold store
  rw [if_pos]
  rw [List.any_eq_true]
  -- the copy of the last item which is True
  have hex : ∀ n : Nat, 0 < trueIn m (step f) 0 n → ∃ r, r < n ∧ tr m (step f) r = true ∧ rank m (step f) r + 1 = trueIn m (step f) 0 n := by
    intro n
    induction n with
    | zero => intro h; simp [trueIn] at h
    | succ n ih =>
      intro h
      have e := rank_succ m (step f) n
      unfold rank at e
      by_cases hb : tr m (step f) n = true
      · exact ⟨n, by omega, hb, by unfold rank; rw [e, if_pos hb]⟩
      · rw [if_neg hb, Nat.add_zero] at e
        obtain ⟨r, hr, h3, h4⟩ := ih (by omega)
        exact ⟨r, by omega, h3, by omega⟩
  obtain ⟨r, hr, hb, hk⟩ := hex _ ht
  have hm : (((rank m (step f) r : Nat) : Int) * (a.item : Int), ((r : Nat) : Int) * step a) ∈ copies := by
    apply hp.mem_iff.2
    simp only [rowCopies, List.mem_map, List.mem_filter, List.mem_range]
    exact ⟨r, ⟨hr, hb⟩, rfl⟩
  refine ⟨_, hm, ?_⟩
  apply decide_eq_true
  rw [← hk]
  simp only [Nat.mul_one]
  have : (rank m (step f) r + 1) * 1 < (rank m (step f) r + 1) * a.item := (Nat.mul_lt_mul_left (by omega)).2 hi
  rw [Nat.add_mul _ _ a.item] at this
  push_cast
  have h5 : (((rank m (step f) r + 1) * 1 : Nat) : Int) < ((rank m (step f) r * a.item + 1 * a.item : Nat) : Int) := by exact_mod_cast this
  push_cast at h5
  omega

/-- Three records of two bytes. -/
example : indexCall .record ⟨[3], [2], 2⟩ id ⟨true, ⟨[3], [1], 1⟩⟩ (fun o => if o = 1 then 1#8 else 0#8) none none = .undefined := by decide +kernel

/-- C140 is false of slices with a step in `BooleanToFancy`: True items are counted with the stride, but the bytes are read one after the other. Here
no item is True and the byte between the two items is not 0: an index is written beyond the result. -/
theorem sliced_fancy_undefined : flags (fun o => if o = 1 then 1#8 else 0#8) (inC [2] [2]) = [false, false] ∧
    fancyCall ⟨true, ⟨[2], [2], 1⟩⟩ (fun o => if o = 1 then 1#8 else 0#8) .absent none none = .undefined := by decide +kernel

/-- C140 is false of masks in Fortran order: the only True item is that of the second row and the first column, number 2, and 1 is returned. -/
theorem fortran_fancy_wrong : Mask.Spec.trueRows (flags (fun o => if o = 1 then 1#8 else 0#8) (inC [2, 2] [1, 2])) = [2] ∧
    fancyCall ⟨true, ⟨[2, 2], [1, 2], 1⟩⟩ (fun o => if o = 1 then 1#8 else 0#8) .absent none none = .ok ⟨32, [some 1], none⟩ := by decide +kernel

/-- C140 is false of columns of a larger mask in `BooleanToFancy`: no item is True, and the index 2 is returned for a byte which is no item. -/
theorem rows_fancy_wrong : flags (fun o => if o = 2 then 1#8 else 0#8) (inC [2, 2] [3, 1]) = [false, false, false, false] ∧
    fancyCall ⟨true, ⟨[2, 2], [3, 1], 1⟩⟩ (fun o => if o = 2 then 1#8 else 0#8) .absent none none = .ok ⟨32, [some 2], none⟩ := by decide +kernel

end Riptide.Mask.Call
