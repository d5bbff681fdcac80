import Verif.Keys.Props
import Verif.Pack.CallWrong
import Verif.Reduce.CallMore
/-! Where `ReverseShuffle`, `ReIndexGroups`, `CombineFilter` and `MakeiFirst` go wrong (C146), and examples for what they answer. -/
namespace Riptide.Keys
open Riptide.Nums Riptide.Keys.Spec Riptide.Work
open Riptide.Pack.Call (line)
open Riptide.Pack.Call.Spec (Keys)

/-! ## Examples -/

theorem shuffle_keys : Keys (line 1 1 3) .i8 (intMem .i8 0 [2, 0, 1]) [2, 0, 1] := ⟨by decide, by decide, by decide +kernel, by decide +kernel⟩
example : ([2, 0, 1] : List Int).Perm ((List.range 3).map Int.ofNat) := by decide
example : reverse (line 1 1 3) (intMem .i8 0 [2, 0, 1]) none = .ok [some 1, some 2, some 0] := by decide +kernel
example : reverse (line 2 1 3) (intMem .i8 0 [2, 0, 1]) none = .typeRefused := reverse_type_refused _ _ _ (by decide)

/-- Two partitions of two rows, the second one with the unique keys the other way round. -/
def twoParts : Groups :=
  ⟨line 1 1 5, intMem .i8 0 [1, 2, 1, 2, 7], line 5 4 4, intMem .i32 0 [1, 2, 2, 1], line 9 8 2, intMem .i64 0 [2, 4], line 9 8 2, intMem .i64 0 [2, 4]⟩
/-- The hypotheses of `reindex_partial`. -/
example : Keys twoParts.ik .i8 twoParts.im [1, 2, 1, 2, 7] ∧ Keys twoParts.uk .i32 twoParts.um [1, 2, 2, 1] ∧
    Keys twoParts.uc .i64 twoParts.ucm ([2, 4].map Int.ofNat) ∧ Keys twoParts.ic .i64 twoParts.icm ([2, 4].map Int.ofNat) ∧
    (∀ x ∈ ([1, 2, 2, 1] : List Int), IT.i8.InRange x) ∧ ([2, 4] : List Nat).Pairwise (· ≤ ·) ∧ [1, 0].Perm (List.range [2, 4].length) :=
  ⟨⟨by decide, by decide, by decide +kernel, by decide +kernel⟩, ⟨by decide, by decide, by decide +kernel, by decide +kernel⟩,
    ⟨by decide, by decide, by decide +kernel, by decide +kernel⟩, ⟨by decide, by decide, by decide +kernel, by decide +kernel⟩,
    by decide, by decide, by decide⟩
example : reindex twoParts [1, 0] = .ok [1, 2, 2, 1, 7] := by decide +kernel
example : reindex { twoParts with uk := line 7 8 4 } [1, 0] = .typeRefused := reindex_size_refused _ _ (by decide)

theorem two_flags : Flags (line 0 1 3) (intMem .i8 0 [0, 1, 1]) [false, true, true] := ⟨by decide, by decide, by decide +kernel, by decide +kernel⟩
example : Kept 3 (some (line 0 1 3, intMem .i8 0 [0, 1, 1])) [false, true, true] ∧ Kept 2 none [true, true] := ⟨⟨two_flags, rfl⟩, rfl⟩
example : filterKeys (line 1 1 3) (intMem .i8 0 [2, 0, 1]) (line 0 1 3) (intMem .i8 0 [0, 1, 1]) none = .ok [some 0, some 0, some 1] := by decide +kernel
example : (line 1 1 3).lay.len ≠ (line 0 1 2).lay.len ∧ (line 1 1 3).lay.len = (line 1 1 3).lay.len ∧ (line 2 1 3).type ∉ [1, 3, 5, 7, 9] := by decide
example : first (line 1 1 3) (intMem .i8 0 [2, 1, 2]) 2 none 0 = .ok [-2 ^ 63, 1, 0] ∧ first (line 1 1 3) (intMem .i8 0 [2, 1, 2]) 2 none 1 = .ok [-2 ^ 63, 1, 2] ∧
    first (line 1 1 3) (intMem .i8 0 [2, 1, 2]) 2 (some (line 0 1 3, intMem .i8 0 [0, 1, 1])) 0 = .ok [-2 ^ 63, 1, 2] := by decide +kernel
example : IT.i64.InRange (20000000000 + 1) ∧ first (line 1 1 1) (intMem .i8 0 [2]) 20000000000 none 0 = .tooMany := by decide +kernel

/-! ## Layouts which none of the calls looks at -/

/-- C146, false of the code: every second key is the permutation `1, 0`; the first half of all keys is inverted, and one row of the answer is left as
allocated. -/
theorem strided_reverse_wrong :
    Ints .i8 ⟨1, ⟨[2], [2], 1⟩, false⟩ (intMem .i8 0 [1, 1, 0, 0]) [1, 0] ∧
    reverse ⟨1, ⟨[2], [2], 1⟩, false⟩ (intMem .i8 0 [1, 1, 0, 0]) none = .ok [none, some 1] ∧
    reverse (line 1 1 2) (intMem .i8 0 [1, 0]) none = .ok [some 1, some 0] := by decide +kernel

/-- C146, false of the code: of an array read backwards the call reads behind the end. -/
theorem reversed_reverse_undefined :
    Ints .i8 ⟨1, ⟨[2], [-1], 1⟩, false⟩ (intMem .i8 (-1) [0, 1]) [1, 0] ∧
    reverse ⟨1, ⟨[2], [-1], 1⟩, false⟩ (intMem .i8 (-1) [0, 1]) none = .undefined := by decide +kernel

/-- C146, false of the code: keys in the other order of bytes are other keys. -/
theorem swapped_reverse_wrong :
    Ints .i16 ⟨3, ⟨[2], [2], 2⟩, true⟩ (intMem .i16 0 [256, 0]) [1, 0] ∧
    reverse ⟨3, ⟨[2], [2], 2⟩, true⟩ (intMem .i16 0 [256, 0]) none = .ok [some 1, none] := by decide +kernel

/-- C146: keys which are no permutation are not refused; a row which no key names is left as allocated, a key outside of the rows is passed over. -/
theorem no_permutation_leaves_rows_unset :
    reverse (line 1 1 3) (intMem .i8 0 [1, 1, 5]) none = .ok [none, some 1, none] := by decide +kernel

/-- C146, false of the code: a matrix of keys in Fortran order is answered as its transpose, even if every row is kept. -/
theorem fortran_filter_wrong :
    Ints .i8 ⟨1, ⟨[2, 2], [1, 2], 1⟩, false⟩ (intMem .i8 0 [1, 2, 3, 4]) [1, 3, 2, 4] ∧
    filterKeys ⟨1, ⟨[2, 2], [1, 2], 1⟩, false⟩ (intMem .i8 0 [1, 2, 3, 4]) ⟨0, ⟨[2, 2], [2, 1], 1⟩, false⟩ (intMem .i8 0 [1, 1, 1, 1]) none =
      .ok [some 1, some 2, some 3, some 4] := by decide +kernel

/-- C146, false of the code: every second row is kept by a filter which is itself every second item of an array; the first half of all of it is used. -/
theorem strided_filter_wrong :
    Ints .i8 ⟨0, ⟨[2], [2], 1⟩, false⟩ (intMem .i8 0 [1, 0, 1, 0]) [1, 1] ∧
    filterKeys (line 1 1 2) (intMem .i8 0 [5, 6]) ⟨0, ⟨[2], [2], 1⟩, false⟩ (intMem .i8 0 [1, 0, 1, 0]) none = .ok [some 5, some 0] ∧
    first (line 1 1 2) (intMem .i8 0 [1, 2]) 2 (some (⟨0, ⟨[2], [2], 1⟩, false⟩, intMem .i8 0 [1, 0, 1, 0])) 0 = .ok [-2 ^ 63, 0, -2 ^ 63] := by
  decide +kernel

/-- C146: a byte of the filter which is neither 0 nor 1 multiplies the key; `MakeiFirst` takes the same byte as kept. -/
theorem odd_filter_byte_multiplies :
    filterKeys (line 1 1 2) (intMem .i8 0 [2, 3]) (line 0 1 2) (intMem .i8 0 [1, 2]) none = .ok [some 2, some 6] ∧
    first (line 1 1 2) (intMem .i8 0 [2, 3]) 3 (some (line 0 1 2, intMem .i8 0 [1, 2])) 0 = .ok [-2 ^ 63, -2 ^ 63, 0, 1] := by decide +kernel

/-! ## `ReIndexGroups` looks at sizes, not at types -/

/-- C146, false of the code: unique keys of type float32 are accepted, and the bits of 1.0 and 2.0 become the new keys. -/
theorem float_unique_keys_accepted :
    reindex { twoParts with ik := line 5 4 2, im := intMem .i32 0 [1, 2], uk := line 11 4 2, um := intMem .i32 0 [0x3f800000, 0x40000000],
                            uc := line 7 8 1, ucm := intMem .i64 0 [2], ic := line 7 8 1, icm := intMem .i64 0 [2] } [0] =
      .ok [1065353216, 1073741824] := by decide +kernel

/-- C146, false of the code: keys of type uint8 are accepted; the key 200 is read as -56 and filtered out. -/
theorem unsigned_keys_filtered_out :
    Ints .u8 (line 2 1 1) (intMem .u8 0 [200]) [200] ∧
    (∀ uikey : List Int, uikey.length = 3 → Take.Spec.reindex uikey 0 (-56) = 0) ∧
    reindex { twoParts with ik := line 2 1 1, im := intMem .u8 0 [200], uc := line 7 8 1, ucm := intMem .i64 0 [4],
                            ic := line 7 8 1, icm := intMem .i64 0 [1] } [0] = .ok [0] := by
  refine ⟨by decide +kernel, ?_, by decide +kernel⟩
  intro u _
  unfold Take.Spec.reindex
  simp

/-- One row of `reindexPartition`, `src/Merge.cpp:1802-1815`. -/
def rowStep (w : Nat) (uikey : List Int) (start starti : Int) (key : List Int) (d : Nat) : Option (List Int) :=
  if 0 ≤ starti + d ∧ starti + d < key.length then do
    let old ← key[(starti + d).toNat]?
    let v ← Take.reindexOne w uikey start old
    pure (key.set (starti + d).toNat v)
  else none

theorem rowStep_length {w : Nat} {uikey : List Int} {start starti : Int} {key : List Int} {d : Nat} {out : List Int}
    (h : rowStep w uikey start starti key d = some out) : out.length = key.length := by
  unfold rowStep at h
  split at h
  · cases h1 : key[(starti + d).toNat]? with
    | none => simp [h1] at h
    | some x =>
      cases h2 : Take.reindexOne w uikey start x with
      | none => simp [h1, h2] at h
      | some v =>
        simp [h1, h2] at h
        rw [← h, List.length_set]
  · cases h

theorem fold_length {β : Type} (f : List Int → β → Option (List Int)) (hf : ∀ k d o, f k d = some o → o.length = k.length) (l : List β) :
    ∀ (k o : List Int), l.foldlM f k = some o → o.length = k.length := by
  induction l with
  | nil => intro k o h; simp at h; rw [h]
  | cons d l ih =>
    intro k o h
    rw [List.foldlM_cons] at h
    cases e : f k d with
    | none => simp [e] at h
    | some k' =>
      simp [e] at h
      rw [ih k' o h, hf k d k' e]

theorem fold_none {β : Type} (f : List Int → β → Option (List Int)) (hf : ∀ k d o, f k d = some o → o.length = k.length) (n : Nat) (l : List β) (d : β)
    (hd : d ∈ l) (hn : ∀ k, k.length = n → f k d = none) : ∀ k : List Int, k.length = n → l.foldlM f k = none := by
  induction l with
  | nil => cases hd
  | cons c l ih =>
    intro k hk
    rw [List.foldlM_cons]
    cases e : f k c with
    | none => rfl
    | some k' =>
      rcases List.mem_cons.1 hd with rfl | h
      · rw [hn k hk] at e; cases e
      · exact ih h k' (by rw [hf k c k' e, hk])

theorem partition_length {w : Nat} {uikey ucut icut key : List Int} {t : Nat} {out : List Int}
    (h : Take.reindexPartition w uikey ucut icut key t = some out) : out.length = key.length := by
  unfold Take.reindexPartition at h
  cases h1 : Take.cutStart icut t with
  | none => simp [h1] at h
  | some s =>
    cases h2 : Take.cutStart ucut t with
    | none => simp [h1, h2] at h
    | some u =>
      cases h3 : icut[t]? with
      | none => simp [h1, h2, h3] at h
      | some e =>
        simp only [h1, h2, h3, Option.bind_eq_bind, Option.bind_some] at h
        exact fold_length (rowStep w uikey u s) (fun _ _ _ => rowStep_length) _ _ _ h

theorem partition_none {w : Nat} {uikey ucut icut key : List Int} {t : Nat} {s e : Int} (h1 : Take.cutStart icut t = some s) (h3 : icut[t]? = some e)
    (hs : s < e) (he : (key.length : Int) < e) : Take.reindexPartition w uikey ucut icut key t = none := by
  unfold Take.reindexPartition
  cases h2 : Take.cutStart ucut t with
  | none => simp [h1]
  | some u =>
    simp only [h1, h3, Option.bind_eq_bind, Option.bind_some]
    refine fold_none (rowStep w uikey u s) (fun _ _ _ => rowStep_length) key.length _ ((e - s).toNat - 1) (List.mem_range.2 (by omega)) ?_ key rfl
    intro k hk
    unfold rowStep
    rw [if_neg (by omega)]

/-- C146, false of the code: a partition which is not empty and ends behind the last key writes outside of the array, whatever the keys, the unique
keys, their cutoffs and the schedule are. -/
theorem cutoff_behind_keys_undefined (g : Groups) (calls : List Nat) (icut : List Int) (hi : Riptide.Pack.Call.items .i64 g.icm g.ic.lay.len = some icut)
    (huc : g.uc.lay.item = 8) (hic : g.ic.lay.item = 8) (huk : g.uk.lay.item = 4) (hik : g.ik.lay.item ∈ [1, 2, 4, 8])
    (t : Nat) (ht : t ∈ calls) (e : Int) (h : icut[t]? = some e) (hs : ∀ s, icut[t - 1]? = some s → t ≠ 0 → s < e) (he : (g.ik.lay.len : Int) < e) :
    reindex g calls = .undefined := by
  unfold reindex
  rw [if_neg (by rw [huc, hic, huk]; decide)]
  have hz : ∃ ty, Riptide.Pack.Call.sizeType g.ik.lay.item = some ty := by
    simp only [List.mem_cons, List.not_mem_nil, or_false] at hik
    rcases hik with h | h | h | h <;> rw [h] <;> exact ⟨_, rfl⟩
  obtain ⟨ty, hz⟩ := hz
  rw [hz]
  simp only
  cases e1 : Riptide.Pack.Call.items ty g.im g.ik.lay.len with
  | none => rfl
  | some ikey =>
    cases e2 : Riptide.Pack.Call.items .i32 g.um g.uk.lay.len with
    | none => rfl
    | some uikey =>
      cases e3 : Riptide.Pack.Call.items .i64 g.ucm g.uc.lay.len with
      | none => rfl
      | some ucut =>
        rw [hi]
        simp only [Option.bind_some]
        have hl : ikey.length = g.ik.lay.len := by
          unfold Riptide.Pack.Call.items at e1
          have := Reduce.mapM_length e1
          simpa using this
        have hst : ∃ s, Take.cutStart icut t = some s ∧ s < e := by
          unfold Take.cutStart
          by_cases h0 : t > 0
          · rw [if_pos h0]
            obtain ⟨hlt, _⟩ := List.getElem?_eq_some_iff.1 h
            exact ⟨icut[t - 1], by rw [List.getElem?_eq_getElem], hs _ (by rw [List.getElem?_eq_getElem]) (by omega)⟩
          · rw [if_neg h0]
            exact ⟨0, rfl, by omega⟩
        obtain ⟨s, h1, h2⟩ := hst
        unfold Take.reindexGroups
        rw [fold_none (Take.reindexPartition ty.bits uikey ucut icut) (fun _ _ _ => partition_length) ikey.length calls t ht (fun k hk => partition_none h1 h h2 (by omega)) ikey rfl]
        rfl

/-- Such a cutoff, and 2.0 of an array of float64, which is read as 2^62. -/
example : reindex { twoParts with icm := intMem .i64 0 [2, 6] } [0, 1] = .undefined ∧
    reindex { twoParts with ic := line 12 8 1, icm := intMem .i64 0 [0x4000000000000000] } [0] = .undefined :=
  ⟨cutoff_behind_keys_undefined _ _ [2, 6] (by decide +kernel) rfl rfl rfl (by decide) 1 (by decide) 6 rfl (by simp) (by decide),
   cutoff_behind_keys_undefined _ _ [0x4000000000000000] (by decide +kernel) rfl rfl rfl (by decide) 0 (by decide) _ rfl (by simp) (by decide)⟩

/-- C146, false of the code: fewer cutoffs of keys than of unique keys are not refused; the missing one is read behind the end. -/
theorem fewer_cutoffs_undefined : reindex { twoParts with ic := line 9 8 1, icm := intMem .i64 0 [2] } [0, 1] = .undefined := by decide +kernel

/-- C146, false of the code: a unique key of 200 does not fit keys of type int8. -/
theorem unique_key_truncated : reindex { twoParts with um := intMem .i32 0 [1, 200, 2, 1] } [0, 1] = .ok [1, -56, 2, 1, 7] := by decide +kernel

/-! ## `MakeiFirst` -/

/-- C146, false of the code: keys which are no signed integers are refused without an exception. -/
theorem first_type_silent (a : Arr) (m : Mem) (max last : Int) (h : a.type ∉ [1, 3, 5, 7, 9]) (h0 : -1 ≤ max) (h1 : max < 20000000000) :
    first a m max none last = .silent := by
  have hin : IT.i64.InRange (max + 1) := by
    unfold IT.InRange
    rw [show IT.i64.lo = -9223372036854775808 from by decide, show IT.i64.hi = 9223372036854775807 from by decide]
    omega
  unfold first
  rw [if_neg (by simp), if_neg (by simp), if_neg (by simpa using hin), if_neg (by omega), Riptide.Pack.Call.keyType_none h]
example : (line 2 1 3).type ∉ [1, 3, 5, 7, 9] := by decide

/-- C146, false of the code: the number of groups is counted up before it is checked; 2^63 - 1 overflows. -/
theorem first_max_overflows (a : Arr) (m : Mem) (last : Int) : first a m (2 ^ 63 - 1) none last = .undefined := by
  unfold first
  rw [if_neg (by simp), if_neg (by simp), if_pos (by decide)]

end Riptide.Keys
