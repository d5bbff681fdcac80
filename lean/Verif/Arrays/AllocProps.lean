import Verif.Arrays.AllocSpec
import Verif.Mask.Props
import Verif.Take.Props
/-! C123: arrays made like another one have room for its items. -/
namespace Riptide.Alloc
open Riptide.Work

/-- Packed items are sound. -/
theorem packed_sound (ty : Ty) (w n : Nat) : (pyNew ty w n none).Sound := by
  have key : ∀ i j : Nat, i < j → ((i : Int) * (w : Int)) + w ≤ (j : Int) * w := by
    intro i j h
    have h1 : i * w + w ≤ j * w := by
      have := Nat.mul_le_mul_right w (show i + 1 ≤ j from h)
      rw [Nat.add_mul] at this
      omega
    exact_mod_cast h1
  refine ⟨?_, ?_⟩
  · intro i hi
    refine ⟨Int.mul_nonneg (by omega) (by simp [pyNew]), ?_⟩
    have := key i n hi
    show (i : Int) * (w : Int) + w ≤ ((n * w : Nat) : Int)
    rw [Int.natCast_mul]
    exact this
  · intro i j _ _ hij
    exact Or.inl (key i j hij)

/-- C123.  An array of another number of rows like a given one of numbers, or of strings which are not of
length 0, has items of the same size, each in its own place.  Missing: structures. -/
theorem resized_has_room_partial (a : Arr) (n : Nat) (h : a.ty = .number ∨ a.ty = .text ∧ 0 < a.width) :
    ∃ b, likeResize a n = some b ∧ b.ty = a.ty ∧ b.rows = n ∧ b.width = a.width ∧ b.Sound := by
  unfold likeResize
  rcases h with h | ⟨h, hw⟩
  · rw [h]
    refine ⟨pyNew .number a.width n none, ?_, rfl, rfl, rfl, packed_sound _ _ _⟩
    simp [allocate, Ty.flexible]
  · rw [h]
    refine ⟨pyNew .text a.width n none, ?_, rfl, rfl, rfl, packed_sound _ _ _⟩
    have : a.width ≠ 0 := by omega
    simp [allocate, Ty.flexible, this]

/-- C123, fails for structures: the items of the new array have one byte, whatever they have in the given
one. -/
theorem resized_structures_have_one_byte (a : Arr) (n : Nat) (h : a.ty = .void) :
    ∃ b, likeResize a n = some b ∧ b.width = 1 ∧ b.bytes = n := by
  unfold likeResize
  rw [h]
  exact ⟨pyNew .void 1 n none, by simp [allocate, Ty.flexible], rfl, by simp [pyNew]⟩

/-- C123.  Objects get no array. -/
theorem objects_get_none (a : Arr) (n : Nat) (h : a.ty = .object) : likeResize a n = none := by
  unfold likeResize
  rw [h]

/-- C123, consequence: a boolean index into structures of two bytes or more, with any true entry, copies an
item to a place which ends behind the new array, in every schedule. -/
theorem boolean_index_of_structures_overflows (a : Arr) (hty : a.ty = .void) (hw : 2 ≤ a.width)
    (m : Mask.Mem) (sb : Int) (hs : a.stride = a.width) {r0 : Nat} (hr0 : r0 < a.rows)
    (ht : Mask.tr m sb r0 = true)
    {workers : Nat} {nt : Bool} {par1 par2 : Option (List Nat)}
    (h1 : ChunkSched workers a.rows nt par1) (h2 : ChunkSched workers a.rows nt par2) :
    ∃ total copies b, Mask.booleanIndex m a.rows sb a.width a.stride par1 par2 = some (total, copies) ∧
      likeResize a total = some b ∧ ∃ c ∈ copies, (b.bytes : Int) < c.1 + a.width := by
  have hinc : sb = 1 → Mask.tailInc a.width a.stride = a.width := by
    intro _
    unfold Mask.tailInc
    split
    · rfl
    · exact hs
  obtain ⟨copies, hc, hp⟩ := Mask.booleanIndex_perm m a.rows sb a.width a.stride h1 h2 hinc
  obtain ⟨b, hb, _, hbb⟩ := resized_structures_have_one_byte a (Mask.trueIn m sb 0 a.rows) hty
  refine ⟨_, copies, b, hc, hb, ?_⟩
  have hz := Mask.rank_pairs m sb a.rows
  have hlen : Mask.trueIn m sb 0 a.rows = ((List.range a.rows).filter (Mask.tr m sb)).length := by
    rw [← Mask.rank_eq_length]; rfl
  have hmem : r0 ∈ (List.range a.rows).filter (Mask.tr m sb) :=
    List.mem_filter.2 ⟨List.mem_range.2 hr0, ht⟩
  generalize hT : (List.range a.rows).filter (Mask.tr m sb) = T at *
  have hpos : 0 < T.length := List.length_pos_of_mem hmem
  have hk : (T.length - 1, T[T.length - 1]) ∈ T.map fun r => (Mask.rank m sb r, r) := by
    rw [hz]
    exact List.mem_map.2 ⟨(T[T.length - 1], T.length - 1),
      List.mem_zipIdx_iff_getElem?.2 (by simp), rfl⟩
  obtain ⟨r, hr, he⟩ := List.mem_map.1 hk
  have hrank : Mask.rank m sb r = T.length - 1 := congrArg Prod.fst he
  refine ⟨((Mask.rank m sb r : Int) * a.width, (r : Int) * a.stride), hp.mem_iff.2 ?_, ?_⟩
  · unfold Mask.rowCopies
    rw [hT]
    exact List.mem_map.2 ⟨r, hr, rfl⟩
  · rw [hbb, hlen, hrank]
    show ((T.length : Nat) : Int) < ((T.length - 1 : Nat) : Int) * (a.width : Int) + (a.width : Int)
    obtain ⟨k, hk⟩ : ∃ k, T.length = k + 1 := ⟨T.length - 1, by omega⟩
    rw [hk, Nat.add_sub_cancel]
    have : k * 2 ≤ k * a.width := Nat.mul_le_mul_left k hw
    have h3 : k + 1 < k * a.width + a.width := by omega
    exact_mod_cast h3

/-- C123, consequence: so does a fancy index into structures, with any entry at all. -/
theorem fancy_index_of_structures_overflows (a : Arr) (hty : a.ty = .void) (hw : 2 ≤ a.width)
    (ix : Take.Index) (fuel : Nat) (hs : ix.signed = true) (hn : 0 < ix.vals.length)
    (hst : a.stride = a.width)
    {workers : Nat} {nt : Bool} {par : Option (List Nat)}
    (h : ChunkSched workers ix.vals.length nt par) :
    ∃ copies b, Take.mbget ix a.rows a.stride a.width fuel par = some copies ∧
      likeResize a ix.vals.length = some b ∧ ∃ c ∈ copies, (b.bytes : Int) ≤ c.1 := by
  obtain ⟨copies, hc, hp⟩ := Take.mbget_perm ix a.rows a.stride a.width fuel (Or.inl hs) h
    (Or.inr (Or.inr hst))
  obtain ⟨b, hb, _, hbb⟩ := resized_structures_have_one_byte a ix.vals.length hty
  refine ⟨copies, b, hc, hb, ?_⟩
  obtain ⟨k, hk⟩ : ∃ k, ix.vals.length = k + 1 := ⟨ix.vals.length - 1, by omega⟩
  have hoff : a.width - 1 ∈ Take.itemOffs a.width := by
    rw [Take.itemOffs_eq]
    simp
    omega
  have hex : ∃ c ∈ Take.rowCopies ix a.rows a.stride a.width (List.range ix.vals.length),
      c.1 = (k : Int) * a.width + ((a.width - 1 : Nat) : Int) := by
    have hin : ∀ row : Option Int, ∃ c ∈ Take.itemCopy a.stride a.width row ((k : Int) * a.width),
        c.1 = (k : Int) * a.width + ((a.width - 1 : Nat) : Int) := by
      intro row
      unfold Take.itemCopy
      exact ⟨_, List.mem_map.2 ⟨a.width - 1, hoff, rfl⟩, rfl⟩
    obtain ⟨c, hc1, hc2⟩ := hin (Take.resolve ix.signed (!Take.fixedSize a.width) a.rows
      (Take.readIdx ix.width ((ix.vals[k]?).getD 0)))
    unfold Take.rowCopies
    exact ⟨c, List.mem_flatMap.2 ⟨k, by simp; omega, hc1⟩, hc2⟩
  obtain ⟨c, hcm, hce⟩ := hex
  refine ⟨c, hp.mem_iff.2 hcm, ?_⟩
  rw [hce, hbb, hk]
  have : k * 2 ≤ k * a.width := Nat.mul_le_mul_left k hw
  have h3 : k + 1 ≤ k * a.width + (a.width - 1) := by omega
  exact_mod_cast h3

/-- C123.  An array of numbers like any other one is sound. -/
theorem like_numbers_sound (a : Arr) (natural : Nat) :
    ∃ b, like a .number natural = some b ∧ b.rows = a.rows ∧ b.width = natural ∧ b.Sound := by
  refine ⟨pyNew .number natural a.rows none, ?_, rfl, rfl, packed_sound _ _ _⟩
  unfold like
  split
  · simp [allocate, Ty.flexible]
  · simp [Ty.flexible]

/-- C123.  For strings and structures the strides of the given array are taken over, while the memory is that
of packed items.  So the new array is sound exactly if the rows of the given one are packed, or if there are not
two rows. -/
theorem like_flexible_sound_iff (a : Arr) (hf : a.ty.flexible = true) (hw : 0 < a.width) :
    ∃ b, like a a.ty 0 = some b ∧ b.rows = a.rows ∧ b.width = a.width ∧ b.stride = a.stride ∧
      (b.Sound ↔ a.rows ≤ 1 ∨ a.stride = a.width) := by
  have hnum : a.ty ≠ .number := by intro h; rw [h] at hf; cases hf
  refine ⟨pyNew a.ty a.width a.rows (some a.stride), ?_, rfl, rfl, rfl, ?_⟩
  · unfold like allocate
    rw [if_neg (by intro h; exact hnum h.1), if_pos hf, if_neg (by simp), if_neg (by omega),
      if_neg (by omega)]
  · constructor
    · intro h
      by_cases hr : a.rows ≤ 1
      · exact Or.inl hr
      right
      have h1 := h.inside 1 (show 1 < a.rows by omega)
      have h2 := h.inside (a.rows - 1) (show a.rows - 1 < a.rows by omega)
      have h3 := h.apart 0 1 (show 0 < a.rows by omega) (show 1 < a.rows by omega) (by omega)
      simp only [Arr.at, pyNew, Option.getD_some] at h1 h2 h3
      have hlow : (a.width : Int) ≤ a.stride := by
        rcases h3 with h3 | h3 <;> omega
      obtain ⟨k, hk⟩ : ∃ k, a.rows = k + 2 := ⟨a.rows - 2, by omega⟩
      rw [hk, show k + 2 - 1 = k + 1 by omega] at h2
      have h4 := h2.2
      rw [Int.natCast_mul, Int.natCast_add, Int.natCast_add] at h4
      by_cases hgt : (a.width : Int) < a.stride
      · exfalso
        have h5 : ((k : Int) + 1) * ((a.width : Int) + 1) ≤ ((k : Int) + 1) * a.stride :=
          Int.mul_le_mul_of_nonneg_left (by omega) (by omega)
        rw [Int.natCast_one] at h4
        rw [Int.mul_add, Int.add_mul (k : Int) 1 (a.width : Int)] at h5
        rw [Int.add_mul (k : Int) _ (a.width : Int)] at h4
        generalize (k : Int) * (a.width : Int) = q at *
        omega
      · omega
    · intro h
      rcases h with h | h
      · refine ⟨?_, ?_⟩
        · intro i hi
          have hi0 : i = 0 := by
            have : i < a.rows := hi
            omega
          subst hi0
          have hrow : a.rows = 1 := by
            have : 0 < a.rows := hi
            omega
          simp [Arr.at, pyNew, hrow]
        · intro i j hi hj hij
          have : j < a.rows := hj
          omega
      · have he : pyNew a.ty a.width a.rows (some a.stride) = pyNew a.ty a.width a.rows none := by
          simp [pyNew, h]
        rw [he]
        exact packed_sound _ _ _

/-- C123.  A flexible type other than the one of the array is refused, except for packed numbers, where the
items get one byte. -/
theorem like_other_flexible (a : Arr) (ty : Ty) (natural : Nat) (hf : ty.flexible = true) (hne : ty ≠ a.ty) :
    like a ty natural =
      if a.ty = .number ∧ a.stride = a.width then some (pyNew ty 1 a.rows none) else none := by
  unfold like
  by_cases h : a.ty = .number ∧ a.stride = a.width
  · rw [if_pos h, if_pos h]
    simp [allocate, hf]
  · rw [if_neg h, if_neg h, if_pos hf, if_pos hne]

/-! Cases: three strings of four bytes, three structures of twelve bytes. -/

def exText : Arr := { ty := .text, width := 4, rows := 3, stride := 4, bytes := 12 }

def exVoid : Arr := { ty := .void, width := 12, rows := 3, stride := 12, bytes := 36 }

example := resized_has_room_partial exText 7 (Or.inr ⟨rfl, by decide⟩)

example := boolean_index_of_structures_overflows exVoid rfl (by decide) (fun _ => 1#8) 1 rfl (r0 := 2)
  (by decide) (by decide) (ChunkSched.direct (workers := 4) (noThreading := false) (by decide))
  (ChunkSched.direct (workers := 4) (noThreading := false) (by decide))

example := fancy_index_of_structures_overflows exVoid rfl (by decide) { signed := true, width := 32, vals := [2, 0] }
  0 rfl (by decide) rfl (ChunkSched.direct (workers := 4) (noThreading := false) (by decide))

example : likeResize exVoid 2 = some { ty := .void, width := 1, rows := 2, stride := 1, bytes := 2 } := by decide

/-- Every other one of six strings: the last item of the array made like it begins at byte 16 of 12. -/
example : like { exText with stride := 8 } .text 0 =
    some { ty := .text, width := 4, rows := 3, stride := 8, bytes := 12 } := by decide

example := like_flexible_sound_iff { exText with stride := 8 } rfl (by decide)

example := like_numbers_sound exText 1

example := like_other_flexible { ty := .number, width := 8, rows := 3, stride := 8, bytes := 24 } .text 0 rfl (by decide)

end Riptide.Alloc
