import Verif.Binary.Layout
/-! What holds of shapes, strides and overlapping memory. -/
namespace Riptide.Binary

/-- Indices within the dimensions. -/
def InBounds : List Nat → List Nat → Prop
  | [], [] => True
  | i :: is, d :: ds => i < d ∧ InBounds is ds
  | _, _ => False

/-- The number of an item in C order. -/
def cPos : List Nat → List Nat → Nat
  | i :: is, _ :: ds => i * prod ds + cPos is ds
  | _, _ => 0

/-- The number of an item in Fortran order. -/
def fPos : List Nat → List Nat → Nat
  | i :: is, d :: ds => i + d * fPos is ds
  | _, _ => 0

theorem offs_c (item : Nat) : ∀ idx dims : List Nat, InBounds idx dims → offs idx (cStrides item dims) = (cPos idx dims : Int) * item
  | [], [], _ => by simp [offs, cPos]
  | i :: is, d :: ds, h => by
    rw [cStrides, offs, cPos, offs_c item is ds h.2]
    push_cast
    grind
  | [], _ :: _, h => h.elim
  | _ :: _, [], h => h.elim

theorem offs_f : ∀ (item : Nat) (idx dims : List Nat), InBounds idx dims → offs idx (fStrides item dims) = (fPos idx dims : Int) * item
  | item, [], [], _ => by simp [offs, fPos]
  | item, i :: is, d :: ds, h => by
    rw [fStrides, offs, fPos, offs_f (item * d) is ds h.2]
    push_cast
    grind
  | _, [], _ :: _, h => h.elim
  | _, _ :: _, [], h => h.elim

theorem cPos_lt : ∀ idx dims : List Nat, InBounds idx dims → cPos idx dims < prod dims
  | [], [], _ => by simp [cPos, prod]
  | i :: is, d :: ds, h => by
    have h1 := cPos_lt is ds h.2
    rw [cPos, prod]
    have h2 : (i + 1) * prod ds ≤ d * prod ds := Nat.mul_le_mul_right _ h.1
    rw [Nat.add_mul] at h2
    omega
  | [], _ :: _, h => h.elim
  | _ :: _, [], h => h.elim

theorem fPos_lt : ∀ idx dims : List Nat, InBounds idx dims → fPos idx dims < prod dims
  | [], [], _ => by simp [fPos, prod]
  | i :: is, d :: ds, h => by
    have h1 := fPos_lt is ds h.2
    rw [fPos, prod]
    have h2 : d * (fPos is ds + 1) ≤ d * prod ds := Nat.mul_le_mul_left _ h1
    rw [Nat.mul_add] at h2
    have := h.1
    omega
  | [], _ :: _, h => h.elim
  | _ :: _, [], h => h.elim

theorem offs_same : ∀ (idx dims : List Nat) (s t : List Int), sameStrides dims s t = true → InBounds idx dims → offs idx s = offs idx t
  | [], [], [], [], _, _ => rfl
  | i :: is, d :: ds, s :: ss, t :: ts, h, hb => by
    rw [sameStrides, Bool.and_eq_true] at h
    rw [offs, offs, offs_same is ds ss ts h.2 hb.2]
    rcases Bool.or_eq_true _ _ ▸ h.1 with h1 | h1
    · have h1 := of_decide_eq_true h1
      have h2 := hb.1
      have : i = 0 := by omega
      subst this; simp
    · rw [of_decide_eq_true h1]
  | [], _ :: _, _, _, _, hb => hb.elim
  | _ :: _, [], _, _, _, hb => hb.elim
  | [], [], _ :: _, _, h, _ => by simp [sameStrides] at h
  | [], [], [], _ :: _, h, _ => by simp [sameStrides] at h
  | _ :: _, _ :: _, [], _, h, _ => by simp [sameStrides] at h
  | _ :: _, _ :: _, _ :: _, [], h, _ => by simp [sameStrides] at h

theorem prod_pos_of_inBounds {idx dims : List Nat} (h : InBounds idx dims) : prod dims ≠ 0 := by
  have := cPos_lt idx dims h; omega

theorem offs_cContig (a : Lay) (h : a.cContig = true) (idx : List Nat) (hb : InBounds idx a.dims) :
    offs idx a.strides = (cPos idx a.dims : Int) * a.item := by
  unfold Lay.cContig at h
  have h0 : decide (a.len = 0) = false := decide_eq_false (prod_pos_of_inBounds hb)
  rw [h0, Bool.false_or] at h
  rw [offs_same idx a.dims _ _ h hb, offs_c _ _ _ hb]

theorem offs_fContig (a : Lay) (h : a.fContig = true) (idx : List Nat) (hb : InBounds idx a.dims) :
    offs idx a.strides = (fPos idx a.dims : Int) * a.item := by
  unfold Lay.fContig at h
  have h0 : decide (a.len = 0) = false := decide_eq_false (prod_pos_of_inBounds hb)
  rw [h0, Bool.false_or] at h
  rw [offs_same idx a.dims _ _ h hb, offs_f _ _ _ hb]

/-- With one dimension the check of the strides is enough. -/
theorem cContig_of_strideOk (a : Lay) (hw : a.strides.length = a.dims.length) (h : strideOk a = true) (h1 : a.dims.length ≤ 1) :
    a.cContig = true := by
  obtain ⟨dims, strides, item⟩ := a
  unfold Lay.cContig Lay.len
  simp only at *
  match dims, strides with
  | [], [] => simp [cStrides, sameStrides]
  | [d], [s] =>
    simp [strideOk] at h
    by_cases h0 : d = 0
    · simp [h0, prod]
    · by_cases h2 : d = 1
      · simp [h2, cStrides, sameStrides]
      · have : s = item := by omega
        simp [cStrides, sameStrides, prod, this]
  | [], _ :: _ => simp at hw
  | [_], [] => simp at hw
  | [_], _ :: _ :: _ => simp at hw
  | _ :: _ :: _, _ => simp at h1

/-- The item at `idx` of the output is computed from the items at `idx` of the inputs: all are the row `r`. -/
def Agree (x1 x2 : Option Lay) (out : Lay) (idx : List Nat) : Prop :=
  ∃ r : Nat, r < prod out.dims ∧ offs idx out.strides = (r : Int) * out.item ∧
    ∀ a, x1 = some a ∨ x2 = some a → offs idx a.strides = (r : Int) * a.item

/-- C93: for inputs of the same dimensions which pass the checks, an item of a new output is computed from the items at the
same indices, if there is at most one dimension or the inputs are contiguous in the same order. -/
theorem layout_partial (x1 x2 : Option Lay) (dims : List Nat) (item : Nat)
    (hx : x1 ≠ none ∨ x2 ≠ none)
    (hd : ∀ a, x1 = some a ∨ x2 = some a → a.dims = dims ∧ a.strides.length = dims.length ∧ strideOk a = true)
    (hlen : prod dims ≠ 0)
    (hgood : dims.length ≤ 1 ∨ (∀ a, x1 = some a ∨ x2 = some a → a.fContig = true) ∨
      (∀ a, x1 = some a ∨ x2 = some a → a.cContig = true)) :
    (allocOut x1 x2 item).dims = dims ∧ ∀ idx, InBounds idx dims → Agree x1 x2 (allocOut x1 x2 item) idx := by
  have hl : ∀ x : Option Lay, (x = x1 ∨ x = x2) → ∀ a, x = some a → lenOf x = prod dims ∧ (x.map (·.dims)).getD [] = dims := by
    intro x hxx a ha
    have := (hd a (by rcases hxx with rfl | rfl; exact .inl ha; exact .inr ha)).1
    subst ha
    simp [lenOf, Lay.len, this]
  have hout : allocOut x1 x2 item = allocLike x1 x2 dims item := by
    unfold allocOut
    cases x1 with
    | none =>
      cases x2 with
      | none => simp at hx
      | some b =>
        obtain ⟨e1, e2⟩ := hl (some b) (.inr rfl) b rfl
        rw [e1, e2]
        have e0 : lenOf none = 0 := rfl
        rw [if_neg (by rw [e0]; omega), if_neg (by rw [e0]; omega)]
    | some a =>
      obtain ⟨e1, e2⟩ := hl (some a) (.inl rfl) a rfl
      rw [e1, e2]
      have : lenOf x2 ≤ prod dims := by
        cases x2 with
        | none => simp [lenOf]
        | some b => rw [(hl (some b) (.inr rfl) b rfl).1]; exact Nat.le_refl _
      rw [if_neg (by omega), if_pos this]
  rw [hout]
  have hdims : (allocLike x1 x2 dims item).dims = dims := by
    unfold allocLike allocate; split <;> rfl
  refine ⟨hdims, fun idx hb => ?_⟩
  by_cases hF : 1 < dims.length ∧ (flagF x1 && flagF x2) = true
  · have hall : ∀ a, x1 = some a ∨ x2 = some a → a.fContig = true := by
      intro a ha
      have := hF.2
      rw [Bool.and_eq_true] at this
      rcases ha with rfl | rfl
      · exact this.1
      · exact this.2
    refine ⟨fPos idx dims, by rw [hdims]; exact fPos_lt _ _ hb, ?_, fun a ha => ?_⟩
    · unfold allocLike allocate; rw [if_pos hF.1, hF.2]
      exact offs_f item idx dims hb
    · have := (hd a ha).1
      rw [offs_fContig a (hall a ha) idx (this ▸ hb), this]
  · have hall : ∀ a, x1 = some a ∨ x2 = some a → a.cContig = true := by
      rcases hgood with h | h | h
      · intro a ha
        obtain ⟨e1, e2, e3⟩ := hd a ha
        exact cContig_of_strideOk a (by rw [e1]; exact e2) e3 (by rw [e1]; exact h)
      · intro a ha
        by_cases h1 : 1 < dims.length
        · exfalso
          apply hF
          refine ⟨h1, ?_⟩
          have f1 : flagF x1 = true := by
            cases hx1 : x1 with
            | none => rfl
            | some b => exact h b (.inl hx1)
          have f2 : flagF x2 = true := by
            cases hx2 : x2 with
            | none => rfl
            | some b => exact h b (.inr hx2)
          rw [f1, f2]; rfl
        · obtain ⟨e1, e2, e3⟩ := hd a ha
          exact cContig_of_strideOk a (by rw [e1]; exact e2) e3 (by rw [e1]; omega)
      · exact h
    refine ⟨cPos idx dims, by rw [hdims]; exact cPos_lt _ _ hb, ?_, fun a ha => ?_⟩
    · have : (allocLike x1 x2 dims item).strides = cStrides item dims ∧ (allocLike x1 x2 dims item).item = item := by
        unfold allocLike allocate
        by_cases h1 : 1 < dims.length
        · have h2 : (flagF x1 && flagF x2) = false := by
            cases hv : (flagF x1 && flagF x2) with
            | false => rfl
            | true => exact absurd ⟨h1, hv⟩ hF
          rw [if_pos h1, h2]; exact ⟨rfl, rfl⟩
        · rw [if_neg h1]; exact ⟨rfl, rfl⟩
      rw [this.1, this.2]
      exact offs_c item idx dims hb
    · have := (hd a ha).1
      rw [offs_cContig a (hall a ha) idx (this ▸ hb), this]

/-- The same for a given output of the same dimensions which passes its checks. -/
theorem layout_given_partial (x1 x2 : Option Lay) (out : Lay) (hout : outOk x1 x2 out = true) (hw : out.strides.length = out.dims.length)
    (hd : ∀ a, x1 = some a ∨ x2 = some a → a.dims = out.dims ∧ a.strides.length = out.dims.length ∧ strideOk a = true)
    (hgood : out.dims.length ≤ 1 ∨ (out.fContig = true ∧ ∀ a, x1 = some a ∨ x2 = some a → a.fContig = true) ∨
      (out.cContig = true ∧ ∀ a, x1 = some a ∨ x2 = some a → a.cContig = true)) :
    ∀ idx, InBounds idx out.dims → Agree x1 x2 out idx := by
  intro idx hb
  have hs : strideOk out = true := by
    unfold outOk at hout; rw [Bool.and_eq_true] at hout; exact hout.2
  have hc : (out.cContig = true ∧ ∀ a, x1 = some a ∨ x2 = some a → a.cContig = true) → Agree x1 x2 out idx := by
    rintro ⟨h1, h2⟩
    refine ⟨cPos idx out.dims, cPos_lt _ _ hb, offs_cContig out h1 idx hb, fun a ha => ?_⟩
    have := (hd a ha).1
    rw [offs_cContig a (h2 a ha) idx (this ▸ hb), this]
  rcases hgood with h | ⟨h1, h2⟩ | h
  · refine hc ⟨cContig_of_strideOk out hw hs h, fun a ha => ?_⟩
    obtain ⟨e1, e2, e3⟩ := hd a ha
    exact cContig_of_strideOk a (by rw [e1]; exact e2) e3 (by rw [e1]; exact h)
  · refine ⟨fPos idx out.dims, fPos_lt _ _ hb, offs_fContig out h1 idx hb, fun a ha => ?_⟩
    have := (hd a ha).1
    rw [offs_fContig a (h2 a ha) idx (this ▸ hb), this]
  · exact hc h

/-- Only the stride of the first dimension is checked.  Every second column of one row, and a Fortran array with gaps, are taken
for contiguous: the second item is at byte 16 (the third at byte 32), but is read at byte 8 (byte 16). -/
theorem layout_strided_wrong :
    strideOk ⟨[1, 4], [64, 16], 8⟩ = true ∧ offs [0, 1] [64, 16] = 16 ∧
    ¬ Agree (some ⟨[1, 4], [64, 16], 8⟩) none (allocOut (some ⟨[1, 4], [64, 16], 8⟩) none 8) [0, 1] ∧
    strideOk ⟨[2, 3], [8, 32], 8⟩ = true ∧ offs [0, 1] [8, 32] = 32 ∧
    ¬ Agree (some ⟨[2, 3], [8, 32], 8⟩) none (allocOut (some ⟨[2, 3], [8, 32], 8⟩) none 8) [0, 1] := by
  refine ⟨by decide, by decide, ?_, by decide, by decide, ?_⟩
  · rintro ⟨r, _, h1, h2⟩
    have h2 := h2 _ (.inl rfl)
    have e1 : offs [0, 1] (allocOut (some ⟨[1, 4], [64, 16], 8⟩) none 8).strides = 8 := by decide
    have e2 : (allocOut (some ⟨[1, 4], [64, 16], 8⟩) none 8).item = 8 := by decide
    have e3 : offs [0, 1] [64, 16] = 16 := by decide
    rw [e1, e2] at h1
    simp only [e3] at h2
    omega
  · rintro ⟨r, _, h1, h2⟩
    have h2 := h2 _ (.inl rfl)
    have e1 : offs [0, 1] (allocOut (some ⟨[2, 3], [8, 32], 8⟩) none 8).strides = 8 := by decide
    have e2 : (allocOut (some ⟨[2, 3], [8, 32], 8⟩) none 8).item = 8 := by decide
    have e3 : offs [0, 1] [8, 32] = 32 := by decide
    rw [e1, e2] at h1
    simp only [e3] at h2
    omega

/-- Two arrays of dimensions (1, 2, 3), one in C order and one in Fortran order, are both accepted and combined in the order
of the memory. -/
theorem layout_mixed_wrong :
    let a : Lay := ⟨[1, 2, 3], [48, 24, 8], 8⟩
    let b : Lay := ⟨[1, 2, 3], [8, 8, 16], 8⟩
    strideOk a = true ∧ strideOk b = true ∧ a.cContig = true ∧ b.fContig = true ∧
    ¬ Agree (some a) (some b) (allocOut (some a) (some b) 8) [0, 0, 1] := by
  refine ⟨by decide, by decide, by decide, by decide, ?_⟩
  rintro ⟨r, _, h1, h2⟩
  have ha := h2 _ (.inl rfl)
  have hb := h2 _ (.inr rfl)
  simp [offs] at ha hb
  omega

/-- Arrays of the same length and different dimensions are not broadcast: a column and a row of 6 items give a column of 6 (not a
6 by 6 table). -/
theorem layout_shapes_wrong :
    let a : Lay := ⟨[6, 1], [8, 8], 8⟩
    let b : Lay := ⟨[1, 6], [48, 8], 8⟩
    strideOk a = true ∧ strideOk b = true ∧ a.len = b.len ∧ (allocOut (some a) (some b) 8).dims = [6, 1] := by
  decide

/-- A two-dimensional Fortran array and a scalar. -/
example : ∃ a : Lay, a.dims = [2, 3] ∧ strideOk a = true ∧ (allocOut (some a) none 8).strides = [8, 16] ∧
    ∀ idx, InBounds idx [2, 3] → Agree (some a) none (allocOut (some a) none 8) idx := by
  refine ⟨⟨[2, 3], [8, 16], 8⟩, rfl, by decide, by decide, ?_⟩
  refine (layout_partial _ none [2, 3] 8 (.inl (by simp)) ?_ (by decide) (.inr (.inl ?_))).2
  · rintro a (h | h)
    · injection h with h; subst h; exact ⟨rfl, rfl, by decide⟩
    · simp at h
  · rintro a (h | h)
    · injection h with h; subst h; decide
    · simp at h

/-! ## Overlapping memory -/

/-- C94: an input no larger than the output which passes the test shares no byte with it or is the same stretch. -/
theorem overlap_sound (p n out outn : Nat) (hle : n ≤ outn) (h : overlap p n out outn = false) :
    p + n ≤ out ∨ out + outn ≤ p ∨ (p = out ∧ n = outn) := by
  unfold overlap at h
  simp only [Bool.or_eq_false_iff, Bool.and_eq_false_iff, decide_eq_false_iff_not] at h
  omega

/-- The test never rejects memory which is apart, nor the same stretch. -/
theorem overlap_complete (p n out outn : Nat) (h : p + n ≤ out ∨ out + outn ≤ p ∨ (p = out ∧ n = outn)) :
    overlap p n out outn = false := by
  unfold overlap
  simp only [Bool.or_eq_false_iff, Bool.and_eq_false_iff, decide_eq_false_iff_not]
  omega

/-- An input which shares nothing with the output, or is the output. -/
def Apart (s out : Src) (n : Nat) : Prop :=
  s.addr + n * s.item ≤ out.addr ∨ out.addr + n * out.item ≤ s.addr ∨ (s.addr = out.addr ∧ s.item = out.item)

theorem readMem_write (m : Mem) (p n q : Nat) (l : List (BitVec 8)) (h : p + n ≤ q ∨ q + l.length ≤ p) :
    readMem (writeMem m q l) p n = readMem m p n := by
  apply List.map_congr_left
  intro k hk
  have hk := List.mem_range.mp hk
  unfold writeMem
  rw [if_neg (by omega)]

theorem readMem_write_self (m : Mem) (p : Nat) (l : List (BitVec 8)) : readMem (writeMem m p l) p l.length = l := by
  apply List.ext_getElem
  · simp [readMem]
  · intro k h1 h2
    simp only [readMem, List.getElem_map, List.getElem_range]
    unfold writeMem
    rw [if_pos (by omega), Nat.add_sub_cancel_left]
    simp [h2]

/-- Rows which are different do not share bytes. -/
theorem rows_apart (i j s : Nat) (h : i ≠ j) : i * s + s ≤ j * s ∨ j * s + s ≤ i * s := by
  rcases Nat.lt_or_gt_of_ne h with h | h
  · left
    have : (i + 1) * s ≤ j * s := Nat.mul_le_mul_right _ h
    rw [Nat.add_mul] at this; omega
  · right
    have : (j + 1) * s ≤ i * s := Nat.mul_le_mul_right _ h
    rw [Nat.add_mul] at this; omega

/-- A row of an input is not changed by storing another row of the output. -/
theorem src_unchanged (s out : Src) (n : Nat) (h : Apart s out n) (m : Mem) (i j : Nat) (hi : i < n) (hj : j < n) (hij : i ≠ j)
    (l : List (BitVec 8)) (hl : l.length = out.item) :
    readMem (writeMem m (out.addr + j * out.item) l) (s.addr + i * s.item) s.item = readMem m (s.addr + i * s.item) s.item := by
  apply readMem_write
  rw [hl]
  have h1 : (i + 1) * s.item ≤ n * s.item := Nat.mul_le_mul_right _ hi
  have h2 : (j + 1) * out.item ≤ n * out.item := Nat.mul_le_mul_right _ hj
  rw [Nat.add_mul] at h1 h2
  rcases h with h | h | ⟨h, h'⟩
  · left; omega
  · right; omega
  · rw [h, h']
    have := rows_apart i j out.item hij
    omega

/-- C94: whatever the order of the rows and however they are grouped into registers and blocks, the output is as if the inputs
had been copied before. -/
theorem memRun_exact (f : List (BitVec 8) → List (BitVec 8) → List (BitVec 8)) (s1 s2 out : Src) (n : Nat)
    (hf : ∀ x y, (f x y).length = out.item) (h1 : Apart s1 out n) (h2 : Apart s2 out n) (m : Mem) (steps : List (List Nat))
    (hs : steps.flatten.Perm (List.range n)) :
    ∀ i, i < n → readMem (memRun f s1 s2 out m steps) (out.addr + i * out.item) out.item
      = f (readMem m (s1.addr + i * s1.item) s1.item) (readMem m (s2.addr + i * s2.item) s2.item) := by
  -- the results of the initial memory
  let res : Nat → List (BitVec 8) := fun i => f (readMem m (s1.addr + i * s1.item) s1.item) (readMem m (s2.addr + i * s2.item) s2.item)
  -- `done` rows are in the output; rows not yet done are unchanged in the inputs
  let Inv : List Nat → Mem → Prop := fun done m' =>
    (∀ i ∈ done, readMem m' (out.addr + i * out.item) out.item = res i) ∧
    (∀ i, i < n → i ∉ done → readMem m' (s1.addr + i * s1.item) s1.item = readMem m (s1.addr + i * s1.item) s1.item ∧
      readMem m' (s2.addr + i * s2.item) s2.item = readMem m (s2.addr + i * s2.item) s2.item)
  have hres : ∀ i, (res i).length = out.item := fun i => hf _ _
  -- storing one row
  have hone : ∀ (done : List Nat) (m' : Mem) (i : Nat), i < n → (∀ j ∈ done, j < n) → i ∉ done → Inv done m' →
      Inv (i :: done) (writeMem m' (out.addr + i * out.item) (res i)) := by
    intro done m' i hi hd hni ⟨g1, g2⟩
    constructor
    · intro j hj
      by_cases hij : j = i
      · subst hij
        have := readMem_write_self m' (out.addr + j * out.item) (res j)
        rwa [hres j] at this
      · have hj' : j ∈ done := by simpa [hij] using hj
        rw [src_unchanged out out n (.inr (.inr ⟨rfl, rfl⟩)) m' j i (hd j hj') hi hij _ (hres i)]
        exact g1 j hj'
    · intro j hj hnj
      have hij : j ≠ i := fun h => hnj (by simp [h])
      have hnd : j ∉ done := fun h => hnj (List.mem_cons_of_mem _ h)
      rw [src_unchanged s1 out n h1 m' j i hj hi hij _ (hres i), src_unchanged s2 out n h2 m' j i hj hi hij _ (hres i)]
      exact g2 j hj hnd
  -- storing the rows of one step, all read from `m0`
  have hrows : ∀ (rows done : List Nat) (m0 m' : Mem), (∀ j ∈ rows, j < n) → (∀ j ∈ done, j < n) → rows.Nodup →
      (∀ j ∈ rows, j ∉ done) →
      (∀ j ∈ rows, f (readMem m0 (s1.addr + j * s1.item) s1.item) (readMem m0 (s2.addr + j * s2.item) s2.item) = res j) →
      Inv done m' →
      Inv (rows.reverse ++ done) (rows.foldl (fun (m' : Mem) (i : Nat) => writeMem m' (out.addr + i * out.item)
        (f (readMem m0 (s1.addr + i * s1.item) s1.item) (readMem m0 (s2.addr + i * s2.item) s2.item))) m') := by
    intro rows
    induction rows with
    | nil => intro done m0 m' _ _ _ _ _ h; exact h
    | cons i rows ih =>
      intro done m0 m' hr hd hnd hdis hval hinv
      rw [List.foldl_cons, hval i (by simp)]
      have hnd' := List.nodup_cons.mp hnd
      have := ih (i :: done) m0 (writeMem m' (out.addr + i * out.item) (res i)) (fun j hj => hr j (List.mem_cons_of_mem _ hj))
        (by intro j hj; rcases List.mem_cons.mp hj with rfl | hj; exact hr _ (by simp); exact hd j hj)
        hnd'.2
        (by
          intro j hj hj'
          rcases List.mem_cons.mp hj' with rfl | hj'
          · exact hnd'.1 hj
          · exact hdis j (List.mem_cons_of_mem _ hj) hj')
        (fun j hj => hval j (List.mem_cons_of_mem _ hj))
        (hone done m' i (hr i (by simp)) hd (hdis i (by simp)) hinv)
      simpa using this
  -- all steps
  have hsteps : ∀ (steps : List (List Nat)) (done : List Nat) (m' : Mem), (∀ j ∈ steps.flatten, j < n) → (∀ j ∈ done, j < n) →
      steps.flatten.Nodup → (∀ j ∈ steps.flatten, j ∉ done) → Inv done m' →
      ∀ j, j ∈ steps.flatten ∨ j ∈ done → readMem (memRun f s1 s2 out m' steps) (out.addr + j * out.item) out.item = res j := by
    intro steps
    induction steps with
    | nil =>
      intro done m' _ _ _ _ hinv j hj
      simp only [List.flatten_nil, List.not_mem_nil, false_or] at hj
      exact hinv.1 j hj
    | cons rows steps ih =>
      intro done m' hr hd hnd hdis hinv j hj
      rw [List.flatten_cons] at hr hnd hdis hj
      obtain ⟨n1, n2, n3⟩ := List.nodup_append.mp hnd
      have key := hrows rows done m' m' (fun j hj => hr j (List.mem_append_left _ hj)) hd n1
        (fun j hj => hdis j (List.mem_append_left _ hj))
        (fun j hj => by
          have := hinv.2 j (hr j (List.mem_append_left _ hj)) (hdis j (List.mem_append_left _ hj))
          rw [this.1, this.2])
        hinv
      refine ih (rows.reverse ++ done) _ (fun j hj => hr j (List.mem_append_right _ hj)) ?_ n2 ?_ key j ?_
      · intro j hj
        rcases List.mem_append.mp hj with hj | hj
        · exact hr j (List.mem_append_left _ (List.mem_reverse.mp hj))
        · exact hd j hj
      · intro j hj hj'
        rcases List.mem_append.mp hj' with hj' | hj'
        · exact n3 j (List.mem_reverse.mp hj') j hj rfl
        · exact hdis j (List.mem_append_right _ hj) hj'
      · rcases hj with hj | hj
        · rcases List.mem_append.mp hj with hj | hj
          · exact .inr (List.mem_append_left _ (List.mem_reverse.mpr hj))
          · exact .inl hj
        · exact .inr (List.mem_append_right _ hj)
  intro i hi
  exact hsteps steps [] m (fun j hj => by simpa using hs.mem_iff.mp hj) (by simp) (hs.nodup_iff.mpr List.nodup_range) (by simp)
    ⟨by simp, fun i _ _ => ⟨rfl, rfl⟩⟩ i (.inl (hs.mem_iff.mpr (by simpa using hi)))

/-- What the test lets through is harmless if the items of the input are no larger than those of the output. -/
theorem apart_of_overlap (s out : Src) (n outLen : Nat) (hn : 0 < n) (hlen : n ≤ outLen) (hitem : s.item ≤ out.item)
    (h : overlap s.addr (n * s.item) out.addr (outLen * out.item) = false) : Apart s out n := by
  have hle : n * s.item ≤ outLen * out.item := Nat.mul_le_mul hlen hitem
  have hle2 : n * out.item ≤ outLen * out.item := Nat.mul_le_mul_right _ hlen
  rcases overlap_sound _ _ _ _ hle h with h | h | ⟨h, h'⟩
  · exact .inl h
  · exact .inr (.inl (by omega))
  · refine .inr (.inr ⟨h, ?_⟩)
    by_cases he : s.item = out.item
    · exact he
    · exfalso
      have h1 : n * (s.item + 1) ≤ n * out.item := Nat.mul_le_mul_left _ (by omega)
      rw [Nat.mul_add] at h1
      omega

/-- C94: an operation into a given output gives what it would if the inputs were copied before, under every order of rows, if the
items of the inputs are no larger than those of the output.  `overlap` is tested for both inputs. -/
theorem alias_partial (f : List (BitVec 8) → List (BitVec 8) → List (BitVec 8)) (s1 s2 out : Src) (n outLen : Nat) (hn : 0 < n)
    (hlen : n ≤ outLen) (hf : ∀ x y, (f x y).length = out.item)
    (h1 : s1.item ≤ out.item) (h2 : s2.item ≤ out.item)
    (o1 : overlap s1.addr (n * s1.item) out.addr (outLen * out.item) = false)
    (o2 : overlap s2.addr (n * s2.item) out.addr (outLen * out.item) = false)
    (m : Mem) (steps : List (List Nat)) (hs : steps.flatten.Perm (List.range n)) :
    ∀ i, i < n → readMem (memRun f s1 s2 out m steps) (out.addr + i * out.item) out.item
      = f (readMem m (s1.addr + i * s1.item) s1.item) (readMem m (s2.addr + i * s2.item) s2.item) :=
  memRun_exact f s1 s2 out n hf (apart_of_overlap s1 out n outLen hn hlen h1 o1)
    (apart_of_overlap s2 out n outLen hn hlen h2 o2) m steps hs

/-- With larger items in the input, an output within the input is not noticed: two 8-byte numbers at 100 are compared with another
two at 200, the results stored at 109 and 110; row by row the second result is computed from bytes overwritten by the first. -/
theorem alias_wrong :
    let f : List (BitVec 8) → List (BitVec 8) → List (BitVec 8) := fun x y => [if x = y then 1 else 0]
    let m : Mem := fun _ => 0
    overlap 100 16 109 2 = false ∧ overlap 200 16 109 2 = false ∧
    readMem (memRun f ⟨100, 8⟩ ⟨200, 8⟩ ⟨109, 1⟩ m [[0], [1]]) 110 1 = [0] ∧
    f (readMem m 108 8) (readMem m 208 8) = [1] := by
  decide

/-- In place: nine rows of 4 bytes, a register of eight and a single row. -/
example : ∃ steps : List (List Nat), steps.flatten.Perm (List.range 9) ∧ steps.length = 2 ∧
    overlap 64 36 64 36 = false ∧
    readMem (memRun (fun x y => List.zipWith (· + ·) x y) ⟨64, 4⟩ ⟨200, 4⟩ ⟨64, 4⟩ (fun a => BitVec.ofNat 8 a) steps) 96 4
      = [BitVec.ofNat 8 (96 + 232), BitVec.ofNat 8 (97 + 233), BitVec.ofNat 8 (98 + 234), BitVec.ofNat 8 (99 + 235)] :=
  ⟨[[0, 1, 2, 3, 4, 5, 6, 7], [8]], List.Perm.refl _, rfl, by decide, by decide⟩

end Riptide.Binary
