import Verif.Stack.RotateLemmas
/-! # What is in stacked columns in Fortran order -/
namespace Riptide.Stack
open Riptide.Sds

/-! ### Which order a column has -/

theorem compatShape_f {m o : Block} (hl : 2 ≤ m.dims.length) (h : (compatShape true m o).2.1 = true) (hr : (compatShape true m o).2.2 = false) :
    (compatShape true m o).1.f = (m.f && o.f) ∧ (compatShape true m o).1.dims.length = m.dims.length := by
  unfold compatShape at h hr ⊢
  split at h
  · cases h
  · rename_i h1
    rw [if_neg h1] at hr ⊢
    rw [if_pos (by omega)] at hr ⊢
    dsimp only at hr ⊢
    by_cases h2 : ¬(o.c = true ∧ o.f = true) ∧ m.f ≠ o.f
    · rw [if_pos h2] at hr ⊢
      by_cases h3 : True ∧ m.c = true ∧ m.f = true
      · rw [if_pos (by simpa using h3)]
        refine ⟨?_, rfl⟩
        show o.f = (m.f && o.f)
        rw [h3.2.2, Bool.true_and]
      · rw [if_neg (by simpa using h3)] at hr
        cases hr
    · rw [if_neg h2]
      refine ⟨?_, rfl⟩
      show m.f = (m.f && o.f)
      cases hm : m.f <;> cases ho : o.f <;> simp_all

theorem compatType_flags (fix : Bool) (m o : Block) : (compatType fix m o).1.f = m.f ∧ (compatType fix m o).1.dims = m.dims := by
  unfold compatType
  dsimp only
  repeat' split
  all_goals exact ⟨rfl, rfl⟩

theorem addColumn_f {m o k : Block} (hl : 2 ≤ m.dims.length) (h : addColumn (some m) o = some k) :
    k.f = (m.f && o.f) ∧ k.dims.length = m.dims.length := by
  unfold addColumn at h
  dsimp only at h
  split at h
  · cases h
  · split at h
    · rename_i hc
      cases h
      obtain ⟨t1, t2⟩ := compatType_flags true m o
      unfold compat at hc ⊢
      dsimp only at hc ⊢
      rw [Bool.and_eq_true, Bool.and_eq_true] at hc
      have := compatShape_f (m := (compatType true m o).1) (o := o) (by rw [t2]; exact hl) hc.1.2 (by simpa using hc.2)
      rw [t1, t2] at this
      exact this
    · cases h

theorem settle_f (l : List Block) (m : Block) : (settle m l).f = m.f ∧ (settle m l).dims.length = m.dims.length := by
  unfold settle
  induction l generalizing m with
  | nil => exact ⟨rfl, rfl⟩
  | cons o l ih =>
    rw [List.foldl_cons]
    obtain ⟨h1, h2⟩ := ih (compat false m o).1
    obtain ⟨t1, t2⟩ := compatType_flags false m o
    have : (compat false m o).1 = (compatType false m o).1 := by
      unfold compat compatShape
      dsimp only
      repeat' split
      all_goals first | rfl | simp_all
    rw [h1, h2, this, t1, t2]
    exact ⟨rfl, rfl⟩

/-- **C117, order.** A column of more than one dimension is stacked in Fortran order just if it is in Fortran order in all files (a column with a
single row or a single item in each row is in both orders). -/
theorem order_all {l : List Block} {k : Block} (hk : king l = some k) (hl : 2 ≤ k.dims.length) : inColumns k = true ↔ ∀ b ∈ l, b.f = true := by
  have hfold : ∀ (l : List Block) (m k : Block), 2 ≤ m.dims.length → l.foldl addColumn (some m) = some k →
      (k.f = true ↔ m.f = true ∧ ∀ b ∈ l, b.f = true) := by
    intro l
    induction l with
    | nil => intro m k _ h; cases h; simp
    | cons o l ih =>
      intro m k hm h
      rw [List.foldl_cons] at h
      cases ho : addColumn (some m) o with
      | none => rw [ho, fold_none] at h; cases h
      | some m1 =>
        rw [ho] at h
        obtain ⟨f1, f2⟩ := addColumn_f hm ho
        rw [ih m1 k (by omega) h, f1]
        simp [and_assoc]
  have hdims : ∀ (l : List Block) (m k : Block), l.foldl addColumn (some m) = some k → k.dims.length = m.dims.length := by
    intro l
    induction l with
    | nil => intro m k h; cases h; rfl
    | cons o l ih =>
      intro m k h
      rw [List.foldl_cons] at h
      cases ho : addColumn (some m) o with
      | none => rw [ho, fold_none] at h; cases h
      | some m1 =>
        rw [ho] at h
        rw [ih m1 k h]
        unfold addColumn at ho
        dsimp only at ho
        split at ho
        · cases ho
        · split at ho
          · cases ho
            have t2 := (compatType_flags true m o).2
            unfold compat compatShape
            dsimp only
            repeat' split
            all_goals exact congrArg List.length t2
          · cases ho
  unfold king at hk
  cases l with
  | nil => cases hk
  | cons b l =>
    unfold tally at hk
    dsimp only at hk
    split at hk
    · cases ht : l.foldl addColumn (some b) with
      | none => rw [ht] at hk; cases hk
      | some m =>
        rw [ht] at hk
        have hk' : settle m (b :: l) = k := Option.some.inj hk
        obtain ⟨s1, s2⟩ := settle_f (b :: l) m
        rw [hk'] at s1 s2
        have := hfold l b m (by rw [← hdims l b m ht, ← s2]; exact hl) ht
        unfold inColumns
        rw [decide_eq_true hl, Bool.true_and, s1, this]
        simp
    · cases hk

/-! ### Where the items are -/

theorem piece_ext {s a b : Nat} {m d : List Nat} (h : ∀ j, j < s → m[a * s + j]? = d[b * s + j]?) : piece s m a = piece s d b := by
  unfold piece
  apply List.ext_getElem?
  intro j
  by_cases hj : j < s
  · rw [List.getElem?_take_of_lt hj, List.getElem?_take_of_lt hj, List.getElem?_drop, List.getElem?_drop]
    exact h j hj
  · rw [List.getElem?_eq_none (by rw [List.length_take]; omega), List.getElem?_eq_none (by rw [List.length_take]; omega)]

/-- The rows a packet sets. -/
def setRows (x : Packet) : Nat := if x.part.block = none then x.gap else x.part.own

/-- What a packet writes to the byte of a row and column. -/
def setBytes (k : Block) (x : Packet) (c r j : Nat) : Option Nat :=
  if x.part.block = none then (le k.item (defaultBits k.dtype))[j]? else x.part.data[(c * x.part.own + r) * k.item + j]?

theorem packet_sets {k : Block} {total w : Nat} {x : Packet} (hcols : cols k = w) (hw : k.dims.getD 1 0 = w) (hx : x.off + setRows x ≤ total)
    (hgap : x.part.block = none → special k.dtype = some k.item)
    (hb : ∀ b, x.part.block = some b → (compat false k b).2.ok = true ∧ rowSize b = k.item * w ∧ x.part.data.length = x.part.own * rowSize b) :
    Sets k.item total w x.off (setRows x) (fillColumns k total x) (setBytes k x) := by
  unfold fillColumns
  cases hbl : x.part.block with
  | none =>
    have e1 : setRows x = x.gap := by unfold setRows; rw [if_pos hbl]
    have e2 : setBytes k x = fun _ _ j => (le k.item (defaultBits k.dtype))[j]? := by
      funext c r j; unfold setBytes; rw [if_pos hbl]
    rw [e1] at hx ⊢
    rw [e2]
    unfold gapColumns
    rw [hgap hbl, hcols]
    exact gap_sets (le_length _ _) hx
  | some b =>
    obtain ⟨b1, b2, b3⟩ := hb b hbl
    have e1 : setRows x = x.part.own := by unfold setRows; rw [if_neg (by rw [hbl]; simp)]
    have e2 : setBytes k x = fun c r j => x.part.data[(c * x.part.own + r) * k.item + j]? := by
      funext c r j; unfold setBytes; rw [if_neg (by rw [hbl]; simp)]
    rw [e1] at hx ⊢
    rw [e2]
    dsimp only
    rw [b1]
    simp only [Bool.not_true, Bool.false_eq_true, if_false]
    by_cases h0 : x.part.own = 0
    · simp only [h0, if_true]
      exact none_sets
    · simp only [h0, if_false]
      by_cases hr : rowSize b = 0
      · simp only [hr, if_true]
        intro m _
        refine ⟨m, rfl, rfl, ?_⟩
        intro c r j hc _ hj
        rw [b2] at hr
        rcases Nat.mul_eq_zero.mp hr with h | h <;> omega
      · simp only [hr, if_false]
        rw [hw]
        intro m hm
        have hd : x.part.data.length = w * (x.part.own * k.item) := by
          rw [b3, b2, Nat.mul_comm k.item, ← Nat.mul_assoc, Nat.mul_comm x.part.own, Nat.mul_assoc]
        obtain ⟨m', h1, h2, h3⟩ := rotate_sets hx w hd w (Nat.le_refl _) m hm
        refine ⟨m', h1, h2, ?_⟩
        intro c r j hc hr hj
        rw [h3 c r j hc hr hj]
        by_cases h : x.off ≤ r ∧ r < x.off + x.part.own
        · rw [if_pos h, if_pos ⟨hc, h⟩]
        · rw [if_neg h, if_neg (fun hh => h hh.2)]

/-- **C117.** Whatever the order in which the packets are done, tables in Fortran order whose items have the same type are stacked: the item in row
`r` and column `c` of a file is in row `r` of its rows and in column `c` of the stacked table, the rows of a file which lacks the column are invalid
(False for `bool`), and rows which are reserved are left alone unless the last file lacks the column.  Missing: items of different types and strings
of different lengths (`columns_not_converted`, `columns_not_stretched`), more than two dimensions (`only_two_dimensions`), files which lack a column of `long` or
of anything but numbers (`gap_null`). -/
theorem tables_stacked_partial {l : List Part} {w extra : Nat} (h : Tables l w)
    (hgap : (∃ p ∈ l, p.block = none) → ∀ b ∈ blocks l, b.dtype ∈ numTypes ∧ b.item = size b.dtype) :
    ∃ k, king (blocks l) = some k ∧ inColumns k = true ∧ ∀ order, order.Perm (packets extra 0 l) → ∀ m : List Nat,
      m.length = totalRows extra l * w * k.item → ∃ m', fillAny k (totalRows extra l) order m = some m' ∧ m'.length = m.length ∧
        (∀ (i : Nat) (p : Part), l[i]? = some p → p.block ≠ none → ∀ c r, c < w → r < p.rows →
          piece k.item m' (c * totalRows extra l + (before l i + r)) = piece k.item p.data (c * p.rows + r)) ∧
        (∀ (i : Nat) (p : Part), l[i]? = some p → p.block = none → ∀ a, itemOf k.type = some a → ∀ c r, c < w →
          r < (p.rows + if i + 1 = l.length then extra else 0) →
          value a (item a.size m' (c * totalRows extra l + (before l i + r))) = if k.type = 0 then .num 0 else .invalid) ∧
        ((∀ p, l.getLast? = some p → p.block ≠ none) → ∀ c r, c < w → before l l.length ≤ r → r < totalRows extra l →
          piece k.item m' (c * totalRows extra l + r) = piece k.item m (c * totalRows extra l + r)) := by
  cases hbl : blocks l with
  | nil => exact absurd hbl h.present
  | cons k bs =>
    have hk : k ∈ blocks l := by rw [hbl]; simp
    have hrel : ∀ o ∈ blocks l, k.type = o.type ∧ k.item = o.item ∧ k.dims.drop 1 = o.dims.drop 1 ∧ k.dims.length = o.dims.length ∧ o.f = true := by
      intro o ho
      obtain ⟨n, hn⟩ := h.dims k hk
      obtain ⟨n', hn'⟩ := h.dims o ho
      refine ⟨(h.same k hk o ho).1, (h.same k hk o ho).2, ?_, ?_, h.order o ho⟩
      · rw [hn, hn']; rfl
      · rw [hn, hn']; rfl
    have hking : king (k :: bs) = some k := king_same (h.order k hk) (fun o ho => hrel o (by rw [hbl]; simp [ho]))
    obtain ⟨kn, hkn⟩ := h.dims k hk
    have hin : inColumns k = true := by unfold inColumns; rw [hkn, h.order k hk]; rfl
    refine ⟨k, hking, hin, ?_⟩
    intro order hp m hm
    have hcols : ∀ b ∈ blocks l, cols b = w := by
      intro b hb
      obtain ⟨n, hn⟩ := h.dims b hb
      unfold cols
      rw [hn]
      simp
    have hspecial : (∃ p ∈ l, p.block = none) → special k.dtype = some k.item ∧ k.dtype = k.type := by
      intro hg
      obtain ⟨g1, g2⟩ := hgap hg k hk
      refine ⟨?_, ?_⟩
      · unfold special
        rw [if_pos (by simpa [numTypes] using g1), g2]
        rfl
      · have := num_lt _ g1
        unfold Block.type fixDType
        rw [if_neg this.2.1, if_neg this.2.2]
    have hrows : ∀ p ∈ l, p.block ≠ none → p.rows = p.own := by
      intro p hp hb
      unfold Part.rows
      split
      · rename_i h0; rw [h.empty p hp hb h0, h0]
      · rfl
    have hset : ∀ x ∈ packets extra 0 l, setRows x ≤ x.gap ∧ (x.part.block ≠ none → setRows x = x.part.rows) := by
      intro x hx
      obtain ⟨x1, _, x3, _, _⟩ := packets_mem extra l 0 x hx
      unfold setRows
      by_cases hb : x.part.block = none
      · rw [if_pos hb]
        exact ⟨Nat.le_refl _, fun h => absurd hb h⟩
      · rw [if_neg hb, ← hrows x.part x1 hb]
        exact ⟨x3, fun _ => rfl⟩
    have hsets : ∀ x ∈ packets extra 0 l,
        Sets k.item (totalRows extra l) w x.off (setRows x) (fillColumns k (totalRows extra l) x) (setBytes k x) := by
      intro x hx
      obtain ⟨x1, _, _, _, x5⟩ := packets_mem extra l 0 x hx
      refine packet_sets (hcols k hk) (by rw [hkn]; rfl) (by have := (hset x hx).1; omega) ?_ ?_
      · intro hb
        exact (hspecial ⟨x.part, x1, hb⟩).1
      · intro b hb
        have hb' : b ∈ blocks l := mem_blocks.mpr ⟨x.part, x1, hb⟩
        obtain ⟨c1, c2, c3, c4, c5⟩ := hrel b hb'
        refine ⟨?_, ?_, h.bytes x.part x1 b hb⟩
        · rw [compat_same c1 c2 c3 c4 ((h.order k hk).trans c5.symm)]
        · unfold rowSize; rw [hcols b hb', c2]
    have hapart : (packets extra 0 l).Pairwise (fun x y => x.off + setRows x ≤ y.off ∨ y.off + setRows y ≤ x.off) := by
      refine List.Pairwise.imp_of_mem ?_ (packets_apart extra l 0)
      intro x y hx _ hxy
      have := (hset x hx).1
      omega
    obtain ⟨m', r1, r2, r3⟩ := fillAllColumns_sets order (fun x hx => hsets x (hp.mem_iff.mp hx))
      ((hp.pairwise_iff (fun {x y} h => Or.symm h)).mpr hapart) m hm
    have hget : ∀ (i : Nat) (p : Part), l[i]? = some p →
        ⟨before l i, p.rows + (if i + 1 = l.length then extra else 0), p⟩ ∈ packets extra 0 l := by
      intro i p hi
      have := packets_get extra l 0 i p hi
      rw [Nat.zero_add] at this
      exact List.mem_of_getElem? this
    refine ⟨m', ?_, r2, ?_, ?_, ?_⟩
    · unfold fillAny
      rw [if_pos hin]
      exact r1
    · intro i p hi hb c r hc hr
      have hx := hget i p hi
      have hpl := List.mem_of_getElem? hi
      have hown := hrows p hpl hb
      obtain ⟨_, _, _, _, x5⟩ := packets_mem extra l 0 _ hx
      obtain ⟨s1, s2⟩ := hset _ hx
      have s2 := s2 hb
      dsimp only at x5 s2
      refine piece_ext ?_
      intro j hj
      have := (r3 c (before l i + r) j hc (by omega) hj).1 _ (hp.mem_iff.mpr hx) (by dsimp only; omega) (by rw [s2]; dsimp only; omega)
      rw [this]
      unfold setBytes
      dsimp only
      rw [if_neg hb, Nat.add_sub_cancel_left, hown]
    · intro i p hi hb a ha c r hc hr
      have hx := hget i p hi
      have hpl := List.mem_of_getElem? hi
      obtain ⟨sp1, sp2⟩ := hspecial ⟨p, hpl, hb⟩
      obtain ⟨_, _, _, _, x5⟩ := packets_mem extra l 0 _ hx
      have s1 : setRows ⟨before l i, p.rows + (if i + 1 = l.length then extra else 0), p⟩ = p.rows + (if i + 1 = l.length then extra else 0) := by
        unfold setRows
        rw [if_pos hb]
      have hka : k.item = a.size := by
        obtain ⟨g1, g2⟩ := hgap ⟨p, hpl, hb⟩ k hk
        have h13 : k.dtype ≠ 13 := by
          intro e
          rw [← sp2, e] at ha
          cases ha
        obtain ⟨a', e1, e2⟩ := item_size _ g1 h13
        rw [sp2, ha] at e1
        cases e1
        rw [g2, e2]
      have hpc : piece a.size m' (c * totalRows extra l + (before l i + r)) = piece a.size (le a.size (defaultBits k.type)) 0 := by
        refine piece_ext ?_
        intro j hj
        rw [← hka] at hj ⊢
        have := (r3 c (before l i + r) j hc (by dsimp only at x5; omega) hj).1 _ (hp.mem_iff.mpr hx) (by dsimp only; omega)
          (by rw [s1]; dsimp only; omega)
        rw [this]
        unfold setBytes
        dsimp only
        rw [if_pos hb, sp2, Nat.zero_mul, Nat.zero_add]
      have : item a.size m' (c * totalRows extra l + (before l i + r)) = unle (le a.size (defaultBits k.type)) := by
        show unle (piece a.size m' (c * totalRows extra l + (before l i + r))) = _
        rw [hpc]
        unfold piece
        rw [Nat.zero_mul, List.drop_zero, List.take_of_length_le (Nat.le_of_eq (le_length _ _))]
      rw [this]
      exact gap_value ha
    · intro hlast c r hc hr1 hr2
      refine piece_ext ?_
      intro j hj
      refine (r3 c r j hc hr2 hj).2 ?_
      intro x hx
      right
      have hx := hp.mem_iff.mp hx
      obtain ⟨y1, y2⟩ := packets_rows extra l 0 x hx
      have hfull : before l l.length = (l.map Part.rows).sum := by unfold before; rw [List.take_length]
      obtain ⟨s1, s2⟩ := hset x hx
      by_cases hb : x.part.block = none
      · rcases y2 with y2 | y2
        · omega
        · exact absurd hb (hlast _ y2)
      · have := s2 hb
        omega

/-! ### Where it goes wrong -/

/-- A file which lacks a column of `long` (the type of 64-bit integers on Linux) makes the worker call a null pointer, and likewise for complex numbers,
strings and all other types. -/
theorem gap_null {k : Block} {total : Nat} {x : Packet} {m : List Nat} (hk : k.dtype ∉ numTypes) (hx : x.part.block = none) :
    fillColumns k total x m = none := by
  unfold fillColumns
  rw [hx]
  dsimp only
  unfold gapColumns special
  rw [if_neg (by simpa [numTypes] using hk)]

/-- Items of another type are not converted: 2^62 as an unsigned integer becomes 2 in a column of floating point numbers. -/
theorem columns_not_converted : ∃ (l : List Part) (k : Block) (p : Part) (c a : Item),
    blocks l = [⟨10, 8, [1, 1], true, true⟩, ⟨12, 8, [1, 1], true, true⟩] ∧ king (blocks l) = some k ∧ l[0]? = some p ∧
    itemOf 10 = some c ∧ itemOf k.type = some a ∧ value c (item c.size p.data 0) = .num (2 ^ 62) ∧
    ∀ m : List Nat, m.length = totalRows 0 l * a.size → ∃ m', fillAny k (totalRows 0 l) (packets 0 0 l) m = some m' ∧
      value a (item a.size m' 0) = .num 2 := by
  refine ⟨[⟨some ⟨10, 8, [1, 1], true, true⟩, [0, 0, 0, 0, 0, 0, 0, 64], 1⟩, ⟨some ⟨12, 8, [1, 1], true, true⟩, [0, 0, 0, 0, 0, 0, 0, 0], 1⟩],
    ⟨12, 8, [1, 1], true, true⟩, ⟨some ⟨10, 8, [1, 1], true, true⟩, [0, 0, 0, 0, 0, 0, 0, 64], 1⟩, _, _, rfl, by decide, rfl, rfl, rfl, by decide +kernel, ?_⟩
  intro m hm
  match m, hm with
  | [a, b, c, d, e, f, g, h, i, j, k, l, m, n, o, p], _ =>
    refine ⟨[0, 0, 0, 0, 0, 0, 0, 64, 0, 0, 0, 0, 0, 0, 0, 0], rfl, by decide +kernel⟩

/-- Items which are smaller than those of the column are read over the end of the buffer: a single row of 16-bit integers with one of 32 bits. -/
theorem columns_overread : ∃ (l : List Part) (k : Block),
    blocks l = [⟨3, 2, [1, 1], true, true⟩, ⟨5, 4, [1, 1], true, true⟩] ∧ king (blocks l) = some k ∧
    (∀ p ∈ l, ∀ b, p.block = some b → p.data.length = p.own * rowSize b) ∧
    ∀ m : List Nat, fillAny k (totalRows 0 l) (packets 0 0 l) m = none := by
  refine ⟨[⟨some ⟨3, 2, [1, 1], true, true⟩, [1, 0], 1⟩, ⟨some ⟨5, 4, [1, 1], true, true⟩, [2, 0, 0, 0], 1⟩],
    ⟨5, 4, [1, 1], true, true⟩, rfl, by decide, ?_, fun m => rfl⟩
  intro p hp b hb
  simp at hp
  rcases hp with rfl | rfl <;> cases hb <;> rfl

/-- Strings which are shorter than those of the column are not stretched; they are read over the end of the buffer. -/
theorem columns_not_stretched : ∃ (l : List Part) (k : Block),
    blocks l = [⟨18, 1, [1, 1], true, true⟩, ⟨18, 2, [1, 1], true, true⟩] ∧ king (blocks l) = some k ∧
    (∀ p ∈ l, ∀ b, p.block = some b → p.data.length = p.own * rowSize b) ∧
    ∀ m : List Nat, fillAny k (totalRows 0 l) (packets 0 0 l) m = none := by
  refine ⟨[⟨some ⟨18, 1, [1, 1], true, true⟩, [97], 1⟩, ⟨some ⟨18, 2, [1, 1], true, true⟩, [98, 99], 1⟩],
    ⟨18, 2, [1, 1], true, true⟩, rfl, by decide, ?_, fun m => rfl⟩
  intro p hp b hb
  simp at hp
  rcases hp with rfl | rfl <;> cases hb <;> rfl

/-- Of more than two dimensions only the second is copied: of the four items of a row of 2 × 2 two are never written. -/
theorem only_two_dimensions : ∃ (l : List Part) (k : Block), blocks l = [⟨1, 1, [1, 2, 2], false, true⟩] ∧ king (blocks l) = some k ∧
    (∀ p ∈ l, ∀ b, p.block = some b → p.data.length = p.own * rowSize b) ∧
    ∀ m : List Nat, m.length = totalRows 0 l * rowSize k → ∃ m', fillAny k (totalRows 0 l) (packets 0 0 l) m = some m' ∧
      ∀ i, 2 ≤ i → m'[i]? = m[i]? := by
  refine ⟨[⟨some ⟨1, 1, [1, 2, 2], false, true⟩, [1, 2, 3, 4], 1⟩], ⟨1, 1, [1, 2, 2], false, true⟩, rfl, by decide, ?_, ?_⟩
  · intro p hp b hb
    simp at hp
    subst hp
    cases hb
    rfl
  · intro m hm
    match m, hm with
    | [a, b, c, d], _ =>
      refine ⟨[1, 2, c, d], rfl, ?_⟩
      intro i hi
      match i, hi with
      | i + 2, _ => rfl

/-! ### Examples -/

/-- A table of 2 × 2, a file without the column, a table of 1 × 2; a row is reserved. -/
def twoTables : List Part :=
  [⟨some ⟨3, 2, [2, 2], false, true⟩, [1, 0, 2, 0, 3, 0, 4, 0], 2⟩, ⟨none, [], 1⟩, ⟨some ⟨3, 2, [1, 2], true, true⟩, [5, 0, 6, 0], 1⟩]

theorem twoTables_tables : Tables twoTables 2 where
  present := by decide
  dims := by
    intro b hb
    have hb : b ∈ [⟨3, 2, [2, 2], false, true⟩, ⟨3, 2, [1, 2], true, true⟩] := hb
    simp at hb
    rcases hb with rfl | rfl <;> exact ⟨_, rfl⟩
  order := by decide
  same := by decide
  bytes := by
    intro p hp b hb
    simp [twoTables] at hp
    rcases hp with rfl | rfl | rfl <;> cases hb <;> rfl
  empty := by decide

example := tables_stacked_partial (extra := 1) twoTables_tables (by decide)
example : fillAny ⟨3, 2, [2, 2], false, true⟩ 5 (packets 1 0 twoTables) (List.replicate 20 7) =
    some [1, 0, 2, 0, 0, 128, 5, 0, 7, 7, 3, 0, 4, 0, 0, 128, 6, 0, 7, 7] := by decide
example : fillAny ⟨3, 2, [2, 2], false, true⟩ 5 (packets 1 0 twoTables).reverse (List.replicate 20 7) =
    some [1, 0, 2, 0, 0, 128, 5, 0, 7, 7, 3, 0, 4, 0, 0, 128, 6, 0, 7, 7] := by decide
example := order_all (l := blocks twoTables) (k := ⟨3, 2, [2, 2], false, true⟩) (by decide) (by decide)
example := gap_null (k := ⟨7, 8, [1, 2], false, true⟩) (total := 2) (x := ⟨1, 0, ⟨none, [], 0⟩⟩) (m := List.replicate 32 0) (by decide) rfl

/-- A file with a table of strings among tables of numbers is taken as a file without the table. -/
theorem strings_are_gaps (a b : Nat) : (compat false ⟨1, 1, [1, 2], false, true⟩ ⟨18, 3, [1, 2], false, true⟩).2.ok = false ∧
    fillColumns ⟨1, 1, [1, 2], false, true⟩ 1 ⟨0, 1, ⟨some ⟨18, 3, [1, 2], false, true⟩, [1, 2, 3, 4, 5, 6], 1⟩⟩ [a, b] = some [128, 128] :=
  ⟨by decide, rfl⟩

end Riptide.Stack
