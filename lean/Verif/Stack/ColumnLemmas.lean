import Verif.Stack.Column
import Verif.Stack.ConvertProps
/-! # Lemmas about the memory of stacked columns -/
namespace Riptide.Stack
open Riptide.Sds Riptide.Convert

/-! ### Writes to different places -/

theorem put_get {α : Type} {m m' l : List α} {o : Nat} (h : put m o l = some m') :
    m'.length = m.length ∧ ∀ i, m'[i]? = if o ≤ i ∧ i < o + l.length then l[i - o]? else m[i]? := by
  unfold put at h
  split at h
  · rename_i hl
    cases h
    have h1 : (m.take o).length = o := by rw [List.length_take]; omega
    refine ⟨by rw [List.length_append, List.length_append, h1, List.length_drop]; omega, ?_⟩
    intro i
    by_cases hi : o ≤ i
    · by_cases hj : i < o + l.length
      · rw [if_pos ⟨hi, hj⟩, List.getElem?_append_left (by rw [List.length_append]; omega), List.getElem?_append_right (by omega), h1]
      · rw [if_neg (by omega), List.getElem?_append_right (by rw [List.length_append]; omega), List.getElem?_drop]
        congr 1
        rw [List.length_append]; omega
    · rw [if_neg (by omega), List.append_assoc, List.getElem?_append_left (by omega), List.getElem?_take_of_lt (by omega)]
  · cases h

/-- A packet does nothing but write these bytes to the place of its rows. -/
def Writes (k : Block) (x : Packet) (l : List Nat) : Prop :=
  ∀ m : List Nat, rowSize k * x.off + l.length ≤ m.length → fill k x m = put m (rowSize k * x.off) l

/-- Places which have nothing in common. -/
def Apart (k : Block) (w : Packet → List Nat) (x y : Packet) : Prop :=
  rowSize k * x.off + (w x).length ≤ rowSize k * y.off ∨ rowSize k * y.off + (w y).length ≤ rowSize k * x.off

/-- Whatever the order, each packet finds its bytes in place in the end, and all other memory is as it was. -/
theorem fillAll_writes {k : Block} {w : Packet → List Nat} : ∀ (l : List Packet) (m : List Nat), (∀ x ∈ l, Writes k x (w x)) →
    l.Pairwise (Apart k w) → (∀ x ∈ l, rowSize k * x.off + (w x).length ≤ m.length) →
    ∃ m', fillAll k l m = some m' ∧ m'.length = m.length ∧ (∀ x ∈ l, ∀ i, i < (w x).length → m'[rowSize k * x.off + i]? = (w x)[i]?) ∧
      (∀ i, (∀ x ∈ l, i < rowSize k * x.off ∨ rowSize k * x.off + (w x).length ≤ i) → m'[i]? = m[i]?)
  | [], m, _, _, _ => ⟨m, rfl, rfl, by simp, fun _ _ => rfl⟩
  | x :: l, m, hw, hp, hl => by
    have h1 := hw x (by simp) m (hl x (by simp))
    have h2 : put m (rowSize k * x.off) (w x) = some (m.take (rowSize k * x.off) ++ w x ++ m.drop (rowSize k * x.off + (w x).length)) :=
      put_ok (hl x (by simp))
    obtain ⟨g1, g2⟩ := put_get h2
    generalize m.take (rowSize k * x.off) ++ w x ++ m.drop (rowSize k * x.off + (w x).length) = m1 at h2 g1 g2
    obtain ⟨p1, p2⟩ := List.pairwise_cons.mp hp
    obtain ⟨m', r1, r2, r3, r4⟩ := fillAll_writes l m1 (fun y hy => hw y (by simp [hy])) p2 (fun y hy => by rw [g1]; exact hl y (by simp [hy]))
    refine ⟨m', ?_, by rw [r2, g1], ?_, ?_⟩
    · rw [fillAll, h1, h2]
      exact r1
    · intro y hy i hi
      rcases List.mem_cons.mp hy with rfl | hy
      · rw [r4 _ ?_, g2, if_pos (by omega), Nat.add_sub_cancel_left]
        intro z hz
        rcases p1 z hz with h | h
        · left; omega
        · right; omega
      · exact r3 y hy i hi
    · intro i hi
      rw [r4 i (fun y hy => hi y (by simp [hy])), g2]
      rw [if_neg]
      have := hi x (by simp)
      omega

/-! ### The packets -/

theorem packets_get (extra : Nat) : ∀ (l : List Part) (o i : Nat) (p : Part), l[i]? = some p →
    (packets extra o l)[i]? = some ⟨o + ((l.take i).map Part.rows).sum, p.rows + (if i + 1 = l.length then extra else 0), p⟩
  | [], _, _, _, h => by simp at h
  | [q], o, i, p, h => by
    cases i with
    | zero => simp at h; subst h; simp [packets]
    | succ i => simp at h
  | q :: r :: l, o, i, p, h => by
    cases i with
    | zero => simp at h; subst h; simp [packets]
    | succ i =>
      rw [packets, List.getElem?_cons_succ, packets_get extra (r :: l) (o + q.rows) i p (by simpa using h)]
      simp only [List.take_succ_cons, List.map_cons, List.sum_cons, List.length_cons]
      congr 2
      · omega
      · congr 1
        by_cases hi : i + 1 = l.length + 1
        · rw [if_pos hi, if_pos (by omega)]
        · rw [if_neg hi, if_neg (by omega)]

theorem packets_mem (extra : Nat) : ∀ (l : List Part) (o : Nat) (x : Packet), x ∈ packets extra o l →
    x.part ∈ l ∧ o ≤ x.off ∧ x.part.rows ≤ x.gap ∧ x.gap ≤ x.part.rows + extra ∧ x.off + x.gap ≤ o + totalRows extra l
  | [], _, _, h => by simp [packets] at h
  | [q], o, x, h => by
    simp [packets] at h
    subst h
    simp [totalRows]
  | q :: r :: l, o, x, h => by
    rw [packets] at h
    have ht : totalRows extra (q :: r :: l) = q.rows + totalRows extra (r :: l) := by simp [totalRows]; omega
    rcases List.mem_cons.mp h with rfl | h
    · rw [ht]
      exact ⟨by simp, Nat.le_refl _, Nat.le_refl _, Nat.le_add_right _ _, by simp only; omega⟩
    · obtain ⟨h1, h2, h3, h4, h5⟩ := packets_mem extra (r :: l) (o + q.rows) x h
      rw [ht]
      exact ⟨List.mem_cons_of_mem _ h1, by omega, h3, h4, by omega⟩

theorem packets_rows (extra : Nat) : ∀ (l : List Part) (o : Nat) (x : Packet), x ∈ packets extra o l →
    x.off + x.part.rows ≤ o + (l.map Part.rows).sum ∧ (x.gap = x.part.rows ∨ l.getLast? = some x.part)
  | [], _, _, h => by simp [packets] at h
  | [q], o, x, h => by
    simp [packets] at h
    subst h
    simp
  | q :: r :: l, o, x, h => by
    rw [packets] at h
    rcases List.mem_cons.mp h with rfl | h
    · simp
    · obtain ⟨h1, h2⟩ := packets_rows extra (r :: l) (o + q.rows) x h
      refine ⟨?_, ?_⟩
      · simp at h1 ⊢; omega
      · rw [List.getLast?_cons_cons]
        exact h2

theorem packets_apart (extra : Nat) : ∀ (l : List Part) (o : Nat), (packets extra o l).Pairwise (fun x y => x.off + x.gap ≤ y.off)
  | [], _ => by simp [packets]
  | [q], o => by simp [packets]
  | q :: r :: l, o => by
    rw [packets]
    refine List.pairwise_cons.mpr ⟨?_, packets_apart extra (r :: l) _⟩
    intro y hy
    exact (packets_mem extra (r :: l) _ y hy).2.1

/-- All packets of a column in any order, when each just writes not more than its rows. -/
theorem fillAll_packets {k : Block} {w : Packet → List Nat} {extra : Nat} {l : List Part} {order : List Packet}
    (hw : ∀ x ∈ packets extra 0 l, Writes k x (w x) ∧ (w x).length ≤ rowSize k * x.gap) (hp : order.Perm (packets extra 0 l)) {m : List Nat}
    (hm : m.length = rowSize k * totalRows extra l) :
    ∃ m', fillAll k order m = some m' ∧ m'.length = m.length ∧
      (∀ i p, l[i]? = some p → ∀ x, x = Packet.mk ((l.take i).map Part.rows).sum (p.rows + (if i + 1 = l.length then extra else 0)) p →
        x ∈ packets extra 0 l ∧ ∀ j, j < (w x).length → m'[rowSize k * x.off + j]? = (w x)[j]?) ∧
      (∀ i, (∀ x ∈ packets extra 0 l, i < rowSize k * x.off ∨ rowSize k * x.off + (w x).length ≤ i) → m'[i]? = m[i]?) := by
  have hap : (packets extra 0 l).Pairwise (Apart k w) := by
    have h1 := packets_apart extra l 0
    refine List.Pairwise.imp_of_mem ?_ h1
    intro x y hx hy h
    left
    have h2 := (hw x hx).2
    have h3 : rowSize k * (x.off + x.gap) ≤ rowSize k * y.off := Nat.mul_le_mul_left _ h
    rw [Nat.mul_add] at h3
    omega
  have hin : ∀ x ∈ packets extra 0 l, rowSize k * x.off + (w x).length ≤ m.length := by
    intro x hx
    have h2 := (hw x hx).2
    have h3 : rowSize k * (x.off + x.gap) ≤ rowSize k * totalRows extra l := by
      apply Nat.mul_le_mul_left
      have := (packets_mem extra l 0 x hx).2.2.2.2
      omega
    rw [Nat.mul_add] at h3
    omega
  obtain ⟨m', r1, r2, r3, r4⟩ := fillAll_writes order m (fun x hx => (hw x (hp.mem_iff.mp hx)).1)
    ((hp.pairwise_iff (fun {x y} h => Or.symm h)).mpr hap) (fun x hx => hin x (hp.mem_iff.mp hx))
  refine ⟨m', r1, r2, ?_, ?_⟩
  · intro i p hi x hx
    have h1 := packets_get extra l 0 i p hi
    rw [Nat.zero_add] at h1
    rw [← hx] at h1
    have h2 := List.mem_of_getElem? h1
    exact ⟨h2, fun j hj => r3 x (hp.mem_iff.mpr h2) j hj⟩
  · intro i hi
    exact r4 i (fun x hx => hi x (hp.mem_iff.mp hx))

/-! ### What a packet writes -/

/-- The tail of `fill`: bytes are read to the place of the rows and changed in place, which may need more room but touches nothing else. -/
theorem place {m data l : List Nat} {o : Nat} (hd : data.length ≤ l.length) (ho : o + l.length ≤ m.length) :
    ∃ m1, put m o data = some m1 ∧ m1.drop o = data ++ m.drop (o + data.length) ∧
      (m1.drop o).drop l.length = m.drop (o + l.length) ∧ m1.take o = m.take o ∧
      some (m1.take o ++ (l ++ (m1.drop o).drop l.length)) = put m o l := by
  have h1 : (m.take o).length = o := by rw [List.length_take]; omega
  have e1 : (m.take o ++ data ++ m.drop (o + data.length)).drop o = data ++ m.drop (o + data.length) := by
    rw [List.append_assoc]; exact List.drop_left' h1
  have e2 : (m.take o ++ data ++ m.drop (o + data.length)).take o = m.take o := by
    rw [List.append_assoc]; exact List.take_left' h1
  have e3 : (data ++ m.drop (o + data.length)).drop l.length = m.drop (o + l.length) := by
    rw [List.drop_append, List.drop_eq_nil_of_le hd, List.nil_append, List.drop_drop]
    congr 1
    omega
  refine ⟨_, put_ok (by omega), e1, by rw [e1, e3], e2, ?_⟩
  rw [e1, e2, e3, put_ok ho, List.append_assoc]

theorem put_nil {m : List Nat} {o : Nat} (h : o ≤ m.length) : put m o [] = some m := by
  unfold put
  rw [if_pos (by simpa using h)]
  simp

theorem gap_writes {k : Block} {x : Packet} {l : List Nat} (hb : x.part.block = none) (hg : gapFill k x.gap = some l) : Writes k x l := by
  intro m _
  unfold fill
  rw [hb]
  dsimp only
  unfold gapAt
  rw [hg]

/-- A block without rows is not read, `StackPosition = -1`. -/
theorem empty_writes {k b : Block} {x : Packet} (hb : x.part.block = some b) (hc : (compat false k b).2.ok = true)
    (h : x.part.own = 0 ∨ rowSize b = 0) : Writes k x [] := by
  intro m hm
  rw [put_nil (by simpa using hm)]
  unfold fill
  rw [hb]
  dsimp only
  rw [hc]
  by_cases h0 : x.part.own = 0
  · simp [h0]
  · simp [h0, h.resolve_left h0]

/-- Rows which are changed in place. -/
theorem change_writes {k b : Block} {x : Packet} {l : List Nat} {s c : Bool} (hb : x.part.block = some b)
    (ho : (compat false k b).2.ok = true) (hst : (compat false k b).2.strings = s) (hcv : (compat false k b).2.convert = c) (h0 : x.part.own ≠ 0) (hr : rowSize b ≠ 0) (hd : x.part.data.length ≤ l.length)
    (hs : ∀ t, l.length ≤ t.length → t.take x.part.data.length = x.part.data → ∃ t1,
      (if s = true then stringFixup 0 t (x.part.data.length / rowSize b) (cols b) b.item k.item else some t) = some t1 ∧
      (if c = true then convertDType b.type k.type t1 (x.part.data.length / rowSize b * rowSize b) else some t1) = some (l ++ t.drop l.length)) :
    Writes k x l := by
  intro m hm
  obtain ⟨m1, p1, p2, p3, _, p5⟩ := place (m := m) hd hm
  have hlen : l.length ≤ (m1.drop (rowSize k * x.off)).length := by
    rw [List.length_drop, (put_get p1).1]
    omega
  obtain ⟨t1, q1, q2⟩ := hs (m1.drop (rowSize k * x.off)) hlen (by rw [p2]; exact List.take_left)
  unfold fill
  rw [hb]
  dsimp only
  rw [ho, hst, hcv]
  simp only [Bool.not_true, Bool.false_eq_true, if_false, h0, hr, p1]
  rw [q1]
  dsimp only
  rw [q2]
  exact p5

/-- Rows which are not changed. -/
theorem same_writes {k b : Block} {x : Packet} (hb : x.part.block = some b) (ho : (compat false k b).2.ok = true)
    (hst : (compat false k b).2.strings = false) (hcv : (compat false k b).2.convert = false) (h0 : x.part.own ≠ 0) (hr : rowSize b ≠ 0) :
    Writes k x x.part.data := by
  refine change_writes hb ho hst hcv h0 hr (Nat.le_refl _) ?_
  intro t ht he
  refine ⟨t, by simp, ?_⟩
  simp only [Bool.false_eq_true, if_false]
  congr 1
  exact (List.take_append_drop x.part.data.length t).symm.trans (by rw [he])

/-! ### Numbers -/

theorem item_append {k i : Nat} {a b : List Nat} (h : (i + 1) * k ≤ a.length) : item k (a ++ b) i = item k a i := by
  unfold item
  rw [Nat.succ_mul] at h
  rw [List.drop_append_of_le_length (by omega), List.take_append_of_le_length (by rw [List.length_drop]; omega)]

theorem item_take {k i n : Nat} {t : List Nat} (h : (i + 1) * k ≤ n) : item k (t.take n) i = item k t i := by
  unfold item
  rw [Nat.succ_mul] at h
  rw [List.drop_take, List.take_take, Nat.min_eq_left (by omega)]

/-- The items of `data`, converted. -/
def converted (a b : Item) (len : Nat) (data : List Nat) : List Nat :=
  (List.range len).flatMap (fun i => le b.size ((convItem a b (item a.size data i)).getD 0))

theorem converted_length (a b : Item) (len : Nat) (data : List Nat) : (converted a b len data).length = len * b.size :=
  flatMap_length len (fun _ _ => le_length _ _)

theorem convert_bytes {s d : Nat} {a b : Item} (ha : itemOf s = some a) (hb : itemOf d = some b) (hs : s ≠ 18) (h1 : 0 < a.size) (h2 : a.size ≤ b.size)
    (h3 : b ≠ .bool) {t : List Nat} {len : Nat} (hl : len * b.size ≤ t.length)
    (hc : ∀ i, i < len → ∃ r, convItem a b (item a.size t i) = some r) :
    convertDType s d t (len * a.size) = some (converted a b len t ++ t.drop (len * b.size)) := by
  have hg : ∀ j, j < len → (fun l => (convItem a b (unle l)).map (le b.size)) (piece a.size t j) =
      some (le b.size ((convItem a b (item a.size t j)).getD 0)) ∧ (le b.size ((convItem a b (item a.size t j)).getD 0)).length = b.size := by
    intro j hj
    obtain ⟨r, r1⟩ := hc j hj
    refine ⟨?_, le_length _ _⟩
    show (convItem a b (item a.size t j)).map (le b.size) = some (le b.size ((convItem a b (item a.size t j)).getD 0))
    rw [r1]
    rfl
  have hloop := convertLoop_eq h2 (fun l => (convItem a b (unle l)).map (le b.size))
    (fun i => le b.size ((convItem a b (item a.size t i)).getD 0)) t len (t.drop (len * b.size)) hl hg
  rw [List.take_append_drop] at hloop
  unfold convertDType
  rw [if_neg (fun h => hs h.1), ha, hb]
  dsimp only
  rw [if_neg h3]
  unfold convertInplace
  dsimp only
  have h4 : len * a.size ≤ len * b.size := Nat.mul_le_mul_left len h2
  rw [Nat.mul_div_cancel len h1, if_neg (by omega)]
  exact hloop

theorem converted_congr {a b : Item} {len : Nat} {t t' : List Nat} (h : ∀ i, i < len → item a.size t i = item a.size t' i) :
    converted a b len t = converted a b len t' := by
  unfold converted
  induction len with
  | zero => rfl
  | succ n ih =>
    rw [List.range_succ, List.flatMap_append, List.flatMap_append, ih (fun i hi => h i (by omega))]
    simp only [List.flatMap_cons, List.flatMap_nil]
    rw [h n (by omega)]

end Riptide.Stack
