import Verif.Stack.Types
import Verif.Stack.TypesSpec
/-! # Lemmas about the types of stacked columns -/
namespace Riptide.Stack

/-- The bytes of an item of a type of numbers. -/
def size (t : Nat) : Nat := itemTable.getD t 0

/-- The type for numbers of two types. -/
def join (m o : Nat) : Nat :=
  if m = o then m
  else if which m = which o then (if o > m then o else m)
  else if which m = .float then (if o ≥ 5 ∧ m < 12 then 12 else m)
  else if which o = .float then (if m ≥ 5 ∧ o < 12 then 12 else o)
  else if max m o = 10 ∧ min m o = 9 then m
  else mixed (max m o)

/-- A block of numbers. -/
structure Num (b : Block) : Prop where
  type : b.type ∈ numTypes
  item : b.item = size b.type

theorem join_mem : ∀ m ∈ numTypes, ∀ o ∈ numTypes, join m o ∈ numTypes := by decide
theorem num_lt : ∀ m ∈ numTypes, m < 14 ∧ m ≠ 7 ∧ m ≠ 8 := by decide
theorem num_size : ∀ m ∈ numTypes, 0 < size m := by decide
theorem num_kind : ∀ m ∈ numTypes, which m = .float ∨ which m = .int ∨ which m = .uint := by decide

theorem upgrade_type {m : Block} {t i : Nat} (h : t ∈ numTypes) : (upgrade m t i).type = t ∧ (upgrade m t i).item = size t := by
  obtain ⟨h1, h2, h3⟩ := num_lt t h
  have h4 := num_size t h
  refine ⟨?_, ?_⟩
  · unfold upgrade Block.type fixDType
    dsimp only
    rw [if_neg h2, if_neg h3]
  · show (if t < 22 then _ else 4) = _
    rw [if_pos (by omega), if_neg (by unfold size at h4; omega)]
    rfl

theorem upgrade_num {m : Block} {t i : Nat} (h : t ∈ numTypes) : Num (upgrade m t i) := by
  obtain ⟨h1, h2⟩ := upgrade_type (m := m) (i := i) h
  exact ⟨by rw [h1]; exact h, by rw [h1, h2]⟩

theorem upgrade_shape (m : Block) (t i : Nat) : (upgrade m t i).dims = m.dims ∧ (upgrade m t i).c = m.c ∧ (upgrade m t i).f = m.f :=
  ⟨rfl, rfl, rfl⟩

theorem num_dtype {m : Block} (h : Num m) : ¬(m.dtype = 18 ∨ m.dtype = 19) := by
  intro hd
  have h1 := num_lt _ h.type
  unfold Block.type fixDType at h1
  rcases hd with hd | hd <;> rw [hd] at h1 <;> simp at h1

theorem kinds_table : ∀ m ∈ numTypes, ∀ o ∈ numTypes, m ≠ o → which m ≠ which o →
    (((which m = .float ∧ (which o = .int ∨ which o = .uint)) ∨ (which o = .float ∧ (which m = .int ∨ which m = .uint))) ∧
      ((which m = .float) = (m > o)) ∧ (which m = .float ∨ which o = .float)) ∨
    (¬((which m = .float ∧ (which o = .int ∨ which o = .uint)) ∨ (which o = .float ∧ (which m = .int ∨ which m = .uint))) ∧
      ((which m = .int ∧ which o = .uint) ∨ (which m = .uint ∧ which o = .int)) ∧ which m ≠ .float ∧ which o ≠ .float) := by
  intro m hm o ho
  revert m o
  decide

theorem mixed_table : ∀ m ∈ numTypes, ∀ o ∈ numTypes, which m ≠ .float → which o ≠ .float → which m ≠ which o → mixed (max m o) ∈ numTypes := by
  decide

/-- The type of the master after a block of numbers. -/
theorem compatType_num {m o : Block} (hm : Num m) (ho : Num o) :
    (compatType true m o).1.type = join m.type o.type ∧ Num (compatType true m o).1 ∧ (compatType true m o).2.1 = true ∧
      (compatType true m o).1.dims = m.dims ∧ (compatType true m o).1.c = m.c ∧ (compatType true m o).1.f = m.f := by
  have hd := num_dtype hm
  have h12 : 12 ∈ numTypes := by decide
  unfold compatType join
  dsimp only
  by_cases he : m.type = o.type
  · have hi : m.item = o.item := by rw [hm.item, ho.item, he]
    rw [if_neg (by omega), if_pos he, if_neg hd]
    exact ⟨rfl, hm, by simp [hi], rfl, rfl, rfl⟩
  · rw [if_pos he, if_neg he]
    by_cases hk : which m.type = which o.type
    · rw [if_pos hk, if_pos hk]
      by_cases hg : o.type > m.type
      · rw [if_pos hg, if_pos hg, if_pos rfl]
        exact ⟨(upgrade_type ho.type).1, upgrade_num ho.type, rfl, rfl, rfl, rfl⟩
      · rw [if_neg hg, if_neg hg]
        have : ¬(m.type = 19 ∧ o.type = 18 ∧ o.item * 4 > m.item) := by
          intro h; have := num_lt _ hm.type; omega
        rw [if_neg this]
        exact ⟨rfl, hm, rfl, rfl, rfl, rfl⟩
    · rw [if_neg hk, if_neg hk]
      rcases kinds_table _ hm.type _ ho.type he hk with ⟨h1, h2, h3⟩ | ⟨h1, h2, h3, h4⟩
      · rw [if_pos h1]
        by_cases hg : which m.type = .float
        · have hg' : m.type > o.type := by rw [← h2]; exact hg
          rw [if_pos hg, if_pos rfl, if_pos hg']
          by_cases hc : o.type ≥ 5 ∧ m.type < 12
          · rw [if_pos hc, if_pos hc]
            exact ⟨(upgrade_type h12).1, upgrade_num h12, rfl, rfl, rfl, rfl⟩
          · rw [if_neg hc, if_neg hc]
            exact ⟨rfl, hm, rfl, rfl, rfl, rfl⟩
        · have hg' : ¬m.type > o.type := by rw [← h2]; exact hg
          have hf : which o.type = .float := h3.resolve_left hg
          rw [if_neg hg, if_pos hf, if_pos rfl, if_neg hg']
          by_cases hc : m.type ≥ 5 ∧ o.type < 12
          · rw [if_pos hc, if_pos hc]
            exact ⟨(upgrade_type h12).1, upgrade_num h12, rfl, rfl, rfl, rfl⟩
          · rw [if_neg hc, if_neg hc]
            exact ⟨(upgrade_type ho.type).1, upgrade_num ho.type, rfl, rfl, rfl, rfl⟩
      · rw [if_neg h1, if_pos h2, if_neg h3, if_neg h4, if_pos rfl]
        by_cases hc : max m.type o.type = 10 ∧ min m.type o.type = 9
        · rw [if_pos hc, if_pos hc]
          exact ⟨rfl, hm, rfl, rfl, rfl, rfl⟩
        · rw [if_neg hc, if_neg hc]
          have hx := mixed_table _ hm.type _ ho.type h3 h4 hk
          by_cases hn : m.type ≠ mixed (max m.type o.type)
          · rw [if_pos hn]
            exact ⟨(upgrade_type hx).1, upgrade_num hx, rfl, rfl, rfl, rfl⟩
          · rw [if_neg hn]
            exact ⟨by simpa using hn, hm, rfl, rfl, rfl, rfl⟩

/-! ### Shapes -/

/-- Blocks which can be stacked as far as their shapes go: the same number of dimensions, the same dimensions but for the first, all in C
order or all in Fortran order (some may be both). -/
structure SameShape (l : List Block) (tail : List Nat) (n : Nat) : Prop where
  len : ∀ b ∈ l, b.dims.length = n
  tail : ∀ b ∈ l, b.dims.drop 1 = tail
  order : (∀ b ∈ l, b.c = true) ∨ (∀ b ∈ l, b.f = true)

theorem SameShape.sub {l l' : List Block} {tail : List Nat} {n : Nat} (h : SameShape l tail n) (hs : ∀ b ∈ l', b ∈ l) : SameShape l' tail n :=
  ⟨fun b hb => h.len b (hs b hb), fun b hb => h.tail b (hs b hb),
    h.order.imp (fun h b hb => h b (hs b hb)) (fun h b hb => h b (hs b hb))⟩

theorem compatShape_ok {m o : Block} {tail : List Nat} {n : Nat} (h : SameShape [m, o] tail n) :
    (compatShape true m o).2 = (true, false) ∧ (compatShape true m o).1.dims = m.dims ∧
      (compatShape true m o).1.dtype = m.dtype ∧ (compatShape true m o).1.item = m.item ∧
      (m.c = true ∧ o.c = true → (compatShape true m o).1.c = true) ∧ (m.f = true ∧ o.f = true → (compatShape true m o).1.f = true) := by
  have h1 := h.len m (by simp)
  have h2 := h.len o (by simp)
  have h3 := h.tail m (by simp)
  have h4 := h.tail o (by simp)
  unfold compatShape
  rw [if_neg (by omega)]
  by_cases hn : m.dims.length > 1
  · rw [if_pos hn]
    dsimp only
    have hs : decide (m.dims.drop 1 = o.dims.drop 1) = true := by rw [h3, h4]; simp
    rw [hs]
    by_cases hr : ¬(o.c = true ∧ o.f = true) ∧ m.f ≠ o.f
    · rw [if_pos hr]
      rcases h.order with ho | ho
      · have hmc := ho m (by simp)
        have hoc := ho o (by simp)
        have hof : o.f = false := by
          cases hf : o.f with
          | false => rfl
          | true => exact absurd ⟨hoc, hf⟩ hr.1
        have hmf : m.f = true := by
          cases hf : m.f with
          | true => rfl
          | false => exact absurd (hf.trans hof.symm) hr.2
        rw [if_pos ⟨rfl, hmc, hmf⟩]
        exact ⟨rfl, rfl, rfl, rfl, fun _ => hoc, fun h => h.2⟩
      · exact absurd ((ho m (by simp)).trans (ho o (by simp)).symm) hr.2
    · rw [if_neg hr]
      exact ⟨rfl, rfl, rfl, rfl, fun h => h.1, fun h => h.1⟩
  · rw [if_neg hn]
    exact ⟨rfl, rfl, rfl, rfl, fun h => h.1, fun h => h.1⟩

theorem compatShape_false (m o : Block) : (compatShape false m o).1 = m := by
  unfold compatShape
  split
  · rfl
  · split
    · dsimp only
      split
      · rw [if_neg (by simp)]
      · rfl
    · rfl

end Riptide.Stack
