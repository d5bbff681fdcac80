import Verif.Stack.ColumnProps
import Verif.Stack.RotateSpec
/-! # Lemmas about stacked columns in Fortran order -/
namespace Riptide.Stack
open Riptide.Sds

/-! ### Bytes of items -/

/-- The bytes of item `a` in a range of items. -/
theorem byte_range {s a b n j : Nat} (hj : j < s) : (b * s ≤ a * s + j ∧ a * s + j < b * s + n * s) ↔ (b ≤ a ∧ a < b + n) := by
  have e : b * s + n * s = (b + n) * s := (Nat.add_mul b n s).symm
  rw [e]
  constructor
  · intro ⟨h1, h2⟩
    refine ⟨Decidable.byContradiction fun hc => ?_, Decidable.byContradiction fun hc => ?_⟩
    · have h3 : (a + 1) * s ≤ b * s := Nat.mul_le_mul_right s (by omega)
      rw [Nat.succ_mul] at h3
      omega
    · have h3 : (b + n) * s ≤ a * s := Nat.mul_le_mul_right s (by omega)
      omega
  · intro ⟨h1, h2⟩
    have h3 : b * s ≤ a * s := Nat.mul_le_mul_right s h1
    have h4 : (a + 1) * s ≤ (b + n) * s := Nat.mul_le_mul_right s (by omega)
    rw [Nat.succ_mul] at h4
    omega

/-- The rows of column `i` in a range of rows. -/
theorem cell_range {total c i r off n : Nat} (hr : r < total) (hn : off + n ≤ total) :
    (i * total + off ≤ c * total + r ∧ c * total + r < i * total + off + n) ↔ (c = i ∧ off ≤ r ∧ r < off + n) := by
  constructor
  · intro ⟨h1, h2⟩
    have hc : c = i := by
      rcases Nat.lt_trichotomy c i with h | h | h
      · have h3 : (c + 1) * total ≤ i * total := Nat.mul_le_mul_right _ h
        rw [Nat.succ_mul] at h3
        omega
      · exact h
      · have h3 : (i + 1) * total ≤ c * total := Nat.mul_le_mul_right _ h
        rw [Nat.succ_mul] at h3
        omega
    subst hc
    omega
  · rintro ⟨rfl, h1, h2⟩
    omega

theorem cell_lt {total c r w : Nat} (hc : c < w) (hr : r < total) : c * total + r < total * w := by
  have h : (c + 1) * total ≤ w * total := Nat.mul_le_mul_right _ hc
  rw [Nat.succ_mul, Nat.mul_comm w] at h
  omega

/-! ### What a packet does -/

/-- A packet sets its `n` rows in all columns and nothing else. -/
def Sets (s total w : Nat) (off n : Nat) (f : List Nat → Option (List Nat)) (src : Nat → Nat → Nat → Option Nat) : Prop :=
  ∀ m : List Nat, m.length = total * w * s → ∃ m', f m = some m' ∧ m'.length = m.length ∧
    ∀ c r j, c < w → r < total → j < s →
      m'[(c * total + r) * s + j]? = if off ≤ r ∧ r < off + n then src c (r - off) j else m[(c * total + r) * s + j]?

theorem rotate_sets {s total off rows : Nat} {src : List Nat} (hn : off + rows ≤ total) (w : Nat) (hs : src.length = w * (rows * s)) :
    ∀ i, i ≤ w → ∀ m : List Nat, m.length = total * w * s → ∃ m', rotate s total off rows src i m = some m' ∧ m'.length = m.length ∧
      ∀ c r j, c < w → r < total → j < s → m'[(c * total + r) * s + j]? =
        if c < i ∧ off ≤ r ∧ r < off + rows then src[(c * rows + (r - off)) * s + j]? else m[(c * total + r) * s + j]?
  | 0, _, m, _ => ⟨m, rfl, rfl, fun c r j _ _ _ => by rw [if_neg (by omega)]⟩
  | i + 1, hi, m, hm => by
    obtain ⟨m1, h1, h2, h3⟩ := rotate_sets hn w hs i (by omega) m hm
    have hsrc : i * (rows * s) + rows * s ≤ src.length := by
      rw [hs, ← Nat.succ_mul]
      exact Nat.mul_le_mul_right _ hi
    have hlen : ((src.drop (i * (rows * s))).take (rows * s)).length = rows * s := by
      rw [List.length_take, List.length_drop]; omega
    have hfit : off * s + i * total * s + rows * s ≤ m1.length := by
      rw [h2, hm, ← Nat.add_mul, ← Nat.add_mul]
      apply Nat.mul_le_mul_right
      have : (i + 1) * total ≤ w * total := Nat.mul_le_mul_right _ hi
      rw [Nat.succ_mul, Nat.mul_comm w] at this
      omega
    have hp := put_ok (m := m1) (o := off * s + i * total * s) (l := (src.drop (i * (rows * s))).take (rows * s)) (by rw [hlen]; exact hfit)
    obtain ⟨g1, g2⟩ := put_get hp
    refine ⟨_, ?_, by rw [g1, h2], ?_⟩
    · rw [rotate, h1]
      dsimp only
      rw [if_pos hsrc]
      exact hp
    · intro c r j hc hr hj
      rw [g2, hlen]
      have e1 : off * s + i * total * s = (i * total + off) * s := by rw [← Nat.add_mul, Nat.add_comm]
      have e2 := byte_range (s := s) (a := c * total + r) (b := i * total + off) (n := rows) hj
      have e3 := cell_range (c := c) (i := i) hr hn
      rw [e1]
      by_cases h : c = i ∧ off ≤ r ∧ r < off + rows
      · rw [if_pos (e2.mpr (e3.mpr h)), if_pos (by omega)]
        obtain ⟨rfl, h4, h5⟩ := h
        have e4 : (c * total + r) * s + j - (c * total + off) * s = (r - off) * s + j := by
          have : (c * total + r) * s = (c * total + off) * s + (r - off) * s := by
            rw [← Nat.add_mul]; congr 1; omega
          omega
        have e5 : (r - off) * s + j < rows * s := by
          have : (r - off + 1) * s ≤ rows * s := Nat.mul_le_mul_right _ (by omega)
          rw [Nat.succ_mul] at this
          omega
        rw [e4, List.getElem?_take_of_lt e5, List.getElem?_drop]
        congr 1
        rw [← Nat.mul_assoc, Nat.add_mul]
        omega
      · rw [if_neg (fun hh => h (e3.mp (e2.mp hh))), h3 c r j hc hr hj]
        by_cases h5 : c < i ∧ off ≤ r ∧ r < off + rows
        · rw [if_pos h5, if_pos (by omega)]
        · rw [if_neg h5, if_neg (by omega)]

theorem setCells_sets {s : Nat} {v : List Nat} (hv : v.length = s) {n : Nat} : ∀ (l : List Nat), (∀ a ∈ l, a < n) → ∀ m : List Nat, m.length = n * s →
    ∃ m', setCells s v l m = some m' ∧ m'.length = m.length ∧
      ∀ a j, a < n → j < s → m'[a * s + j]? = if a ∈ l then v[j]? else m[a * s + j]?
  | [], _, m, _ => ⟨m, rfl, rfl, fun a j _ _ => by rw [if_neg (by simp)]⟩
  | b :: l, hl, m, hm => by
    have hb := hl b (by simp)
    have hfit : b * s + v.length ≤ m.length := by
      rw [hm, hv, ← Nat.succ_mul]
      exact Nat.mul_le_mul_right _ hb
    have hp := put_ok hfit
    obtain ⟨g1, g2⟩ := put_get hp
    obtain ⟨m', h1, h2, h3⟩ := setCells_sets hv l (fun a ha => hl a (by simp [ha])) _ (g1.trans hm)
    refine ⟨m', ?_, by rw [h2, g1], ?_⟩
    · rw [setCells, hp]
      exact h1
    · intro a j ha hj
      rw [h3 a j ha hj]
      by_cases hal : a ∈ l
      · rw [if_pos hal, if_pos (by simp [hal])]
      · rw [if_neg hal, g2, hv]
        have e := byte_range (s := s) (a := a) (b := b) (n := 1) hj
        rw [Nat.one_mul] at e
        by_cases hab : a = b
        · subst hab
          rw [if_pos (e.mpr (by omega)), if_pos (by simp)]
          congr 1
          omega
        · rw [if_neg (fun h => hab (by have := e.mp h; omega)), if_neg (by simp [hal, hab])]

theorem mem_gapCells {total off rows w a : Nat} : a ∈ gapCells total off rows w ↔ ∃ i c, i < rows ∧ c < w ∧ a = c * total + (off + i) := by
  unfold gapCells
  simp only [List.mem_flatMap, List.mem_map, List.mem_range]
  constructor
  · rintro ⟨i, hi, c, hc, rfl⟩
    exact ⟨i, c, hi, hc, by omega⟩
  · rintro ⟨i, c, hi, hc, rfl⟩
    exact ⟨i, hi, c, hc, by omega⟩

theorem gap_sets {s total off n w : Nat} {v : List Nat} (hv : v.length = s) (hn : off + n ≤ total) :
    Sets s total w off n (setCells s v (gapCells total off n w)) (fun _ _ j => v[j]?) := by
  intro m hm
  obtain ⟨m', h1, h2, h3⟩ := setCells_sets hv (gapCells total off n w) (n := total * w) (by
    intro a ha
    obtain ⟨i, c, hi, hc, rfl⟩ := mem_gapCells.mp ha
    exact cell_lt hc (by omega)) m hm
  refine ⟨m', h1, h2, ?_⟩
  intro c r j hc hr hj
  rw [h3 _ j (cell_lt hc hr) hj]
  by_cases h : off ≤ r ∧ r < off + n
  · rw [if_pos h, if_pos (mem_gapCells.mpr ⟨r - off, c, by omega, hc, by omega⟩)]
  · rw [if_neg h, if_neg]
    intro ha
    obtain ⟨i, d, hi, hd, e⟩ := mem_gapCells.mp ha
    have := (cell_range (c := c) (i := d) (off := off + i) (n := 1) hr (by omega)).mp (by omega)
    omega

theorem none_sets {s total w off : Nat} {src : Nat → Nat → Nat → Option Nat} : Sets s total w off 0 some src := by
  intro m _
  refine ⟨m, rfl, rfl, ?_⟩
  intro c r j _ _ _
  rw [if_neg (by omega)]

/-! ### All packets -/

theorem fillAllColumns_sets {k : Block} {s total w : Nat} {n : Packet → Nat} {src : Packet → Nat → Nat → Nat → Option Nat} : ∀ (l : List Packet),
    (∀ x ∈ l, Sets s total w x.off (n x) (fillColumns k total x) (src x)) →
    l.Pairwise (fun x y => x.off + n x ≤ y.off ∨ y.off + n y ≤ x.off) → ∀ m : List Nat, m.length = total * w * s →
    ∃ m', fillAllColumns k total l m = some m' ∧ m'.length = m.length ∧
      (∀ c r j, c < w → r < total → j < s → (∀ x ∈ l, x.off ≤ r → r < x.off + n x → m'[(c * total + r) * s + j]? = src x c (r - x.off) j) ∧
        ((∀ x ∈ l, r < x.off ∨ x.off + n x ≤ r) → m'[(c * total + r) * s + j]? = m[(c * total + r) * s + j]?))
  | [], _, _, m, _ => ⟨m, rfl, rfl, fun c r j _ _ _ => ⟨by simp, fun _ => rfl⟩⟩
  | x :: l, hw, hp, m, hm => by
    obtain ⟨m1, h1, h2, h3⟩ := hw x (by simp) m hm
    obtain ⟨p1, p2⟩ := List.pairwise_cons.mp hp
    obtain ⟨m', r1, r2, r3⟩ := fillAllColumns_sets l (fun y hy => hw y (by simp [hy])) p2 m1 (h2.trans hm)
    refine ⟨m', ?_, r2.trans h2, ?_⟩
    · rw [fillAllColumns, h1]
      exact r1
    · intro c r j hc hr hj
      obtain ⟨q1, q2⟩ := r3 c r j hc hr hj
      refine ⟨?_, ?_⟩
      · intro y hy hy1 hy2
        rcases List.mem_cons.mp hy with rfl | hy
        · rw [q2 ?_, h3 c r j hc hr hj, if_pos ⟨hy1, hy2⟩]
          intro z hz
          rcases p1 z hz with h | h <;> omega
        · exact q1 y hy hy1 hy2
      · intro h
        have hx := h x (by simp)
        rw [q2 (fun z hz => h z (by simp [hz])), h3 c r j hc hr hj, if_neg (by omega)]

/-! ### The master block -/

theorem compat_same {fix : Bool} {m o : Block} (ht : m.type = o.type) (hi : m.item = o.item) (hd : m.dims.drop 1 = o.dims.drop 1)
    (hl : m.dims.length = o.dims.length) (hf : m.f = o.f) : compat fix m o = (m, ⟨true, false, false, false⟩) := by
  have h1 : compatType fix m o = (m, true, false, false) := by
    unfold compatType
    dsimp only
    rw [if_neg (fun h => h ht)]
    split
    · rw [if_neg (fun h => h hi)]
    · simp [hi]
  unfold compat
  rw [h1]
  dsimp only
  unfold compatShape
  rw [if_neg (fun h => h hl)]
  split
  · rw [if_neg (fun h => h.2 hf)]
    simp [hd]
  · rfl

theorem king_same {b : Block} {l : List Block} (hf : b.f = true)
    (h : ∀ o ∈ l, b.type = o.type ∧ b.item = o.item ∧ b.dims.drop 1 = o.dims.drop 1 ∧ b.dims.length = o.dims.length ∧ o.f = true) :
    king (b :: l) = some b := by
  have h1 : ∀ l : List Block, (∀ o ∈ l, b.type = o.type ∧ b.item = o.item ∧ b.dims.drop 1 = o.dims.drop 1 ∧ b.dims.length = o.dims.length ∧ o.f = true) →
      l.foldl addColumn (some b) = some b ∧ settle b l = b := by
    intro l
    induction l with
    | nil => intro _; exact ⟨rfl, rfl⟩
    | cons o l ih =>
      intro h
      obtain ⟨i1, i2⟩ := ih (fun o ho => h o (by simp [ho]))
      obtain ⟨a1, a2, a3, a4, a5⟩ := h o (by simp)
      have e := fun fix => compat_same (fix := fix) a1 a2 a3 a4 (hf.trans a5.symm)
      constructor
      · rw [List.foldl_cons]
        have : addColumn (some b) o = some b := by
          unfold addColumn
          dsimp only
          rw [if_neg (by simp [a5]), e]
          rfl
        rw [this]
        exact i1
      · unfold settle
        rw [List.foldl_cons, e]
        exact i2
  unfold king tally
  dsimp only
  rw [if_pos (.inr hf), (h1 l h).1]
  show some (settle b (b :: l)) = some b
  have := (h1 (b :: l) (by
    intro o ho
    rcases List.mem_cons.mp ho with rfl | ho
    · exact ⟨rfl, rfl, rfl, rfl, hf⟩
    · exact h o ho)).2
  rw [this]

end Riptide.Stack
