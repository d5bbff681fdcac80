import Verif.OneInput.Model
/-! Lemmas about the walk of `process_one_input`. -/
namespace Riptide.OneInput
open Riptide.Unary Riptide.Binary

theorem place_map (size : Nat) (g : Nat → Int) : ∀ (m : Nat) (at_ : Int) (s : Nat),
    place size at_ ((List.range' s m).map g) = (List.range' s m).map fun (j : Nat) => (at_ + ((j : Int) - s) * size, g j)
  | 0, _, _ => rfl
  | m + 1, at_, s => by
    simp only [List.range'_succ, List.map_cons, place]
    rw [place_map size g m (at_ + size) (s + 1)]
    congr 1
    · simp
    · apply List.map_congr_left
      intro j _
      congr 1
      push_cast
      grind

/-- The items which are computed in registers. -/
def wideEnd (k : Kern) (n : Nat) : Nat := if k.wide.isSome then 32 / k.size * ((n - 1) / (32 / k.size)) else 0

/-- The result for item `i` of `n` items. -/
def item (k : Kern) (read : Int → Int) (n i : Nat) : Option Int :=
  match k.wide with
  | some w => if i < 32 / k.size * ((n - 1) / (32 / k.size)) then some (w (read ((i : Int) * k.size))) else k.scalar (read ((i : Int) * k.size))
  | none => k.scalar (read ((i : Int) * k.size))

theorem block_le {L n m : Nat} (hL : 0 < L) (h : L + L * m < n) : L * m + L ≤ L * ((n - 1) / L) := by
  have h1 : m + 1 ≤ (n - 1) / L := (Nat.le_div_iff_mul_le hL).2 (by rw [Nat.add_mul, Nat.mul_comm m]; omega)
  calc L * m + L = L * (m + 1) := by rw [Nat.mul_add, Nat.mul_one]
    _ ≤ _ := Nat.mul_le_mul_left _ h1

theorem block_ge {L n m : Nat} (h : ¬ L + L * m < n) : L * ((n - 1) / L) ≤ L * m := by
  by_cases hL : L = 0
  · subst hL; simp
  · have hL : 0 < L := Nat.pos_of_ne_zero hL
    by_cases hn : n = 0
    · subst hn; simp
    · apply Nat.mul_le_mul_left
      have : (n - 1) / L < m + 1 := (Nat.div_lt_iff_lt_mul hL).2 (by rw [Nat.add_mul, Nat.mul_comm m]; omega)
      omega

/-- Where registers begin, or behind them. -/
def Start (k : Kern) (n off : Nat) : Prop := (∃ m, off = 32 / k.size * m) ∨ wideEnd k n ≤ off

/-- All items side by side: the writes of the walk. -/
theorem walk_contig (k : Kern) (hs : 0 < k.size) (hs32 : k.size ≤ 32) (read : Int → Int) (n : Nat) (v : Nat → Int)
    (hv : ∀ i, i < n → item k read n i = some (v i)) : ∀ (fuel off : Nat), n - off ≤ fuel →
    Start k n off →
    walk k read 1 k.size k.size n fuel off = some ((List.range' off (n - off)).map fun (i : Nat) => ((i : Int) * k.size, v i))
  | 0, off, hf, _ => by
    have : n - off = 0 := by omega
    simp [walk, this]
  | fuel + 1, off, hf, hoff => by
    have hL : 0 < 32 / k.size := Nat.div_pos hs32 hs
    unfold walk
    by_cases hn : off < n
    · rw [if_pos hn]
      have scal : ∀ (_ : wideEnd k n ≤ off) (_ : k.scalar (read ((off : Int) * k.size)) = some (v off)),
          (match (k.scalar (read ((off : Int) * k.size))).map fun v => [v] with
            | none => none
            | some vs => (walk k read 1 k.size k.size n fuel (off + vs.length)).map (place k.size ((off : Int) * 1 * k.size) vs ++ ·)) =
          some ((List.range' off (n - off)).map fun (i : Nat) => ((i : Int) * k.size, v i)) := by
        intro h1 h2
        rw [h2]
        simp only [Option.map_some, List.length_singleton]
        rw [walk_contig k hs hs32 read n v hv fuel (off + 1) (by omega) (.inr (by omega))]
        have : n - off = (n - (off + 1)) + 1 := by omega
        rw [this, List.range'_succ]
        simp [place]
      unfold step
      have hi := hv off hn
      unfold item at hi
      cases hw : k.wide with
      | none =>
        simp only [hw] at hi ⊢
        exact scal (by simp [wideEnd, hw]) hi
      | some w =>
        simp only [hw] at hi ⊢
        by_cases hc : 32 / k.size + off < n
        · rw [if_pos ⟨trivial, hc⟩]
          have hblk : off + 32 / k.size ≤ 32 / k.size * ((n - 1) / (32 / k.size)) := by
            rcases hoff with ⟨m, rfl⟩ | h
            · exact block_le hL hc
            · exfalso
              simp only [wideEnd, hw, Option.isSome_some, if_true] at h
              have : n - 1 < 32 / k.size * ((n - 1) / (32 / k.size)) + 32 / k.size := by
                have := Nat.div_add_mod (n - 1) (32 / k.size)
                have := Nat.mod_lt (n - 1) hL
                omega
              omega
          simp only [List.length_map, List.length_range]
          rw [walk_contig k hs hs32 read n v hv fuel (off + 32 / k.size) (by omega) (by
            rcases hoff with ⟨m, rfl⟩ | h
            · exact .inl ⟨m + 1, by rw [Nat.mul_add, Nat.mul_one]⟩
            · exact .inr (by omega))]
          have hval : ((List.range (32 / k.size)).map fun (j : Nat) => w (read ((off : Int) * k.size + (j : Int) * (k.size : Int)))) =
              (List.range' 0 (32 / k.size)).map fun (j : Nat) => v (off + j) := by
            rw [← List.range_eq_range']
            apply List.map_congr_left
            intro j hj
            rw [List.mem_range] at hj
            have := hv (off + j) (by omega)
            unfold item at this
            simp only [hw] at this
            rw [if_pos (by omega)] at this
            rw [← Option.some.inj this]
            congr 2
            push_cast
            grind
          rw [hval, place_map]
          simp only [Option.map_some]
          have hsplit : n - off = 32 / k.size + (n - (off + 32 / k.size)) := by omega
          rw [hsplit, ← List.range'_append_1, List.map_append]
          congr 2
          rw [show List.range' off (32 / k.size) = (List.range' 0 (32 / k.size)).map (off + ·) by
            rw [List.map_add_range']; simp]
          rw [List.map_map]
          apply List.map_congr_left
          intro j _
          simp only [Function.comp]
          congr 1
          push_cast
          grind
        · rw [if_neg (fun h => hc h.2)]
          have hwe : wideEnd k n ≤ off := by
            rcases hoff with ⟨m, rfl⟩ | h
            · simp only [wideEnd, hw, Option.isSome_some, if_true]
              exact block_ge hc
            · exact h
          rw [if_neg (by simpa [wideEnd, hw] using hwe)] at hi
          exact scal hwe hi
    · rw [if_neg hn]
      have : n - off = 0 := by omega
      simp [this]

/-- Without registers: the writes of the walk. -/
theorem walk_single (k : Kern) (read : Int → Int) (inner os so : Int) (hos : os ≠ k.size) (n : Nat) (v : Nat → Int)
    (hv : ∀ i : Nat, i < n → k.scalar (read ((i : Int) * os)) = some (v i)) : ∀ (fuel off : Nat), n - off ≤ fuel →
    walk k read inner os so n fuel off = some ((List.range' off (n - off)).map fun (i : Nat) => ((i : Int) * inner * so, v i))
  | 0, off, hf => by
    have : n - off = 0 := by omega
    simp [walk, this]
  | fuel + 1, off, hf => by
    unfold walk
    by_cases hn : off < n
    · rw [if_pos hn]
      have hst : step k read os n off = some [v off] := by
        unfold step
        cases k.wide with
        | none => simp [hv off hn]
        | some w => simp only; rw [if_neg (fun h => hos h.1), hv off hn]; rfl
      rw [hst]
      simp only [List.length_singleton]
      rw [walk_single k read inner os so hos n v hv fuel (off + 1) (by omega)]
      have : n - off = (n - (off + 1)) + 1 := by omega
      rw [this, List.range'_succ]
      simp [place]
    · rw [if_neg hn]
      have : n - off = 0 := by omega
      simp [this]

theorem step_length {k : Kern} {read : Int → Int} {os : Int} {n off : Nat} {vs : List Int} (hs : 0 < k.size) (hs32 : k.size ≤ 32)
    (h : step k read os n off = some vs) : vs ≠ [] ∧ (off + vs.length < n ∨ vs.length = 1) := by
  have hL : 0 < 32 / k.size := Nat.div_pos hs32 hs
  have scal : ∀ (x : Option Int), x.map (fun v => [v]) = some vs → vs ≠ [] ∧ (off + vs.length < n ∨ vs.length = 1) := by
    intro x hx
    cases x with
    | none => simp at hx
    | some v => simp at hx; subst hx; simp
  unfold step at h
  split at h
  · split at h
    · next hc =>
      simp only [Option.some.injEq] at h
      subst h
      refine ⟨by simp; omega, .inl (by simp; omega)⟩
    · exact scal _ h
  · exact scal _ h

/-- The last item is stored at its own place, whatever the rest. -/
theorem walk_last (k : Kern) (hs : 0 < k.size) (hs32 : k.size ≤ 32) (read : Int → Int) (inner os so : Int) (n : Nat) :
    ∀ (fuel off : Nat) (ws : List (Int × Int)), off < n → n - off ≤ fuel → walk k read inner os so n fuel off = some ws →
    ∃ v, (((n - 1 : Nat) : Int) * inner * so, v) ∈ ws
  | 0, off, ws, h1, h2, _ => by omega
  | fuel + 1, off, ws, h1, h2, h => by
    unfold walk at h
    rw [if_pos h1] at h
    cases hst : step k read os n off with
    | none => simp [hst] at h
    | some vs =>
      simp only [hst] at h
      obtain ⟨hne, hlen⟩ := step_length hs hs32 hst
      have hpos : 0 < vs.length := List.length_pos_iff.2 hne
      cases hr : walk k read inner os so n fuel (off + vs.length) with
      | none => simp [hr] at h
      | some rest =>
        simp only [hr, Option.map_some, Option.some.injEq] at h
        subst h
        by_cases hl : off + vs.length < n
        · obtain ⟨v, hv⟩ := walk_last k hs hs32 read inner os so n fuel (off + vs.length) rest hl (by omega) hr
          exact ⟨v, List.mem_append_right _ hv⟩
        · have h1' : vs.length = 1 := by omega
          obtain ⟨v, rfl⟩ := List.length_eq_one_iff.1 h1'
          have : n - 1 = off := by simp at hl; omega
          rw [this]
          exact ⟨v, by simp [place]⟩

theorem lastAt_of {cs : List (Int × Int × Nat)} {p : Int} {c : Int × Nat} (hm : (p, c) ∈ cs) (hu : ∀ c', (p, c') ∈ cs → c' = c) :
    lastAt cs p = some c := by
  unfold lastAt
  cases h : cs.reverse.find? fun c => c.1 == p with
  | none =>
    rw [List.find?_eq_none] at h
    exact absurd (h (p, c) (List.mem_reverse.2 hm)) (by simp)
  | some x =>
    have h1 := List.find?_some h
    have h2 := List.mem_reverse.1 (List.mem_of_find?_eq_some h)
    simp only [beq_iff_eq] at h1
    obtain ⟨xp, xc⟩ := x
    simp only at h1
    subst h1
    simp [hu xc h2]

theorem lastAt_none {cs : List (Int × Int × Nat)} {p : Int} (hu : ∀ c', (p, c') ∉ cs) : lastAt cs p = none := by
  unfold lastAt
  rw [Option.map_eq_none_iff, List.find?_eq_none]
  intro x hx hp
  simp only [beq_iff_eq] at hp
  obtain ⟨xp, xc⟩ := x
  simp only at hp
  subst hp
  exact hu xc (List.mem_reverse.1 hx)

theorem mem_cells {size : Nat} {ws : List (Int × Int)} {p v : Int} {b : Nat} :
    (p, v, b) ∈ cells size ws ↔ b < size ∧ (p - b, v) ∈ ws := by
  unfold cells
  rw [List.mem_flatMap]
  constructor
  · rintro ⟨⟨q, w⟩, hw, hx⟩
    rw [List.mem_map] at hx
    obtain ⟨b', hb', he⟩ := hx
    rw [List.mem_range] at hb'
    simp only [Prod.mk.injEq] at he
    obtain ⟨rfl, rfl, rfl⟩ := he
    refine ⟨hb', ?_⟩
    have : q + (b' : Int) - b' = q := by omega
    rw [this]; exact hw
  · rintro ⟨hb, hw⟩
    refine ⟨_, hw, List.mem_map.2 ⟨b, List.mem_range.2 hb, ?_⟩⟩
    simp only [Prod.mk.injEq, and_true]
    omega

/-- Values stored `d` items apart: the items of the output. -/
theorem itemAt_spread {size : Nat} (hs : 0 < size) {m d : Nat} (hd : 0 < d) (v : Nat → Int) (i : Nat) :
    itemAt (cells size ((List.range m).map fun (j : Nat) => (((j * d : Nat) : Int) * size, v j))) size ((i : Int) * size) =
      if i % d = 0 ∧ i / d < m then some (v (i / d)) else none := by
  have key : ∀ (b : Nat) (v' : Int) (b' : Nat), b < size →
      (((i : Int) * size + b, v', b') ∈ cells size ((List.range m).map fun (j : Nat) => (((j * d : Nat) : Int) * size, v j)) ↔
        b' = b ∧ i % d = 0 ∧ i / d < m ∧ v' = v (i / d)) := by
    intro b v' b' hb
    rw [mem_cells, List.mem_map]
    constructor
    · rintro ⟨hb', j, hj, he⟩
      rw [List.mem_range] at hj
      simp only [Prod.mk.injEq] at he
      obtain ⟨h1, rfl⟩ := he
      have h2 : j * d * size + b' = i * size + b := by
        have : ((j * d * size + b' : Nat) : Int) = ((i * size + b : Nat) : Int) := by push_cast; push_cast at h1; omega
        exact_mod_cast this
      have h3 : b' = b := by
        have := congrArg (· % size) h2
        simpa [Nat.mul_add_mod_of_lt, Nat.mul_comm _ size, Nat.mul_add_mod, Nat.mod_eq_of_lt hb, Nat.mod_eq_of_lt hb'] using this
      subst h3
      have h4 : j * d = i := Nat.eq_of_mul_eq_mul_right hs (by omega)
      subst h4
      exact ⟨rfl, Nat.mul_mod_left _ _, by rwa [Nat.mul_div_cancel _ hd], by rw [Nat.mul_div_cancel _ hd]⟩
    · rintro ⟨rfl, h1, h2, rfl⟩
      refine ⟨hb, i / d, List.mem_range.2 h2, ?_⟩
      have : i / d * d = i := Nat.div_mul_cancel (Nat.dvd_of_mod_eq_zero h1)
      rw [this]
      simp only [Prod.mk.injEq, and_true]
      omega
  unfold itemAt
  by_cases hc : i % d = 0 ∧ i / d < m
  · have hl : ∀ b, b < size → lastAt (cells size ((List.range m).map fun (j : Nat) => (((j * d : Nat) : Int) * size, v j))) ((i : Int) * size + (b : Nat)) = some (v (i / d), b) := by
      intro b hb
      refine lastAt_of ((key b _ b hb).2 ⟨rfl, hc.1, hc.2, rfl⟩) ?_
      rintro ⟨v', b'⟩ h
      obtain ⟨rfl, -, -, rfl⟩ := (key b v' b' hb).1 h
      rfl
    have h0 := hl 0 hs
    simp only [Int.natCast_zero, Int.add_zero] at h0
    rw [h0, if_pos hc]
    simp only
    rw [if_pos]
    rw [List.all_eq_true]
    intro b hb
    rw [List.mem_range] at hb
    rw [hl b hb]
    simp
  · rw [if_neg hc]
    have h0 : lastAt (cells size ((List.range m).map fun (j : Nat) => (((j * d : Nat) : Int) * size, v j))) ((i : Int) * size) = none := by
      apply lastAt_none
      rintro ⟨v', b'⟩ h
      have := (key 0 v' b' hs).1 (by simpa using h)
      exact hc ⟨this.2.1, this.2.2.1⟩
    rw [h0]

theorem inItems_iff {so : Int} {item len : Nat} {p : Int} :
    inItems so item len p = true ↔ ∃ i : Nat, i < len ∧ (i : Int) * so ≤ p ∧ p < (i : Int) * so + item := by
  simp [inItems, List.any_eq_true]

theorem mul_so {so : Int} (h : 0 ≤ so) {i j : Nat} (hij : i ≤ j) : (i : Int) * so ≤ (j : Int) * so :=
  Int.mul_le_mul_of_nonneg_right (by exact_mod_cast hij) h

end Riptide.OneInput
