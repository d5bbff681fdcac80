import Verif.Arrays.Model
import Verif.Arrays.Spec
/-! The common type, C65, and trimming of strings, C66. -/
namespace Riptide.Arrays
open Spec

/-- What the loop over the arrays keeps. -/
structure MxOk (ds : List Int) (m : Mx) : Prop where
  s : m.string = -1
  o : m.object = -1
  a : m.abort = 0
  f : m.float ∈ [-1, 11, 12, 13]
  i : m.int ∈ [-1, 0, 1, 3, 5, 7, 9]
  u : m.uint ∈ [-1, 2, 4, 6, 8, 10]
  le : ∀ d ∈ ds, (d ≥ 11 ∧ d ≤ m.float) ∨ (d < 11 ∧ (d % 2 ≠ 0 ∨ d = 0) ∧ d ≤ m.int) ∨
    (d < 11 ∧ d % 2 = 0 ∧ d ≠ 0 ∧ d ≤ m.uint)
  hf : m.float = -1 ∨ m.float ∈ ds
  hi : m.int = -1 ∨ m.int ∈ ds
  hu : m.uint = -1 ∨ m.uint ∈ ds

theorem mxOk_step {ds : List Int} {m : Mx} (h : MxOk ds m) (d : Int) (hd : 0 ≤ d ∧ d ≤ 13) :
    MxOk (ds ++ [d]) (mxStep m d) := by
  obtain ⟨hs, ho, ha, hf, hi, hu, hle, mf, mi, mu⟩ := h
  simp only [List.mem_cons, List.not_mem_nil, or_false] at hf hi hu
  unfold mxStep
  rw [if_pos hd.2]
  split
  · refine ⟨hs, ho, ha, ?_, by simpa using hi, by simpa using hu, ?_, ?_, ?_, ?_⟩
    · dsimp only; simp only [List.mem_cons, List.not_mem_nil, or_false]; split <;> omega
    · intro e he
      rcases List.mem_append.1 he with he | he
      · have := hle e he; dsimp only; split <;> omega
      · have : e = d := by simpa using he
        subst this; dsimp only; left; split <;> omega
    · dsimp only; split
      · right; simp
      · rcases mf with mf | mf
        · left; exact mf
        · right; simp [mf]
    · rcases mi with mi | mi
      · left; exact mi
      · right; simp [mi]
    · rcases mu with mi | mi
      · left; exact mi
      · right; simp [mi]
  · split
    · refine ⟨hs, ho, ha, by simpa using hf, ?_, by simpa using hu, ?_, ?_, ?_, ?_⟩
      · dsimp only; simp only [List.mem_cons, List.not_mem_nil, or_false]; split <;> omega
      · intro e he
        rcases List.mem_append.1 he with he | he
        · have := hle e he; dsimp only; split <;> omega
        · have : e = d := by simpa using he
          subst this; dsimp only; right; left; split <;> omega
      · rcases mf with mi | mi
        · left; exact mi
        · right; simp [mi]
      · dsimp only; split
        · right; simp
        · rcases mi with mf | mf
          · left; exact mf
          · right; simp [mf]
      · rcases mu with mi | mi
        · left; exact mi
        · right; simp [mi]
    · refine ⟨hs, ho, ha, by simpa using hf, by simpa using hi, ?_, ?_, ?_, ?_, ?_⟩
      · dsimp only; simp only [List.mem_cons, List.not_mem_nil, or_false]; split <;> omega
      · intro e he
        rcases List.mem_append.1 he with he | he
        · have := hle e he; dsimp only; split <;> omega
        · have : e = d := by simpa using he
          subst this; dsimp only; right; right; split <;> omega
      · rcases mf with mi | mi
        · left; exact mi
        · right; simp [mi]
      · rcases mi with mi | mi
        · left; exact mi
        · right; simp [mi]
      · dsimp only; split
        · right; simp
        · rcases mu with mf | mf
          · left; exact mf
          · right; simp [mf]

theorem mxOk_fold (ds : List Int) (hd : ∀ d ∈ ds, 0 ≤ d ∧ d ≤ 13) :
    MxOk ds (ds.foldl mxStep ⟨-1, -1, -1, -1, -1, 0⟩) := by
  suffices h : ∀ (rest done : List Int) (m : Mx), (∀ d ∈ rest, 0 ≤ d ∧ d ≤ 13) → MxOk done m →
      MxOk (done ++ rest) (rest.foldl mxStep m) from
    h ds [] _ hd ⟨rfl, rfl, rfl, by simp, by simp, by simp, by simp, .inl rfl, .inl rfl, .inl rfl⟩
  intro rest
  induction rest with
  | nil => intro done m _ h; simpa using h
  | cons d rest ih =>
    intro done m hr h
    have := ih (done ++ [d]) (mxStep m d) (fun e he => hr e (by simp [he])) (mxOk_step h d (hr d (by simp)))
    simpa using this

/-- The finite table behind the decision. -/
def tableOk (f i u d : Int) : Bool :=
  let r := mxResult ⟨f, i, u, -1, -1, 0⟩
  holds d r || (decide (r = 12) && (d == 7 || d == 8 || d == 9 || d == 10)) || (d == 8 && decide (r = 9) && decide (i = 9))

theorem table : ∀ f ∈ [-1, 11, 12, 13], ∀ i ∈ [-1, 0, 1, 3, 5, 7, 9], ∀ u ∈ [-1, 2, 4, 6, 8, 10],
    ∀ d ∈ [0, 1, 2, 3, 4, 5, 6, 7, 8, 9, 10, 11, 12, 13],
    ((d ≥ 11 ∧ d ≤ f) ∨ (d < 11 ∧ (d % 2 ≠ 0 ∨ d = 0) ∧ d ≤ i) ∨ (d < 11 ∧ d % 2 = 0 ∧ d ≠ 0 ∧ d ≤ u)) →
    tableOk f i u d = true := by decide +kernel

/-- C65, the part that is true: for numeric arrays the common type holds every value of every array, unless a 64-bit integer type
meets the type double, or the type numbered 8 (unsigned 64 bits) meets the signed type numbered 9. -/
theorem upcast_holds_partial (ds : List Int) (hd : ∀ d ∈ ds, 0 ≤ d ∧ d ≤ 13) (d : Int) (h : d ∈ ds) :
    holds d (upcast ds) = true ∨ (upcast ds = 12 ∧ (d = 7 ∨ d = 8 ∨ d = 9 ∨ d = 10)) ∨
      (upcast ds = 9 ∧ d = 8 ∧ 9 ∈ ds) := by
  have hk := mxOk_fold ds hd
  unfold upcast
  generalize ds.foldl mxStep ⟨-1, -1, -1, -1, -1, 0⟩ = m at hk
  obtain ⟨f, i, u, s, o, a⟩ := m
  obtain ⟨hs, ho, ha, hf, hi, hu, hle, mf, mi, mu⟩ := hk
  dsimp only at hs ho ha hf hi hu hle mi
  subst hs ho ha
  have hd' := hd d h
  have hmem : d ∈ ([0, 1, 2, 3, 4, 5, 6, 7, 8, 9, 10, 11, 12, 13] : List Int) := by
    simp only [List.mem_cons, List.not_mem_nil, or_false]; omega
  have ht := table f hf i hi u hu d hmem (hle d h)
  unfold tableOk at ht
  dsimp only at ht
  rcases hb : holds d (mxResult ⟨f, i, u, -1, -1, 0⟩) with _ | _
  · right
    rw [hb] at ht
    simp only [Bool.false_or, Bool.or_eq_true, Bool.and_eq_true, decide_eq_true_eq, beq_iff_eq] at ht
    rcases ht with ⟨h1, h2⟩ | ⟨⟨h1, h2⟩, h3⟩
    · left; exact ⟨h1, by rcases h2 with ((h2 | h2) | h2) | h2 <;> simp [h2]⟩
    · right
      refine ⟨h2, h1, ?_⟩
      rcases mi with mi | mi
      · rw [h3] at mi; exact absurd mi (by decide)
      · rw [h3] at mi; exact mi
  · left; rfl

/-- Without 64-bit integers nothing is lost. -/
theorem upcast_holds_small (ds : List Int) (hd : ∀ d ∈ ds, 0 ≤ d ∧ d ≤ 13 ∧ d ≠ 7 ∧ d ≠ 8 ∧ d ≠ 9 ∧ d ≠ 10) (d : Int) (h : d ∈ ds) :
    holds d (upcast ds) = true := by
  rcases upcast_holds_partial ds (fun e he => ⟨(hd e he).1, (hd e he).2.1⟩) d h with h1 | ⟨_, h1⟩ | ⟨_, h1, _⟩
  · exact h1
  · have := hd d h; omega
  · have := hd d h; omega

/-- C65 is false of the code: an unsigned and a signed 64-bit array may get a signed type, which loses the upper half of the unsigned
one; in the other order of type numbers they become double. -/
theorem upcast_loses_unsigned : upcast [9, 8] = 9 ∧ holds 8 9 = false ∧ upcast [7, 10] = 12 ∧ upcast [7, 8] = 12 := by
  decide

/-- Booleans count as signed integers: with an unsigned array the result is the next larger signed type, and double, which loses
values, for an unsigned 64-bit array, although all booleans are values of the unsigned type. -/
theorem upcast_bool_unsigned : upcast [0, 2] = 3 ∧ upcast [0, 8] = 12 ∧ holds 0 8 = true ∧ holds 8 12 = false := by
  decide

example : upcast [1, 2, 5] = 5 ∧ upcast [1, 2] = 3 ∧ upcast [3, 11] = 11 ∧ upcast [5, 11] = 12 ∧ upcast [18, 19] = 19 := by decide
example : ∀ d ∈ ([1, 2, 5] : List Int), holds d 5 = true := by decide

theorem mxStep_comm (m : Mx) (d e : Int) (hd : d ≤ 13 ∨ d = 17 ∨ d = 18 ∨ d = 19) (he : e ≤ 13 ∨ e = 17 ∨ e = 18 ∨ e = 19) :
    mxStep (mxStep m d) e = mxStep (mxStep m e) d := by
  obtain ⟨f, i, u, s, o, a⟩ := m
  unfold mxStep
  rcases hd with hd | hd | hd | hd <;> rcases he with he | he | he | he <;>
    (try subst hd) <;> (try subst he) <;> grind

/-- Which arrays there are decides, not their order. -/
theorem upcast_perm (l₁ l₂ : List Int) (hp : l₁.Perm l₂) : upcast l₁ = upcast l₂ := by
  by_cases hall : ∀ d ∈ l₁, d ≤ 13 ∨ d = 17 ∨ d = 18 ∨ d = 19
  · unfold upcast
    congr 1
    generalize (⟨-1, -1, -1, -1, -1, 0⟩ : Mx) = m
    induction hp generalizing m with
    | nil => rfl
    | cons x _ ih => exact ih (fun d hd => hall d (by simp [hd])) _
    | swap x y l =>
      show List.foldl mxStep (mxStep (mxStep m y) x) l = List.foldl mxStep (mxStep (mxStep m x) y) l
      rw [mxStep_comm m y x (hall y (by simp)) (hall x (by simp))]
    | trans h1 _ ih1 ih2 =>
      rw [ih1 hall, ih2 (fun d hd => hall d (h1.mem_iff.2 hd))]
  · have key : ∀ (l : List Int), (¬ ∀ d ∈ l, d ≤ 13 ∨ d = 17 ∨ d = 18 ∨ d = 19) → upcast l = -1 := by
      intro l hl
      have mono : ∀ (l : List Int) (m : Mx), m.abort > 0 → (l.foldl mxStep m).abort > 0 := by
        intro l
        induction l with
        | nil => intro m h; exact h
        | cons d l ih =>
          intro m h
          refine ih _ ?_
          unfold mxStep
          grind
      have : ∀ (l : List Int) (m : Mx), (¬ ∀ d ∈ l, d ≤ 13 ∨ d = 17 ∨ d = 18 ∨ d = 19) → (l.foldl mxStep m).abort > 0 := by
        intro l
        induction l with
        | nil => intro m h; exact absurd (by simp) h
        | cons d l ih =>
          intro m h
          by_cases hd : d ≤ 13 ∨ d = 17 ∨ d = 18 ∨ d = 19
          · exact ih _ (fun h' => h fun e he => (List.mem_cons.1 he).elim (fun q => q ▸ hd) (h' e))
          · refine mono l _ ?_
            unfold mxStep
            grind
      unfold upcast mxResult
      rw [if_pos (this l _ hl)]
    rw [key l₁ hall, key l₂ (fun h => hall fun d hd => h d (hp.mem_iff.1 hd))]

example : ([9, 8, 0] : List Int).Perm [0, 9, 8] := by decide

/-! ### Trimming -/

theorem trimLoop_append (pre x post : List Nat) (e : Nat) (he : e ≤ x.length) :
    trimLoop pre.length e (pre ++ x ++ post) = pre ++ trimLoop 0 e x ++ post := by
  induction e generalizing x with
  | zero => rfl
  | succ e ih =>
    have h1 : (pre ++ x ++ post).getD (pre.length + e) 1 = x.getD (0 + e) 1 := by
      rw [List.append_assoc, List.getD_eq_getElem?_getD, List.getElem?_append_right (by omega), List.getElem?_append_left (by omega),
        List.getD_eq_getElem?_getD]
      congr 2; omega
    have h2 : (pre ++ x ++ post).set (pre.length + e) 0 = pre ++ x.set (0 + e) 0 ++ post := by
      rw [List.append_assoc, List.set_append_right _ _ (by omega), List.set_append_left _ _ (by omega), List.append_assoc]
      congr 3; omega
    unfold trimLoop
    rw [h1, h2]
    split
    · exact ih _ (by simp; omega)
    · rfl

theorem trimLoop_spec (p q : List Nat) (hq : ∀ u ∈ q, u = 32 ∨ u = 0) :
    ∃ y, trimLoop 0 p.length (p ++ List.replicate q.length 0) = y ∧ Trimmed (p ++ q) y := by
  induction hn : p.length generalizing p q with
  | zero =>
    have : p = [] := List.length_eq_zero_iff.1 hn
    subst this
    exact ⟨_, rfl, [], q, rfl, hq, by simp, rfl⟩
  | succ e ih =>
    have hne : p ≠ [] := by intro h; subst h; simp at hn
    obtain ⟨p', u, rfl⟩ : ∃ p' u, p = p' ++ [u] := ⟨p.dropLast, p.getLast hne, (List.dropLast_concat_getLast hne).symm⟩
    have hl : p'.length = e := by simpa using hn
    unfold trimLoop
    have h1 : (p' ++ [u] ++ List.replicate q.length 0).getD (0 + e) 1 = u := by
      rw [List.getD_eq_getElem?_getD, List.append_assoc, List.getElem?_append_right (by omega)]
      simp [hl]
    rw [h1]
    by_cases hu : u = 32 ∨ u = 0
    · rw [if_pos hu]
      have h2 : (p' ++ [u] ++ List.replicate q.length 0).set (0 + e) 0 = p' ++ List.replicate (u :: q).length 0 := by
        rw [List.append_assoc, List.set_append_right _ _ (by omega)]
        simp [hl, List.replicate_succ]
      rw [h2]
      have := ih p' (u :: q) (fun v hv => (List.mem_cons.1 hv).elim (fun q => q ▸ hu) (hq v)) hl
      simpa using this
    · rw [if_neg hu]
      refine ⟨_, rfl, p' ++ [u], q, rfl, hq, ?_, rfl⟩
      intro v hv
      have : v = u := by simpa using hv.symm
      subst this
      exact ⟨fun h => hu (.inl h), fun h => hu (.inr h)⟩

theorem trim_item (x : List Nat) : Trimmed x (trimLoop 0 x.length x) := by
  obtain ⟨y, h1, h2⟩ := trimLoop_spec x [] (by simp)
  simp at h1 h2
  rw [h1]; exact h2

theorem trim_length (s e : Nat) (l : List Nat) : (trimLoop s e l).length = l.length := by
  induction e generalizing l with
  | zero => rfl
  | succ e ih => unfold trimLoop; split <;> simp [ih]

/-- C66: every item of a contiguous array of strings is trimmed, nothing else is touched. -/
theorem trim_all (w : Nat) (items : List (List Nat)) (hw : ∀ x ∈ items, x.length = w) (rest : List Nat) :
    ∃ items' : List (List Nat), trimAll w items.length (items.flatten ++ rest) = items'.flatten ++ rest ∧ items'.length = items.length ∧
      ∀ (i : Nat) (x y : List Nat), items[i]? = some x → items'[i]? = some y → Trimmed x y := by
  refine ⟨items.map (trimLoop 0 w), ?_, by simp, ?_⟩
  · suffices h : ∀ (n : Nat), n ≤ items.length →
        (List.range n).foldl (fun l i => trimLoop (i * w) w l) (items.flatten ++ rest) =
          ((items.take n).map (trimLoop 0 w)).flatten ++ ((items.drop n).flatten ++ rest) by
      have := h items.length (Nat.le_refl _)
      simpa [trimAll] using this
    intro n
    induction n with
    | zero => intro _; simp
    | succ n ih =>
      intro hn
      rw [List.range_succ, List.foldl_append, ih (by omega)]
      show trimLoop (n * w) w _ = _
      have hx : items.drop n = items[n] :: items.drop (n + 1) := List.drop_eq_getElem_cons (by omega)
      have hlen : ((items.take n).map (trimLoop 0 w)).flatten.length = n * w := by
        rw [List.length_flatten, List.map_map]
        have : (items.take n).map (List.length ∘ trimLoop 0 w) = List.replicate n w := by
          rw [List.eq_replicate_iff]
          refine ⟨by simp; omega, ?_⟩
          intro b hb
          obtain ⟨x, hx, rfl⟩ := List.mem_map.1 hb
          show (trimLoop 0 w x).length = w
          rw [trim_length]; exact hw x (List.mem_of_mem_take hx)
        rw [this]; simp
      have hxw : items[n].length = w := hw _ (List.getElem_mem _)
      rw [hx, List.flatten_cons, List.append_assoc, ← List.append_assoc _ items[n]]
      have := trimLoop_append ((items.take n).map (trimLoop 0 w)).flatten items[n] ((items.drop (n + 1)).flatten ++ rest) w (by omega)
      rw [hlen] at this
      rw [this]
      have ht : items.take (n + 1) = items.take n ++ [items[n]] := by
        rw [List.take_add_one, List.getElem?_eq_getElem (by omega)]; rfl
      rw [ht, List.map_append, List.flatten_append]
      show _ = _ ++ ([trimLoop 0 w items[n]]).flatten ++ _
      rw [List.flatten_cons, List.flatten_nil, List.append_nil]
  · intro i x y hx hy
    rw [List.getElem?_map, hx] at hy
    have : y = trimLoop 0 w x := by simpa using hy.symm
    rw [this, ← hw x (List.mem_of_getElem? hx)]
    exact trim_item x

/-- The result of trimming is determined and a second pass changes nothing. -/
theorem trimmed_unique {x y z : List Nat} (h1 : Trimmed x y) (h2 : Trimmed x z) : y = z := by
  obtain ⟨p, q, rfl, hq, hp, rfl⟩ := h1
  obtain ⟨p', q', he, hq', hp', rfl⟩ := h2
  have key : ∀ (p q p' q' : List Nat), p ++ q = p' ++ q' → (∀ u ∈ q', u = 32 ∨ u = 0) →
      (∀ u, p.getLast? = some u → u ≠ 32 ∧ u ≠ 0) → p.length ≤ p'.length := by
    intro p q p' q' he hq' hp
    apply Nat.le_of_not_lt
    intro hlt
    have hne : p ≠ [] := by intro h; subst h; simp at hlt
    have hlast : p.getLast? = (p ++ q)[p.length - 1]? := by
      rw [List.getElem?_append_left (by omega), List.getLast?_eq_getElem?]
    rw [he, List.getElem?_append_right (by omega)] at hlast
    rw [List.getLast?_eq_some_getLast hne] at hlast hp
    have hmem := List.mem_of_getElem? hlast.symm
    have := hq' _ hmem
    have := hp _ rfl
    omega
  have hl : p.length = p'.length := Nat.le_antisymm (key p q p' q' he hq' hp) (key p' q' p q he.symm hq hp')
  obtain ⟨rfl, rfl⟩ := List.append_inj he hl
  rfl

theorem trim_idempotent {x y z : List Nat} (h1 : Trimmed x y) (h2 : Trimmed y z) : z = y := by
  obtain ⟨p, q, rfl, hq, hp, rfl⟩ := h1
  exact trimmed_unique h2 ⟨p, List.replicate q.length 0, rfl, by
    intro u hu; right; exact (List.mem_replicate.1 hu).2, hp, by simp⟩

/-- C66 is false of arrays that are not contiguous: for the items 0 and 2 of four the code trims items 0 and 1. -/
theorem trim_ignores_stride :
    trimAll 2 2 [97, 32, 98, 32, 99, 32, 100, 32] = [97, 0, 98, 0, 99, 32, 100, 32] := by decide

example : trimAll 3 2 [97, 32, 0, 32, 98, 32] = [97, 0, 0, 32, 98, 0] := by decide

end Riptide.Arrays
