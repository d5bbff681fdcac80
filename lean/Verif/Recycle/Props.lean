import Verif.Recycle.Model
/-! Property C36: the array recycler. -/
namespace Riptide.Recycle

/-- Slot `k` of a bucket holds array `a`. -/
def InSlot (s : Rec) (i j k a : Nat) : Prop := k < 4 ∧ (s.item i j k).size ≠ 0 ∧ (s.item i j k).arr = a

/-- The recycler holds array `a`. -/
def Held (s : Rec) (a : Nat) : Prop := ∃ i j k, InSlot s i j k a

/-- How many slots of a bucket are occupied. -/
def occupied (s : Rec) (i j : Nat) : Nat := (List.range 4).countP fun k => decide ((s.item i j k).size ≠ 0)

/-- The invariant of the recycler. -/
structure RecInv (s : Rec) : Prop where
  count : ∀ i j, s.head i j - s.tail i j = occupied s i j
  slot : ∀ i j k a, InSlot s i j k a → (s.item i j k).size = (s.info a).len ∧ i = lzcnt (s.info a).len ∧
    j = (s.info a).type ∧ j < 14 ∧ (s.info a).ndim = 1 ∧ (s.info a).plain = true
  once : ∀ i j k i' j' k' a, InSlot s i j k a → InSlot s i' j' k' a → i = i' ∧ j = j' ∧ k = k'
  refsHeld : ∀ a, Held s a → s.refs a = s.outside a + 1
  refsFree : ∀ a, ¬ Held s a → s.refs a = s.outside a

theorem occupied_le (s : Rec) (i j : Nat) : occupied s i j ≤ 4 := by
  have := List.countP_le_length (p := fun k => decide ((s.item i j k).size ≠ 0)) (l := List.range 4)
  rw [List.length_range] at this
  exact this

/-- Changing one slot changes the count accordingly. -/
theorem count_update (f : Nat → Item) (k : Nat) (hk : k < 4) (v : Item) :
    (List.range 4).countP (fun k' => decide ((if k' = k then v else f k').size ≠ 0)) +
      (if (f k).size ≠ 0 then 1 else 0) =
    (List.range 4).countP (fun k' => decide ((f k').size ≠ 0)) + (if v.size ≠ 0 then 1 else 0) := by
  have e : List.range 4 = [0, 1, 2, 3] := rfl
  rw [e]
  simp only [List.countP_cons, List.countP_nil, decide_eq_true_eq]
  match k, hk with
  | 0, _ => simp; omega
  | 1, _ => simp; omega
  | 2, _ => simp; omega
  | 3, _ => simp; omega

theorem occupied_updItem (s : Rec) (i j k : Nat) (hk : k < 4) (v : Item) (s' : Rec)
    (h : s'.item = updItem s.item i j k v) (i' j' : Nat) :
    occupied s' i' j' + (if i' = i ∧ j' = j then (if (s.item i j k).size ≠ 0 then 1 else 0) else 0) =
    occupied s i' j' + (if i' = i ∧ j' = j then (if v.size ≠ 0 then 1 else 0) else 0) := by
  unfold occupied
  rw [h]
  by_cases hb : i' = i ∧ j' = j
  · obtain ⟨rfl, rfl⟩ := hb
    simp only [and_self, if_true]
    have := count_update (s.item i' j') k hk v
    simp only [updItem, true_and]
    exact this
  · have : ∀ k', updItem s.item i j k v i' j' k' = s.item i' j' k' := by
      intro k'
      unfold updItem
      rw [if_neg (fun ⟨a, b, _⟩ => hb ⟨a, b⟩)]
    simp only [this, if_neg hb]

/-- Emptying a slot; `r` and `o` are the new reference counts of its array. -/
theorem remove_inv {s : Rec} (h : RecInv s) {i j k a : Nat} (hs : InSlot s i j k a) (r o : Nat) (hro : r = o) :
    RecInv { s.remove i j k with refs := updRef s.refs a r, outside := updRef s.outside a o } ∧
    (∀ i' j' k' a', InSlot { s.remove i j k with refs := updRef s.refs a r, outside := updRef s.outside a o } i' j' k' a' ↔
      InSlot s i' j' k' a' ∧ ¬ (i' = i ∧ j' = j ∧ k' = k)) := by
  have hin : ∀ i' j' k' a', InSlot { s.remove i j k with refs := updRef s.refs a r, outside := updRef s.outside a o }
      i' j' k' a' ↔ InSlot s i' j' k' a' ∧ ¬ (i' = i ∧ j' = j ∧ k' = k) := by
    intro i' j' k' a'
    unfold InSlot
    show k' < 4 ∧ (updItem s.item i j k _ i' j' k').size ≠ 0 ∧ (updItem s.item i j k _ i' j' k').arr = a' ↔ _
    unfold updItem
    by_cases hb : i' = i ∧ j' = j ∧ k' = k
    · rw [if_pos hb]; simp [hb]
    · rw [if_neg hb]; simp [hb]
  have hnh : ∀ a', Held { s.remove i j k with refs := updRef s.refs a r, outside := updRef s.outside a o } a' ↔
      Held s a' ∧ a' ≠ a := by
    intro a'
    constructor
    · rintro ⟨i', j', k', h'⟩
      obtain ⟨h1, h2⟩ := (hin _ _ _ _).1 h'
      refine ⟨⟨i', j', k', h1⟩, fun e => h2 ?_⟩
      rw [e] at h1
      exact h.once _ _ _ _ _ _ _ h1 hs
    · rintro ⟨⟨i', j', k', h'⟩, hne⟩
      refine ⟨i', j', k', (hin _ _ _ _).2 ⟨h', ?_⟩⟩
      rintro ⟨rfl, rfl, rfl⟩
      exact hne (h'.2.2.symm.trans hs.2.2)
  refine ⟨⟨?_, ?_, ?_, ?_, ?_⟩, hin⟩
  · intro i' j'
    have h1 := occupied_updItem s i j k hs.1 { s.item i j k with size := 0, arr := 0 }
      { s.remove i j k with refs := updRef s.refs a r, outside := updRef s.outside a o } rfl i' j'
    have h2 := h.count i' j'
    show s.head i' j' - upd2 s.tail i j (s.tail i j + 1) i' j' = _
    unfold upd2
    rw [if_pos (show (s.item i j k).size ≠ 0 from hs.2.1)] at h1
    by_cases hb : i' = i ∧ j' = j
    · obtain ⟨rfl, rfl⟩ := hb
      simp only [and_self, if_true] at h1 ⊢
      rw [if_neg (by simp)] at h1
      omega
    · rw [if_neg hb] at h1 ⊢
      rw [if_neg hb] at h1
      omega
  · intro i' j' k' a' h'
    obtain ⟨h1, h2⟩ := (hin _ _ _ _).1 h'
    have := h.slot _ _ _ _ h1
    show (updItem s.item i j k _ i' j' k').size = _ ∧ _
    unfold updItem
    rw [if_neg h2]; exact this
  · intro i1 j1 k1 i2 j2 k2 a' h1 h2
    exact h.once _ _ _ _ _ _ _ ((hin _ _ _ _).1 h1).1 ((hin _ _ _ _).1 h2).1
  · intro a' h'
    obtain ⟨h1, h2⟩ := (hnh _).1 h'
    show updRef s.refs a r a' = updRef s.outside a o a' + 1
    unfold updRef
    rw [if_neg h2, if_neg h2]; exact h.refsHeld _ h1
  · intro a' h'
    show updRef s.refs a r a' = updRef s.outside a o a'
    unfold updRef
    by_cases e : a' = a
    · rw [if_pos e, if_pos e]; exact hro
    · rw [if_neg e, if_neg e]; exact h.refsFree _ (fun hh => h' ((hnh _).2 ⟨hh, e⟩))

theorem updRef_self {α : Type} (f : Nat → α) (a : Nat) : updRef f a (f a) = f := by
  funext a'; unfold updRef; split
  · rename_i e; rw [e]
  · rfl

/-- `RefCountNumpyArray(…, false)` on an occupied slot. -/
theorem release_inv {s : Rec} (h : RecInv s) {i j k a : Nat} (hs : InSlot s i j k a) :
    ∃ s', s.release i j k = some s' ∧ RecInv s' ∧
      (∀ i' j' k' a', InSlot s' i' j' k' a' ↔ InSlot s i' j' k' a' ∧ ¬ (i' = i ∧ j' = j ∧ k' = k)) ∧
      s'.outside = s.outside ∧ s'.info = s.info ∧ s'.mode = s.mode ∧ s'.timespan = s.timespan := by
  have hr := h.refsHeld a ⟨i, j, k, hs⟩
  obtain ⟨h1, h2⟩ := remove_inv h hs (s.refs a - 1) (s.outside a) (by omega)
  rw [updRef_self] at h1 h2
  unfold Rec.release
  dsimp only
  rw [hs.2.2, if_neg (by omega)]
  exact ⟨_, rfl, h1, h2, rfl, rfl, rfl, rfl⟩

/-- Storing an array that is not held into an empty slot of its bucket. -/
theorem store_inv {s : Rec} (h : RecInv s) {k a : Nat} (now : Nat) (hk : k < 4)
    (hempty : (s.item (lzcnt (s.info a).len) (s.info a).type k).size = 0) (hn : ¬ Held s a)
    (hlen : (s.info a).len ≥ 1) (ht : (s.info a).type < 14) (hd : (s.info a).ndim = 1)
    (hp : (s.info a).plain = true) :
    RecInv (s.store (lzcnt (s.info a).len) (s.info a).type k a now) := by
  obtain ⟨i, hi⟩ : ∃ i, i = lzcnt (s.info a).len := ⟨_, rfl⟩
  obtain ⟨j, hj⟩ : ∃ j, j = (s.info a).type := ⟨_, rfl⟩
  rw [← hi, ← hj] at hempty ⊢
  have hin : ∀ i' j' k' a', InSlot (s.store i j k a now) i' j' k' a' ↔
      InSlot s i' j' k' a' ∨ (i' = i ∧ j' = j ∧ k' = k ∧ a' = a) := by
    intro i' j' k' a'
    unfold InSlot
    show k' < 4 ∧ (updItem s.item i j k _ i' j' k').size ≠ 0 ∧ (updItem s.item i j k _ i' j' k').arr = a' ↔ _
    unfold updItem
    by_cases hb : i' = i ∧ j' = j ∧ k' = k
    · obtain ⟨rfl, rfl, rfl⟩ := hb
      rw [if_pos ⟨rfl, rfl, rfl⟩]
      constructor
      · rintro ⟨-, -, h3⟩; exact .inr ⟨rfl, rfl, rfl, h3.symm⟩
      · rintro (⟨-, h3, -⟩ | ⟨-, -, -, rfl⟩)
        · exact absurd hempty h3
        · exact ⟨hk, by show (s.info a').len ≠ 0; omega, rfl⟩
    · rw [if_neg hb]
      constructor
      · intro h3; exact .inl h3
      · rintro (h3 | ⟨e1, e2, e3, -⟩)
        · exact h3
        · exact absurd ⟨e1, e2, e3⟩ hb
  have hheld : ∀ a', Held (s.store i j k a now) a' ↔ Held s a' ∨ a' = a := by
    intro a'
    constructor
    · rintro ⟨i', j', k', h'⟩
      rcases (hin _ _ _ _).1 h' with h1 | ⟨-, -, -, e⟩
      · exact .inl ⟨_, _, _, h1⟩
      · exact .inr e
    · rintro (⟨i', j', k', h'⟩ | rfl)
      · exact ⟨_, _, _, (hin _ _ _ _).2 (.inl h')⟩
      · exact ⟨i, j, k, (hin _ _ _ _).2 (.inr ⟨rfl, rfl, rfl, rfl⟩)⟩
  refine ⟨?_, ?_, ?_, ?_, ?_⟩
  · intro i' j'
    have h1 := occupied_updItem s i j k hk ⟨(s.info a).len, now, (s.info a).addr, a⟩ (s.store i j k a now) rfl i' j'
    have h2 := h.count i' j'
    show upd2 s.head i j (s.head i j + 1) i' j' - s.tail i' j' = _
    unfold upd2
    rw [if_neg (show ¬ (s.item i j k).size ≠ 0 by omega),
      if_pos (show (⟨(s.info a).len, now, (s.info a).addr, a⟩ : Item).size ≠ 0 by show (s.info a).len ≠ 0; omega)] at h1
    by_cases hb : i' = i ∧ j' = j
    · obtain ⟨rfl, rfl⟩ := hb
      simp only [and_self, if_true] at h1 ⊢
      omega
    · rw [if_neg hb] at h1 ⊢
      rw [if_neg hb] at h1
      omega
  · intro i' j' k' a' h'
    show (updItem s.item i j k _ i' j' k').size = (s.info a').len ∧ _
    unfold updItem
    by_cases hb : i' = i ∧ j' = j ∧ k' = k
    · rw [if_pos hb]
      rcases (hin _ _ _ _).1 h' with ⟨-, h3, -⟩ | ⟨-, -, -, e⟩
      · obtain ⟨rfl, rfl, rfl⟩ := hb; exact absurd hempty h3
      · rw [e]
        exact ⟨rfl, hb.1.trans hi, hb.2.1.trans hj, by rw [hb.2.1, hj]; exact ht, hd, hp⟩
    · rw [if_neg hb]
      rcases (hin _ _ _ _).1 h' with h1 | ⟨e1, e2, e3, -⟩
      · exact h.slot _ _ _ _ h1
      · exact absurd ⟨e1, e2, e3⟩ hb
  · intro i1 j1 k1 i2 j2 k2 a' h1 h2
    rcases (hin _ _ _ _).1 h1 with h1 | ⟨e1, e2, e3, e4⟩
    · rcases (hin _ _ _ _).1 h2 with h2 | ⟨-, -, -, e4⟩
      · exact h.once _ _ _ _ _ _ _ h1 h2
      · rw [e4] at h1; exact absurd ⟨_, _, _, h1⟩ hn
    · rcases (hin _ _ _ _).1 h2 with h2 | ⟨f1, f2, f3, -⟩
      · rw [e4] at h2; exact absurd ⟨_, _, _, h2⟩ hn
      · exact ⟨e1.trans f1.symm, e2.trans f2.symm, e3.trans f3.symm⟩
  · intro a' h'
    show updRef s.refs a (s.refs a + 1) a' = s.outside a' + 1
    unfold updRef
    by_cases e : a' = a
    · rw [if_pos e, e, h.refsFree a hn]
    · rw [if_neg e]
      rcases (hheld _).1 h' with h1 | h1
      · exact h.refsHeld _ h1
      · exact absurd h1 e
  · intro a' h'
    show updRef s.refs a (s.refs a + 1) a' = s.outside a'
    unfold updRef
    by_cases e : a' = a
    · exact absurd ((hheld _).2 (.inr e)) h'
    · rw [if_neg e]; exact h.refsFree _ (fun hh => h' ((hheld _).2 (.inl hh)))

/-- The parts of the state which the recycler does not touch. -/
def SameWorld (s s' : Rec) : Prop :=
  s'.outside = s.outside ∧ s'.info = s.info ∧ s'.mode = s.mode ∧ s'.timespan = s.timespan

theorem gcSlot_inv {s : Rec} (h : RecInv s) (now : Nat) (span : Int) {p : Nat × Nat × Nat} (hp : p.2.2 < 4) :
    ∃ s', s.gcSlot now span p = some s' ∧ RecInv s' ∧ SameWorld s s' ∧ ∀ a, Held s' a → Held s a := by
  unfold Rec.gcSlot
  split
  · rename_i hc
    obtain ⟨s', h1, h2, h3, h4⟩ := release_inv h (i := p.1) (j := p.2.1) (k := p.2.2)
      (a := (s.item p.1 p.2.1 p.2.2).arr) ⟨hp, by omega, rfl⟩
    exact ⟨s', h1, h2, h4, fun a ⟨i, j, k, hh⟩ => ⟨i, j, k, ((h3 _ _ _ _).1 hh).1⟩⟩
  · exact ⟨s, rfl, h, ⟨rfl, rfl, rfl, rfl⟩, fun _ h => h⟩

theorem collect_inv {s : Rec} (h : RecInv s) (now : Nat) (timespan : Int) (force : Bool) :
    ∃ s', s.collect now timespan force = some s' ∧ RecInv s' ∧ SameWorld s s' ∧ ∀ a, Held s' a → Held s a := by
  unfold Rec.collect
  split
  · exact ⟨s, rfl, h, ⟨rfl, rfl, rfl, rfl⟩, fun _ h => h⟩
  · have gen : ∀ (l : List (Nat × Nat × Nat)), (∀ p ∈ l, p.2.2 < 4) → ∀ s : Rec, RecInv s →
        ∃ s', l.foldlM (Rec.gcSlot now (timespan * 1000000000)) s = some s' ∧ RecInv s' ∧ SameWorld s s' ∧
          ∀ a, Held s' a → Held s a := by
      intro l
      induction l with
      | nil => intro _ s h; exact ⟨s, rfl, h, ⟨rfl, rfl, rfl, rfl⟩, fun _ h => h⟩
      | cons p l ih =>
        intro hl s h
        obtain ⟨s1, a1, a2, a3, a4⟩ := gcSlot_inv h now (timespan * 1000000000) (hl p (List.mem_cons_self ..))
        obtain ⟨s2, b1, b2, b3, b4⟩ := ih (fun q hq => hl q (List.mem_cons_of_mem _ hq)) s1 a2
        refine ⟨s2, ?_, b2, ⟨b3.1.trans a3.1, b3.2.1.trans a3.2.1, b3.2.2.1.trans a3.2.2.1, b3.2.2.2.trans a3.2.2.2⟩,
          fun a hh => a4 a (b4 a hh)⟩
        rw [List.foldlM_cons, a1]; exact b1
    refine gen slots ?_ _ ⟨h.count, h.slot, h.once, h.refsHeld, h.refsFree⟩
    intro p hp
    unfold slots at hp
    simp only [List.mem_flatMap, List.mem_map, List.mem_range] at hp
    obtain ⟨i, -, j, -, k, hk, rfl⟩ := hp
    exact hk

theorem victim_run {s : Rec} (h : RecInv s) (i j : Nat) (hfull : ∀ k, k < 4 → (s.item i j k).size ≠ 0) :
    ∀ (l : List Nat), (∀ k ∈ l, k < 4) → ∃ k, victim s.refs (s.item i j) (s.head i j) l = some k ∧ k < 4
  | [], _ => ⟨(s.head i j % 4).toNat, rfl, by omega⟩
  | k :: ks, hl => by
    unfold victim
    have hk := hl k (List.mem_cons_self ..)
    have hr := h.refsHeld _ ⟨i, j, k, hk, hfull k hk, rfl⟩
    rw [if_neg (by omega)]
    split
    · exact ⟨k, rfl, hk⟩
    · exact victim_run h i j hfull ks (fun q hq => hl q (List.mem_cons_of_mem _ hq))

theorem slotFor_inv {s : Rec} (h : RecInv s) (i j : Nat) :
    ∃ s' k, s.slotFor i j = some (s', k) ∧ k < 4 ∧ (s'.item i j k).size = 0 ∧ RecInv s' ∧ SameWorld s s' ∧
      ∀ a, Held s' a → Held s a := by
  unfold Rec.slotFor
  cases hf : (List.range 4).find? fun k => (s.item i j k).size = 0 with
  | some k =>
    have h1 := List.find?_some hf
    have h2 := List.mem_of_find?_eq_some hf
    exact ⟨s, k, rfl, by simpa using h2, by simpa using h1, h, ⟨rfl, rfl, rfl, rfl⟩, fun _ h => h⟩
  | none =>
    have hfull : ∀ k, k < 4 → (s.item i j k).size ≠ 0 := by
      intro k hk
      have := List.find?_eq_none.1 hf k (by simpa using hk)
      simpa using this
    obtain ⟨k, hk, hk4⟩ := victim_run h i j hfull (List.range 4) (fun k hk => by simpa using hk)
    obtain ⟨s', h1, h2, h3, h4⟩ := release_inv h (i := i) (j := j) (k := k) (a := (s.item i j k).arr)
      ⟨hk4, hfull k hk4, rfl⟩
    dsimp only
    rw [hk]
    simp only [Option.bind_some, h1, Option.map_some]
    refine ⟨s', k, rfl, hk4, ?_, h2, h4, fun a ⟨i, j, k, hh⟩ => ⟨i, j, k, ((h3 _ _ _ _).1 hh).1⟩⟩
    by_cases hz : (s'.item i j k).size = 0
    · exact hz
    · have := (h3 i j k _).1 ⟨hk4, hz, rfl⟩
      exact absurd ⟨rfl, rfl, rfl⟩ this.2

/-- The calls considered: the program releases, retypes or reshapes only arrays it holds, and changes only arrays
outside the recycler; types are not negative. -/
def Pre (s : Rec) : RecOp → Prop
  | .finalize a _ => s.outside a ≥ 1
  | .find _ type _ => 0 ≤ type
  | .create a _ => s.refs a = 0
  | .change a _ => s.outside a ≥ 1 ∧ ¬ Held s a
  | .incref a => s.refs a ≥ 1
  | .decref a => s.outside a ≥ 1
  | _ => True

theorem finalize_inv {s : Rec} (h : RecInv s) {a : Nat} (ha : s.outside a ≥ 1) (now : Nat) :
    ∃ s' b, s.finalize a now = some (s', b) ∧ RecInv s' := by
  unfold Rec.finalize
  split
  · exact ⟨s, false, rfl, h⟩
  · rename_i hc
    simp only [Bool.or_eq_true, decide_eq_true_eq, not_or, Bool.not_eq_eq_eq_not, Bool.not_true] at hc
    obtain ⟨⟨-, hr⟩, hpl⟩ := hc
    have hr1 : s.refs a = 1 := by omega
    have hpl1 : (s.info a).plain = true := by simpa using hpl
    have hn : ¬ Held s a := fun hh => by have := h.refsHeld a hh; omega
    split
    · have hins : ∃ s1 b, s.insert a now = some (s1, b) ∧ RecInv s1 := by
        unfold Rec.insert
        split
        · rename_i hok
          dsimp only
          split
          · exact ⟨s, false, rfl, h⟩
          · obtain ⟨s1, k, e, hk, hz, h1, hw, hheld⟩ := slotFor_inv h (lzcnt (s.info a).len) (s.info a).type
            rw [e]
            refine ⟨_, true, rfl, ?_⟩
            have hi : s1.info = s.info := hw.2.1
            have := store_inv h1 (k := k) (a := a) now hk (by rw [hi]; exact hz) (fun hh => hn (hheld a hh))
              (by rw [hi]; exact hok.1) (by rw [hi]; exact hok.2.1) (by rw [hi]; exact hok.2.2) (by rw [hi]; exact hpl1)
            rw [hi] at this
            exact this
        · exact ⟨s, false, rfl, h⟩
      obtain ⟨s1, b, e, h1⟩ := hins
      obtain ⟨s2, e2, h2, -, -⟩ := collect_inv h1 now s.timespan false
      rw [e]
      simp only [Option.bind_some, e2, Option.map_some]
      exact ⟨s2, b, rfl, h2⟩
    · exact ⟨s, false, rfl, h⟩

theorem findFrom_run {s : Rec} (h : RecInv s) (i j len : Nat) (hlen : len ≥ 1) :
    ∀ (l : List Nat), (∀ k ∈ l, k < 4) → ∃ r, findFrom s.refs (s.item i j) len l = some r ∧
      ∀ k, r = some k → k < 4 ∧ (s.item i j k).size = len ∧ s.refs (s.item i j k).arr = 1
  | [], _ => ⟨none, rfl, fun _ h => by cases h⟩
  | k :: ks, hl => by
    have hk := hl k (List.mem_cons_self ..)
    have ih := findFrom_run h i j len hlen ks (fun q hq => hl q (List.mem_cons_of_mem _ hq))
    unfold findFrom
    split
    · rename_i hs
      have hr := h.refsHeld _ ⟨i, j, k, hk, by omega, rfl⟩
      rw [if_neg (by omega)]
      split
      · rename_i h1
        exact ⟨some k, rfl, fun k' e => by cases e; exact ⟨hk, hs, h1⟩⟩
      · exact ih
    · exact ih

/-- What `RecycleFindArray` returns. -/
theorem find_inv {s : Rec} (h : RecInv s) (ndim : Nat) (type : Int) (len : Nat) (ht : 0 ≤ type) :
    ∃ s' r, s.find ndim type len = some (s', r) ∧ RecInv s' ∧
      ∀ a, r = some a →
        (Held s a ∧ s.refs a = 1 ∧ s.outside a = 0) ∧
        ((s.info a).type = type ∧ (s.info a).len = len ∧ (s.info a).ndim = 1 ∧ (s.info a).plain = true) ∧
        (¬ Held s' a ∧ s'.refs a = 1 ∧ s'.outside a = 1 ∧ s'.info = s.info) := by
  unfold Rec.find
  split
  · rename_i hok
    rw [if_neg (by omega)]
    dsimp only
    obtain ⟨r, hr, hspec⟩ := findFrom_run h (lzcnt len) type.toNat len hok.1 (List.range 4)
      (fun k hk => by simpa using hk)
    rw [hr]
    cases r with
    | none => exact ⟨s, none, rfl, h, fun _ e => by cases e⟩
    | some k =>
      obtain ⟨hk, hs, h1⟩ := hspec k rfl
      have hin : InSlot s (lzcnt len) type.toNat k (s.item (lzcnt len) type.toNat k).arr := ⟨hk, by omega, rfl⟩
      have hrf := h.refsHeld _ ⟨_, _, _, hin⟩
      obtain ⟨b1, b2, b3, b4, b5, b6⟩ := h.slot _ _ _ _ hin
      obtain ⟨hinv, hslots⟩ := remove_inv h hin (s.refs (s.item (lzcnt len) type.toNat k).arr)
        (s.outside (s.item (lzcnt len) type.toNat k).arr + 1) hrf
      rw [updRef_self] at hinv hslots
      refine ⟨_, _, rfl, hinv, ?_⟩
      intro a ha
      have ha' : (s.item (lzcnt len) type.toNat k).arr = a := Option.some.inj ha
      rw [ha'] at hin h1 hrf b1 b2 b3 b5 b6
      refine ⟨⟨⟨_, _, _, hin⟩, h1, by omega⟩, ⟨by omega, by omega, b5, b6⟩, ?_, h1, ?_, rfl⟩
      · rintro ⟨i', j', k', hh⟩
        obtain ⟨g1, g2⟩ := (hslots _ _ _ _).1 hh
        exact g2 (h.once _ _ _ _ _ _ _ g1 hin)
      · show updRef s.outside _ _ a = 1
        unfold updRef
        rw [if_pos ha'.symm, ha']; omega
  · exact ⟨s, none, rfl, h, fun _ e => by cases e⟩

/-- Every call keeps the invariant and has no undefined behaviour. -/
theorem step_inv {s : Rec} (h : RecInv s) {op : RecOp} (hp : Pre s op) : ∃ s', s.step op = some s' ∧ RecInv s' := by
  have world : ∀ (r o : Nat) (a : Nat), (Held s a → r = o + 1) → (¬ Held s a → r = o) →
      RecInv { s with refs := updRef s.refs a r, outside := updRef s.outside a o } := by
    intro r o a h1 h2
    refine ⟨h.count, h.slot, h.once, fun a' h' => ?_, fun a' h' => ?_⟩
    · show updRef s.refs a r a' = updRef s.outside a o a' + 1
      unfold updRef
      by_cases e : a' = a
      · rw [if_pos e, if_pos e]; exact h1 (e ▸ h')
      · rw [if_neg e, if_neg e]; exact h.refsHeld _ h'
    · show updRef s.refs a r a' = updRef s.outside a o a'
      unfold updRef
      by_cases e : a' = a
      · rw [if_pos e, if_pos e]; exact h2 (e ▸ h')
      · rw [if_neg e, if_neg e]; exact h.refsFree _ h'
  have reinfo : ∀ (s : Rec), RecInv s → ∀ (a : Nat) (info : Info), ¬ Held s a →
      RecInv { s with info := updRef s.info a info } := by
    intro s h a info hn
    refine ⟨h.count, fun i j k a' h' => ?_, h.once, h.refsHeld, h.refsFree⟩
    have hne : a' ≠ a := fun e => hn ⟨i, j, k, e ▸ h'⟩
    have := h.slot i j k a' h'
    show (s.item i j k).size = (updRef s.info a info a').len ∧ _ = lzcnt (updRef s.info a info a').len ∧
      _ = (updRef s.info a info a').type ∧ _ ∧ (updRef s.info a info a').ndim = 1 ∧ (updRef s.info a info a').plain = true
    have e : updRef s.info a info a' = s.info a' := by unfold updRef; rw [if_neg hne]
    rw [e]; exact this
  cases op with
  | finalize a now =>
    obtain ⟨s', b, e, h'⟩ := finalize_inv h hp now
    exact ⟨s', by show (s.finalize a now).map _ = _; rw [e]; rfl, h'⟩
  | find ndim type len =>
    obtain ⟨s', r, e, h', -⟩ := find_inv h ndim type len hp
    exact ⟨s', by show (s.find ndim type len).map _ = _; rw [e]; rfl, h'⟩
  | collect now t =>
    obtain ⟨s', e, h', -, -⟩ := collect_inv h now t true
    exact ⟨s', e, h'⟩
  | create a info =>
    have hn : ¬ Held s a := fun hh => by have := h.refsHeld a hh; have : s.refs a = 0 := hp; omega
    exact ⟨_, rfl, reinfo _ (world 1 1 a (fun hh => absurd hh hn) (fun _ => rfl)) a info hn⟩
  | change a info => exact ⟨_, rfl, reinfo s h a info hp.2⟩
  | incref a =>
    exact ⟨_, rfl, world _ _ a (fun hh => by rw [h.refsHeld a hh]) (fun hh => by rw [h.refsFree a hh])⟩
  | decref a =>
    have hp' : s.outside a ≥ 1 := hp
    exact ⟨_, rfl, world _ _ a (fun hh => by have := h.refsHeld a hh; omega) (fun hh => by have := h.refsFree a hh; omega)⟩
  | setMode m => exact ⟨_, rfl, ⟨h.count, h.slot, h.once, h.refsHeld, h.refsFree⟩⟩
  | setTimespan t => exact ⟨_, rfl, ⟨h.count, h.slot, h.once, h.refsHeld, h.refsFree⟩⟩

/-- All calls of a history meet `Pre` when they are made. -/
def AllPre (s : Rec) : List RecOp → Prop
  | [] => True
  | op :: ops => Pre s op ∧ ∀ s', s.step op = some s' → AllPre s' ops

theorem RecInv.init : RecInv .init := by
  refine ⟨fun _ _ => rfl, ?_, ?_, ?_, fun _ _ => rfl⟩
  · rintro i j k a ⟨-, h, -⟩; exact absurd rfl h
  · rintro i j k i' j' k' a ⟨-, h, -⟩; exact absurd rfl h
  · rintro a ⟨i, j, k, -, h, -⟩; exact absurd rfl h

/-- **C36**, for type numbers that are not negative. After any history of finalizations, look-ups and collections, mixed with any use of the arrays by the
program: there is no undefined behaviour; the occupancy of each bucket is `Head - Tail` and at most four; an array
is in at most one slot and has exactly one reference more than the program holds; and a look-up returns
only an array held by nobody else, with the type number and length asked for, which is then no longer in the
recycler. -/
theorem recycler_history_partial (ops : List RecOp) : ∀ (s : Rec), RecInv s → AllPre s ops →
    ∃ s', s.run ops = some s' ∧ RecInv s' ∧
      (∀ i j, s'.head i j - s'.tail i j = occupied s' i j ∧ occupied s' i j ≤ 4) ∧
      ∀ (ndim : Nat) (type : Int) (len : Nat), 0 ≤ type → ∃ s'' r, s'.find ndim type len = some (s'', r) ∧
        ∀ a, r = some a → (s'.refs a = 1 ∧ s'.outside a = 0) ∧
          ((s'.info a).type = type ∧ (s'.info a).len = len ∧ (s'.info a).ndim = 1) ∧ ¬ Held s'' a := by
  induction ops with
  | nil =>
    intro s h _
    refine ⟨s, rfl, h, fun i j => ⟨h.count i j, occupied_le s i j⟩, fun ndim type len ht => ?_⟩
    obtain ⟨s'', r, e, -, hr⟩ := find_inv h ndim type len ht
    exact ⟨s'', r, e, fun a ha => ⟨(hr a ha).1.2, ⟨(hr a ha).2.1.1, (hr a ha).2.1.2.1, (hr a ha).2.1.2.2.1⟩,
      (hr a ha).2.2.1⟩⟩
  | cons op ops ih =>
    intro s h hp
    obtain ⟨s1, e1, h1⟩ := step_inv h hp.1
    obtain ⟨s2, e2, h2⟩ := ih s1 h1 (hp.2 s1 e1)
    exact ⟨s2, by unfold Rec.run; rw [e1]; exact e2, h2⟩

/-- A sample array of 1000 elements of type 7. -/
def exInfo (addr : Nat) : Info := ⟨7, 1000, 1, true, addr, true⟩

/-- Two arrays are made, recycled and dropped, and looked up. -/
def exOps : List RecOp :=
  [.create 1 (exInfo 64), .create 2 (exInfo 128), .finalize 1 5, .decref 1, .finalize 2 6, .decref 2]

example : ((Rec.init.run exOps).bind fun s => s.find 1 7 1000).map (fun r => (r.2, r.1.outside 1, r.1.outside 2)) =
    some (some 1, 1, 0) := by decide +kernel

/-- An array that is also held elsewhere is passed over. -/
example : (((Rec.init.run exOps).bind fun s => s.step (.incref 1)).bind fun s => s.find 1 7 1000).map (·.2) =
    some (some 2) := by decide +kernel

/-! ### What the look-up does not compare -/

/-- A negative type number is not rejected: the table is read outside its bounds. -/
theorem find_negative_type (s : Rec) : s.find 1 (-1) 1000 = none := rfl

/-- The byte order is not compared: an array of the other byte order, recycled and looked up by its type number, is
handed out for a native one. -/
theorem find_byte_order :
    ((Rec.init.run [.create 1 { exInfo 64 with native := false }, .finalize 1 5, .decref 1]).bind
      fun s => s.find 1 7 1000).map (fun r => (r.2, (r.1.info 1).native)) = some (some 1, false) := by decide +kernel

/-- An array of the program retyped in place while it is also in the recycler (by somebody who found it through the
garbage collector) is handed out with the wrong type, so the guard of `change` is needed. -/
theorem change_while_held :
    ((Rec.init.run [.create 1 (exInfo 64), .finalize 1 5, .change 1 { exInfo 64 with type := 5, len := 2000 },
      .decref 1]).bind fun s => s.find 1 7 1000).map (fun r => (r.2, (r.1.info 1).type, (r.1.info 1).len)) =
    some (some 1, 5, 2000) := by decide +kernel

end Riptide.Recycle
