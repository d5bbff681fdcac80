import Verif.Recycle.CallSpec
/-! Lemmas on the calls of the recycler. -/
namespace Riptide.Recycle.Call
open Riptide.Recycle Spec

theorem mem_slots {i j k : Nat} : (i, j, k) ∈ slots ↔ i < 64 ∧ j < 14 ∧ k < 4 := by
  unfold slots
  simp only [List.mem_flatMap, List.mem_map, List.mem_range]
  constructor
  · rintro ⟨i', hi, j', hj, k', hk, e⟩
    simp only [Prod.mk.injEq] at e
    obtain ⟨rfl, rfl, rfl⟩ := e
    exact ⟨hi, hj, hk⟩
  · rintro ⟨hi, hj, hk⟩
    exact ⟨i, hi, j, hj, k, hk, rfl⟩

theorem slots_nodup : slots.Nodup := by
  unfold slots List.Nodup
  rw [List.pairwise_flatMap]
  refine ⟨fun i _ => ?_, ?_⟩
  · rw [List.pairwise_flatMap]
    refine ⟨fun j _ => ?_, ?_⟩
    · rw [List.pairwise_map]
      exact List.nodup_range.imp fun h e => h (by simpa using e)
    · refine List.nodup_range.imp fun h x hx y hy e => ?_
      simp only [List.mem_map] at hx hy
      obtain ⟨_, _, rfl⟩ := hx
      obtain ⟨_, _, e2⟩ := hy
      rw [← e2] at e
      simp only [Prod.mk.injEq] at e
      exact h e.2.1
  · refine List.nodup_range.imp fun h x hx y hy e => ?_
    simp only [List.mem_flatMap, List.mem_map] at hx hy
    obtain ⟨_, _, _, _, rfl⟩ := hx
    obtain ⟨_, _, _, _, e2⟩ := hy
    rw [← e2] at e
    simp only [Prod.mk.injEq] at e
    exact h e.1

theorem countP_change {α : Type} {f g : α → Bool} {p : α} : ∀ {l : List α}, l.Nodup → p ∈ l → (∀ q, q ≠ p → f q = g q) →
    l.countP f + (if g p then 1 else 0) = l.countP g + (if f p then 1 else 0)
  | [], _, h, _ => absurd h (by simp)
  | q :: l, hn, hm, hfg => by
    rw [List.nodup_cons] at hn
    rw [List.countP_cons, List.countP_cons]
    by_cases e : q = p
    · subst e
      have : l.countP f = l.countP g := List.countP_congr fun x hx => by
        rw [hfg x (fun e => hn.1 (e ▸ hx))]
      omega
    · have hm' : p ∈ l := by
        rcases List.mem_cons.1 hm with h | h
        · exact absurd h.symm e
        · exact h
      have := countP_change hn.2 hm' hfg
      rw [hfg q e]
      omega

theorem kept_upd {s s' : Rec} {i j k : Nat} {v : Recycle.Item} (h : s'.item = updItem s.item i j k v) (hi : i < 64) (hj : j < 14) (hk : k < 4) :
    kept s' + (if (s.item i j k).size ≠ 0 then 1 else 0) = kept s + (if v.size ≠ 0 then 1 else 0) := by
  have := countP_change (f := fun p : Nat × Nat × Nat => decide ((s'.item p.1 p.2.1 p.2.2).size ≠ 0))
    (g := fun p => decide ((s.item p.1 p.2.1 p.2.2).size ≠ 0)) (p := (i, j, k)) slots_nodup (mem_slots.2 ⟨hi, hj, hk⟩) (by
      rintro ⟨a, b, c⟩ hne
      simp only [h, updItem]
      rw [if_neg (fun ⟨e1, e2, e3⟩ => hne (by rw [e1, e2, e3]))])
  simp only [h, updItem, and_self, if_true, decide_eq_true_eq] at this
  unfold kept
  rw [h]
  exact this

theorem lzcnt_lt (n : Nat) : lzcnt n < 64 := by unfold lzcnt; omega

theorem inslot_bounds {s : Rec} (h : RecInv s) {i j k a : Nat} (hs : InSlot s i j k a) : i < 64 ∧ j < 14 ∧ k < 4 := by
  obtain ⟨_, h2, _, h4, _⟩ := h.slot _ _ _ _ hs
  exact ⟨by rw [h2]; exact lzcnt_lt _, h4, hs.1⟩

theorem inslot_open {s : Rec} (h : RecInv s) {i j k a : Nat} (hs : InSlot s i j k a) : s.head i j ≠ s.tail i j := by
  have h1 := h.count i j
  have : 0 < occupied s i j := by
    unfold occupied
    rw [List.countP_pos_iff]
    exact ⟨k, by simpa using hs.1, by simpa using hs.2.1⟩
  omega

/-- The same array, and its slot unchanged. -/
theorem release_full {s : Rec} (h : RecInv s) {i j k a : Nat} (hs : InSlot s i j k a) :
    ∃ s', s.release i j k = some s' ∧ RecInv s' ∧ (∀ i' j' k' a', InSlot s' i' j' k' a' ↔ InSlot s i' j' k' a' ∧ ¬(i' = i ∧ j' = j ∧ k' = k)) ∧
      SameWorld s s' ∧ s'.item = updItem s.item i j k { s.item i j k with size := 0, arr := 0 } ∧ kept s' + 1 = kept s ∧ s'.lastGc = s.lastGc := by
  obtain ⟨s', h1, h2, h3, h4⟩ := release_inv h hs
  have e : s'.item = updItem s.item i j k { s.item i j k with size := 0, arr := 0 } ∧ s'.lastGc = s.lastGc := by
    unfold Rec.release at h1
    simp only at h1
    split at h1
    · cases h1
    · rw [← Option.some.inj h1]; exact ⟨rfl, rfl⟩
  refine ⟨s', h1, h2, h3, h4, e.1, ?_, e.2⟩
  obtain ⟨b1, b2, b3⟩ := inslot_bounds h hs
  have := kept_upd e.1 b1 b2 b3
  rw [if_pos hs.2.1, if_neg (by simp)] at this
  omega

/-- What a collection does to the slots in a list. -/
structure Swept (now : Nat) (span : Int) (l : List (Nat × Nat × Nat)) (s s' : Rec) : Prop where
  inv : RecInv s'
  same : SameWorld s s'
  slot : ∀ i j k a, InSlot s' i j k a ↔ InSlot s i j k a ∧ ¬((i, j, k) ∈ l ∧ (now : Int) - (s.item i j k).tsc > span)
  item : ∀ i j k a, InSlot s' i j k a → s'.item i j k = s.item i j k
  last : s'.lastGc = s.lastGc

theorem gc_fold (now : Nat) (span : Int) : ∀ (l : List (Nat × Nat × Nat)) (s : Rec) (n : Int), (∀ p ∈ l, p.2.2 < 4) → RecInv s →
    ∃ s' m, l.foldlM (gcStep now span) (s, n) = some (s', m) ∧ Swept now span l s s' ∧ (kept s' : Int) + m = kept s + n
  | [], s, n, _, h => ⟨s, n, rfl, ⟨h, ⟨rfl, rfl, rfl, rfl⟩, fun i j k a => by simp, fun _ _ _ _ _ => rfl, rfl⟩, rfl⟩
  | ⟨i0, j0, k0⟩ :: l, s, n, hl, h => by
    have hk : k0 < 4 := hl (i0, j0, k0) (List.mem_cons_self ..)
    have hl' : ∀ p ∈ l, p.2.2 < 4 := fun p hp => hl p (List.mem_cons_of_mem _ hp)
    rw [List.foldlM_cons]
    by_cases hc : s.head i0 j0 ≠ s.tail i0 j0 ∧ (s.item i0 j0 k0).size > 0 ∧ (now : Int) - (s.item i0 j0 k0).tsc > span
    · obtain ⟨s1, e1, r1, r2, r3, r4, r5, r6⟩ := release_full h (i := i0) (j := j0) (k := k0) ⟨hk, by omega, rfl⟩
      obtain ⟨s2, m, e2, w, hm⟩ := gc_fold now span l s1 (n + 1) hl' r1
      refine ⟨s2, m, ?_, ⟨w.inv, ⟨w.same.1.trans r3.1, w.same.2.1.trans r3.2.1, w.same.2.2.1.trans r3.2.2.1, w.same.2.2.2.trans r3.2.2.2⟩, ?_, ?_, w.last.trans r6⟩, by omega⟩
      · unfold gcStep
        simp only
        rw [if_pos hc, e1]
        exact e2
      · intro i j k a
        rw [w.slot, r2]
        by_cases he : i = i0 ∧ j = j0 ∧ k = k0
        · obtain ⟨rfl, rfl, rfl⟩ := he
          simp [hc.2.2]
        · have hi : s1.item i j k = s.item i j k := by rw [r4]; unfold updItem; rw [if_neg he]
          rw [hi]
          simp [he]
      · intro i j k a hs
        have h1 := (r2 i j k a).1 ((w.slot i j k a).1 hs).1
        rw [w.item i j k a hs, r4]
        unfold updItem
        rw [if_neg h1.2]
    · obtain ⟨s2, m, e2, w, hm⟩ := gc_fold now span l s n hl' h
      refine ⟨s2, m, ?_, ⟨w.inv, w.same, ?_, w.item, w.last⟩, hm⟩
      · unfold gcStep
        simp only
        rw [if_neg hc]
        exact e2
      · intro i j k a
        rw [w.slot]
        by_cases he : i = i0 ∧ j = j0 ∧ k = k0
        · obtain ⟨rfl, rfl, rfl⟩ := he
          constructor
          · rintro ⟨h1, h2⟩
            refine ⟨h1, fun h3 => hc ⟨inslot_open h h1, by have := h1.2.1; omega, h3.2⟩⟩
          · rintro ⟨h1, h2⟩
            exact ⟨h1, fun h3 => h2 ⟨List.mem_cons_of_mem _ h3.1, h3.2⟩⟩
        · simp [he]

theorem findFrom_none {refs : Nat → Nat} {item : Nat → Recycle.Item} {len : Nat} : ∀ {l : List Nat}, findFrom refs item len l = some none →
    ∀ k ∈ l, (item k).size = len → refs (item k).arr ≠ 1
  | [], _ => fun _ h => absurd h (by simp)
  | k :: ks, h => by
    unfold findFrom at h
    intro k' hk' hs
    rcases List.mem_cons.1 hk' with rfl | hm
    · rw [if_pos hs] at h
      split at h
      · cases h
      · split at h
        · cases h
        · assumption
    · split at h
      · split at h
        · cases h
        · split at h
          · cases h
          · exact findFrom_none h k' hm hs
      · exact findFrom_none h k' hm hs

/-- What the look-up does, in full. -/
theorem find_full {s : Rec} (h : RecInv s) (ndim : Nat) (type : Int) (len : Nat) (ht : 0 ≤ type) :
    ∃ s' r, s.find ndim type len = some (s', r) ∧ RecInv s' ∧ s'.mode = s.mode ∧ s'.timespan = s.timespan ∧
      (r = none → s' = s ∧ (len ≥ 1 → ndim = 1 → ¬∃ a, Free s type len a)) ∧
      (∀ a, r = some a → Handed s s' type len a ∧ ndim = 1 ∧ len ≥ 1 ∧ kept s' + 1 = kept s) := by
  unfold Rec.find
  split
  · rename_i hok
    rw [if_neg (by omega)]
    dsimp only
    obtain ⟨r, hr, hspec⟩ := findFrom_run h (lzcnt len) type.toNat len hok.1 (List.range 4) (fun k hk => by simpa using hk)
    rw [hr]
    cases r with
    | none =>
      refine ⟨s, none, rfl, h, rfl, rfl, fun _ => ⟨rfl, fun _ _ => ?_⟩, fun _ e => by cases e⟩
      rintro ⟨a, ⟨i, j, k, hs⟩, hr1, hty, hl⟩
      obtain ⟨b1, b2, b3, b4, b5, b6⟩ := h.slot _ _ _ _ hs
      have ei : i = lzcnt len := by rw [b2, hl]
      have ej : j = type.toNat := by omega
      subst ei ej
      refine findFrom_none hr k (by simpa using hs.1) (by rw [b1, hl]) ?_
      rw [hs.2.2]; exact hr1
    | some k =>
      obtain ⟨hk, hs, h1⟩ := hspec k rfl
      obtain ⟨a, ha⟩ : ∃ a, a = (s.item (lzcnt len) type.toNat k).arr := ⟨_, rfl⟩
      have hin : InSlot s (lzcnt len) type.toNat k a := ⟨hk, by omega, ha.symm⟩
      rw [← ha] at h1
      have hrf := h.refsHeld _ ⟨_, _, _, hin⟩
      obtain ⟨b1, b2, b3, b4, b5, b6⟩ := h.slot _ _ _ _ hin
      obtain ⟨hinv, hslots⟩ := remove_inv h hin (s.refs a) (s.outside a + 1) hrf
      rw [updRef_self] at hinv hslots
      simp only [Option.map_some, ← ha]
      refine ⟨_, _, rfl, hinv, rfl, rfl, fun e => (by cases e), ?_⟩
      intro a' ha'
      cases ha'
      refine ⟨⟨⟨⟨_, _, _, hin⟩, h1, by omega⟩, ⟨by omega, by omega, b5, b6⟩, ⟨?_, h1, ?_⟩, ?_, rfl⟩, hok.2.2, hok.1, ?_⟩
      · rintro ⟨i', j', k', hh⟩
        obtain ⟨g1, g2⟩ := (hslots _ _ _ _).1 hh
        exact g2 (h.once _ _ _ _ _ _ _ g1 hin)
      · show updRef s.outside a _ a = 1
        unfold updRef
        rw [if_pos rfl]; omega
      · intro b hb
        refine ⟨⟨?_, ?_⟩, rfl, ?_⟩
        · rintro ⟨i', j', k', hh⟩
          exact ⟨_, _, _, ((hslots _ _ _ _).1 hh).1⟩
        · rintro ⟨i', j', k', hh⟩
          refine ⟨_, _, _, (hslots _ _ _ _).2 ⟨hh, ?_⟩⟩
          rintro ⟨rfl, rfl, rfl⟩
          exact hb (hh.2.2.symm.trans hin.2.2)
        · show updRef s.outside a _ b = _
          unfold updRef
          rw [if_neg hb]
      · obtain ⟨c1, c2, c3⟩ := inslot_bounds h hin
        have := kept_upd (s := s) (s' := { s.remove (lzcnt len) type.toNat k with outside := updRef s.outside a (s.outside a + 1) }) rfl c1 c2 c3
        rw [if_pos hin.2.1, if_neg (by simp)] at this
        omega
  · rename_i hno
    refine ⟨s, none, rfl, h, rfl, rfl, fun _ => ⟨rfl, fun h1 h2 => ?_⟩, fun _ e => by cases e⟩
    rintro ⟨a, ⟨i, j, k, hs⟩, hr1, hty, hl⟩
    obtain ⟨b1, b2, b3, b4, b5, b6⟩ := h.slot _ _ _ _ hs
    exact hno ⟨h1, by omega, h2⟩

/-- The look-up with what it counts. -/
theorem find_world {w : World} (h : Right w) (ndim : Nat) (type : Int) (len : Nat) (ht : 0 ≤ type) :
    ∃ w' r, find w ndim type len = some (w', r) ∧ Right w' ∧ w'.heads = w.heads ∧ w'.st.mode = w.st.mode ∧ w'.st.timespan = w.st.timespan ∧
      (r = none → w'.st = w.st ∧ w'.hits = w.hits ∧ w'.tails = w.tails ∧ w'.misses = w.misses + (if len ≥ 1 ∧ type < 14 ∧ ndim = 1 then 1 else 0) ∧
        (len ≥ 1 → ndim = 1 → ¬∃ a, Free w.st type len a)) ∧
      (∀ a, r = some a → Handed w.st w'.st type len a ∧ ndim = 1 ∧ len ≥ 1 ∧ w'.hits = w.hits + 1 ∧ w'.misses = w.misses) := by
  obtain ⟨s', r, e, h1, h2, h3, h4, h5⟩ := find_full h.inv ndim type len ht
  unfold find
  rw [e]
  have hc := h.count
  cases r with
  | none =>
    obtain ⟨rfl, g⟩ := h4 rfl
    refine ⟨_, none, rfl, ?_⟩
    split
    · exact ⟨⟨h1, hc⟩, rfl, rfl, rfl, fun _ => ⟨rfl, rfl, rfl, rfl, g⟩, fun _ e => by cases e⟩
    · exact ⟨⟨h1, hc⟩, rfl, rfl, rfl, fun _ => ⟨rfl, rfl, rfl, by simp, g⟩, fun _ e => by cases e⟩
  | some a =>
    obtain ⟨g1, g2, g3, g4⟩ := h5 a rfl
    refine ⟨_, some a, rfl, ⟨h1, ?_⟩, rfl, h2, h3, fun e => (by cases e), ?_⟩
    · show w.heads - (w.tails + 1) = kept s'
      omega
    · intro a' e'
      cases e'
      exact ⟨g1, g2, g3, rfl, rfl⟩

/-- A collection with what it counts. -/
theorem collect_world {w : World} (h : Right w) (now : Nat) (t : Int) (force : Bool) (hf : Fits t ∨ (force = false ∧ now - w.st.lastGc < 60000000000)) :
    ∃ w' n, collect w now t force = some (w', n) ∧ Right w' ∧ SameWorld w.st w'.st ∧ w'.hits = w.hits ∧ w'.misses = w.misses ∧ w'.heads = w.heads ∧
      n = (kept w.st : Int) - kept w'.st ∧ w'.tails = w.tails + n ∧
      (∀ i j k a, InSlot w'.st i j k a → InSlot w.st i j k a ∧ w'.st.item i j k = w.st.item i j k) ∧
      (∀ a, Held w'.st a ↔ Held w.st a ∧ ¬((force = true ∨ 60000000000 ≤ now - w.st.lastGc) ∧ Old w.st now (t * 1000000000) a)) := by
  have hc := h.count
  unfold collect
  by_cases hs : (!force && decide (now - w.st.lastGc < 60000000000)) = true
  · rw [if_pos hs]
    refine ⟨w, 0, rfl, h, ⟨rfl, rfl, rfl, rfl⟩, rfl, rfl, rfl, by omega, by omega, fun _ _ _ _ h => ⟨h, rfl⟩, fun a => ⟨fun h => ⟨h, ?_⟩, fun h => h.1⟩⟩
    rintro ⟨h1, -⟩
    simp only [Bool.and_eq_true, Bool.not_eq_true', decide_eq_true_eq] at hs
    rcases h1 with h1 | h1
    · rw [hs.1] at h1; cases h1
    · omega
  · rw [if_neg hs]
    have hfit : Fits t := by
      rcases hf with hf | hf
      · exact hf
      · exact absurd (by simp [hf.1, hf.2]) hs
    unfold Fits at hfit
    rw [if_neg (by omega)]
    obtain ⟨s', m, e, sw, hm⟩ := gc_fold now (t * 1000000000) slots { w.st with lastGc := now } 0
      (by rintro ⟨i, j, k⟩ hp; exact (mem_slots.1 hp).2.2) ⟨h.inv.count, h.inv.slot, h.inv.once, h.inv.refsHeld, h.inv.refsFree⟩
    rw [e]
    have hk : kept { w.st with lastGc := now } = kept w.st := rfl
    refine ⟨_, m, rfl, ⟨sw.inv, ?_⟩, sw.same, rfl, rfl, rfl, by show m = (kept w.st : Int) - kept s'; omega, rfl, ?_, ?_⟩
    · show w.heads - (w.tails + m) = kept s'
      omega
    · intro i j k a hh
      exact ⟨((sw.slot i j k a).1 hh).1, sw.item i j k a hh⟩
    · intro a
      constructor
      · rintro ⟨i, j, k, hh⟩
        obtain ⟨g1, g2⟩ := (sw.slot i j k a).1 hh
        refine ⟨⟨i, j, k, g1⟩, ?_⟩
        rintro ⟨-, i', j', k', g3, g4⟩
        obtain ⟨rfl, rfl, rfl⟩ := h.inv.once _ _ _ _ _ _ _ g1 g3
        obtain ⟨c1, c2, c3⟩ := inslot_bounds h.inv g3
        exact g2 ⟨mem_slots.2 ⟨c1, c2, c3⟩, g4⟩
      · rintro ⟨⟨i, j, k, hh⟩, g⟩
        refine ⟨i, j, k, (sw.slot i j k a).2 ⟨hh, fun g2 => g ⟨?_, i, j, k, hh, g2.2⟩⟩⟩
        simp only [Bool.and_eq_true, Bool.not_eq_true', decide_eq_true_eq] at hs
        cases force with
        | true => exact .inl rfl
        | false => exact .inr (by have : ¬(now - w.st.lastGc < 60000000000) := fun q => hs ⟨rfl, q⟩; omega)

/-- The slot which is given up: one of the bucket, and one held elsewhere if there is one. -/
theorem victim_full {refs : Nat → Nat} {item : Nat → Recycle.Item} {head : Int} : ∀ {l : List Nat} {k : Nat}, victim refs item head l = some k →
    refs (item k).arr = 1 → ∀ k' ∈ l, refs (item k').arr = 1
  | [], _, _, _ => fun _ h => absurd h (by simp)
  | k0 :: ks, k, h, h1 => by
    unfold victim at h
    split at h
    · cases h
    · split at h
      · rename_i h2
        cases h
        exact absurd h1 h2
      · rename_i h2
        intro k' hk'
        rcases List.mem_cons.1 hk' with rfl | hm
        · omega
        · exact victim_full h h1 k' hm

theorem occupied_full {s : Rec} {i j : Nat} (h : ∀ k, k < 4 → (s.item i j k).size ≠ 0) : occupied s i j = 4 := by
  unfold occupied
  rw [List.countP_eq_length.2 (fun k hk => by simpa using h k (by simpa using hk)), List.length_range]

/-- Making room: nothing is given up, or one array of a full bucket. -/
theorem slotFor_full {s : Rec} (h : RecInv s) (i j : Nat) :
    ∃ s' k, s.slotFor i j = some (s', k) ∧ k < 4 ∧ (s'.item i j k).size = 0 ∧ RecInv s' ∧ SameWorld s s' ∧
      (((List.range 4).find? fun k => (s.item i j k).size = 0).isNone = false ∧ s' = s ∨
        ((List.range 4).find? fun k => (s.item i j k).size = 0).isNone = true ∧ occupied s i j = 4 ∧ kept s' + 1 = kept s ∧
        (∀ i' j' k' a', InSlot s' i' j' k' a' ↔ InSlot s i' j' k' a' ∧ ¬(i' = i ∧ j' = j ∧ k' = k)) ∧
        (s.refs (s.item i j k).arr = 1 → ∀ k' a', InSlot s i j k' a' → s.refs a' = 1)) := by
  unfold Rec.slotFor
  cases hf : (List.range 4).find? fun k => (s.item i j k).size = 0 with
  | some k =>
    have h1 := List.find?_some hf
    have h2 := List.mem_of_find?_eq_some hf
    exact ⟨s, k, rfl, by simpa using h2, by simpa using h1, h, ⟨rfl, rfl, rfl, rfl⟩, .inl ⟨rfl, rfl⟩⟩
  | none =>
    have hfull : ∀ k, k < 4 → (s.item i j k).size ≠ 0 := by
      intro k hk
      have := List.find?_eq_none.1 hf k (by simpa using hk)
      simpa using this
    obtain ⟨k, hk, hk4⟩ := victim_run h i j hfull (List.range 4) (fun k hk => by simpa using hk)
    obtain ⟨s', h1, h2, h3, h4, -, h5, -⟩ := release_full h (i := i) (j := j) (k := k) (a := (s.item i j k).arr) ⟨hk4, hfull k hk4, rfl⟩
    dsimp only
    rw [hk]
    simp only [Option.bind_some, h1, Option.map_some]
    refine ⟨s', k, rfl, hk4, ?_, h2, h4, .inr ⟨rfl, occupied_full hfull, h5, h3, ?_⟩⟩
    · by_cases hz : (s'.item i j k).size = 0
      · exact hz
      · have := (h3 i j k _).1 ⟨hk4, hz, rfl⟩
        exact absurd ⟨rfl, rfl, rfl⟩ this.2
    · intro hr k' a' hs
      have := victim_full hk hr k' (by simpa using hs.1)
      rw [hs.2.2] at this
      exact this

theorem store_slots {s : Rec} {i j k a now : Nat} (hk : k < 4) (hempty : (s.item i j k).size = 0) (hlen : (s.info a).len ≥ 1) (i' j' k' a' : Nat) :
    InSlot (s.store i j k a now) i' j' k' a' ↔ InSlot s i' j' k' a' ∨ (i' = i ∧ j' = j ∧ k' = k ∧ a' = a) := by
  unfold InSlot
  show k' < 4 ∧ (updItem s.item i j k _ i' j' k').size ≠ 0 ∧ (updItem s.item i j k _ i' j' k').arr = a' ↔ _
  unfold updItem
  by_cases hb : i' = i ∧ j' = j ∧ k' = k
  · obtain ⟨rfl, rfl, rfl⟩ := hb
    rw [if_pos ⟨rfl, rfl, rfl⟩]
    constructor
    · rintro ⟨-, -, h3⟩; exact .inr ⟨rfl, rfl, rfl, h3.symm⟩
    · rintro (⟨-, h3, -⟩ | ⟨-, -, -, rfl⟩)
      · exact absurd hempty h3
      · exact ⟨hk, by show (s.info a').len ≠ 0; omega, rfl⟩
  · rw [if_neg hb]
    constructor
    · intro h3; exact .inl h3
    · rintro (h3 | ⟨e1, e2, e3, -⟩)
      · exact h3
      · exact absurd ⟨e1, e2, e3⟩ hb

/-- Taking in an array, with what is counted. -/
theorem insert_world {w : World} (h : Right w) {a : Nat} (hr : w.st.refs a = 1) (ho : w.st.outside a ≥ 1) (hp : (w.st.info a).plain = true) (now : Nat) :
    ∃ w' b, insert w a now = some (w', b) ∧ Right w' ∧ SameWorld w.st w'.st ∧ w'.hits = w.hits ∧ w'.misses = w.misses ∧
      (b = true ↔ Welcome w.st a) ∧ (b = false → w' = w) ∧ (b = true → Taken w.st w'.st a now ∧ w'.heads = w.heads + 1) := by
  have hn : ¬Held w.st a := fun hh => by have := h.inv.refsHeld a hh; omega
  have hc := h.count
  unfold insert Rec.insert
  by_cases hok : (w.st.info a).len ≥ 1 ∧ (w.st.info a).type < 14 ∧ (w.st.info a).ndim = 1
  · rw [if_pos hok]
    dsimp only
    by_cases hk : ((List.range 4).any fun k => (w.st.item (lzcnt (w.st.info a).len) (w.st.info a).type k).size ≠ 0 &&
        (w.st.item (lzcnt (w.st.info a).len) (w.st.info a).type k).addr = (w.st.info a).addr) = true
    · rw [if_pos hk]
      refine ⟨w, false, rfl, h, ⟨rfl, rfl, rfl, rfl⟩, rfl, rfl, ⟨fun e => (by cases e), fun e => ?_⟩, fun _ => rfl, fun e => (by cases e)⟩
      rw [List.any_eq_true] at hk
      obtain ⟨k, hk1, hk2⟩ := hk
      simp only [Bool.and_eq_true, decide_eq_true_eq] at hk2
      exact absurd ⟨k, by simpa using hk1, hk2.1, hk2.2⟩ e.2.2.2
    · rw [if_neg hk]
      obtain ⟨s1, k, e, hk4, hz, h1, hw, hcase⟩ := slotFor_full h.inv (lzcnt (w.st.info a).len) (w.st.info a).type
      rw [e]
      have hi : s1.info = w.st.info := hw.2.1
      have hheld : ∀ b, Held s1 b → Held w.st b := by
        rcases hcase with ⟨-, rfl⟩ | ⟨-, -, -, hsl, -⟩
        · exact fun _ h => h
        · rintro b ⟨i, j, k, hh⟩
          exact ⟨_, _, _, ((hsl _ _ _ _).1 hh).1⟩
      have hinv := store_inv h1 (k := k) (a := a) now hk4 (by rw [hi]; exact hz) (fun hh => hn (hheld a hh))
        (by rw [hi]; exact hok.1) (by rw [hi]; exact hok.2.1) (by rw [hi]; exact hok.2.2) (by rw [hi]; exact hp)
      rw [hi] at hinv
      have hst := store_slots (s := s1) (i := lzcnt (w.st.info a).len) (j := (w.st.info a).type) (a := a) (now := now) hk4 hz (by rw [hi]; exact hok.1)
      have hks := kept_upd (s := s1) (s' := s1.store (lzcnt (w.st.info a).len) (w.st.info a).type k a now) rfl (lzcnt_lt _) hok.2.1 hk4
      rw [if_neg (by omega), if_pos (show (⟨(s1.info a).len, now, (s1.info a).addr, a⟩ : Recycle.Item).size ≠ 0 by
        show (s1.info a).len ≠ 0; rw [hi]; omega)] at hks
      refine ⟨_, true, rfl, ⟨hinv, ?_⟩, hw, rfl, rfl, ⟨fun _ => ⟨hok.1, hok.2.1, hok.2.2, ?_⟩, fun _ => rfl⟩, fun e => (by cases e), fun _ => ⟨⟨?_, ?_, ?_, ?_⟩, rfl⟩⟩
      · show w.heads + 1 - (w.tails + if _ then 1 else 0) = ((kept (s1.store _ _ k a now) : Nat) : Int)
        rcases hcase with ⟨hf, rfl⟩ | ⟨hf, -, hkp, -⟩
        · rw [hf, if_neg (by simp)]; omega
        · rw [hf, if_pos rfl]; omega
      · rintro ⟨k', g1, g2, g3⟩
        exact hk (List.any_eq_true.2 ⟨k', by simpa using g1, by simp [g2, g3]⟩)
      · refine ⟨_, _, k, (hst _ _ _ _).2 (.inr ⟨rfl, rfl, rfl, rfl⟩), ?_⟩
        show (updItem s1.item _ _ k _ _ _ k).tsc = now
        unfold updItem
        rw [if_pos ⟨rfl, rfl, rfl⟩]
      · rintro b hb ⟨i', j', k', hh⟩
        rcases (hst _ _ _ _).1 hh with g | g
        · exact hheld b ⟨_, _, _, g⟩
        · exact absurd g.2.2.2 hb
      · rintro b ⟨i', j', k', hh⟩ hnb
        rcases hcase with ⟨-, rfl⟩ | ⟨-, hocc, -, hsl, -⟩
        · exact absurd ⟨_, _, _, (hst _ _ _ _).2 (.inl hh)⟩ hnb
        · have hx : i' = lzcnt (w.st.info a).len ∧ j' = (w.st.info a).type ∧ k' = k := Classical.byContradiction fun hx =>
            hnb ⟨_, _, _, (hst _ _ _ _).2 (.inl ((hsl _ _ _ _).2 ⟨hh, hx⟩))⟩
          obtain ⟨c1, c2, c3, -⟩ := h.inv.slot _ _ _ _ hh
          refine ⟨by omega, by omega, hocc, ?_⟩
          rintro c ⟨i2, j2, k2, hc2⟩ hcb
          refine ⟨i2, j2, k2, (hst _ _ _ _).2 (.inl ((hsl _ _ _ _).2 ⟨hc2, ?_⟩))⟩
          rintro ⟨rfl, rfl, rfl⟩
          obtain ⟨rfl, rfl, rfl⟩ := hx
          exact hcb (hc2.2.2.symm.trans hh.2.2)
      · rintro b c k2 ⟨i', j', k', hh⟩ hnb hb0 hc2
        rcases hcase with ⟨-, rfl⟩ | ⟨-, hocc, -, hsl, hv⟩
        · exact absurd ⟨_, _, _, (hst _ _ _ _).2 (.inl hh)⟩ hnb
        · have hx : i' = lzcnt (w.st.info a).len ∧ j' = (w.st.info a).type ∧ k' = k := Classical.byContradiction fun hx =>
            hnb ⟨_, _, _, (hst _ _ _ _).2 (.inl ((hsl _ _ _ _).2 ⟨hh, hx⟩))⟩
          obtain ⟨rfl, rfl, rfl⟩ := hx
          have r1 := h.inv.refsHeld b ⟨_, _, _, hh⟩
          have r2 := h.inv.refsHeld c ⟨_, _, _, hc2⟩
          have := hv (by rw [hh.2.2]; omega) k2 c hc2
          omega
  · rw [if_neg hok]
    exact ⟨w, false, rfl, h, ⟨rfl, rfl, rfl, rfl⟩, rfl, rfl, ⟨fun e => (by cases e), fun e => absurd ⟨e.1, e.2.1, e.2.2.1⟩ hok⟩, fun _ => rfl, fun e => (by cases e)⟩

end Riptide.Recycle.Call
