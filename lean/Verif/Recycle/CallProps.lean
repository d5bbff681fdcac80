import Verif.Recycle.CallLemmas
/-! **C159**: what the calls of the recycler do. -/
namespace Riptide.Recycle.Call
open Riptide.Recycle Spec

theorem long_num {n : Int} (h : -9223372036854775808 ≤ n ∧ n ≤ 9223372036854775807) : long (.num n) = some n := by
  show (if _ then some n else none) = _
  rw [if_pos h]

theorem int_num {n : Int} (h : -2147483648 ≤ n ∧ n ≤ 2147483647) : int (.num n) = some n := by
  show (if _ then some n else none) = _
  rw [if_pos h]

theorem int_some {n t : Int} (h : int (.num n) = some t) : t = n := by
  change (if _ then some n else none) = some t at h
  split at h
  · exact (Option.some.inj h).symm
  · cases h

/-- **C159**, the collection: exactly the arrays kept for more than the given billions of cycles are given up; the answer tells how many, and what had been counted before.
References of the program stay as they are. -/
theorem collect_now {w : World} (h : Right w) (now : Nat) {n : Int} (hn : Fits n) :
    ∃ w', collectNow w now (.num n) = some (w', .stats w.hits w.misses w.heads w.tails ((kept w.st : Int) - kept w'.st)) ∧ Right w' ∧
      (∀ a, Held w'.st a ↔ Held w.st a ∧ ¬Old w.st now (n * 1000000000) a) ∧ w'.st.outside = w.st.outside ∧ w'.st.info = w.st.info ∧
      w'.hits = w.hits ∧ w'.misses = w.misses ∧ w'.heads = w.heads := by
  obtain ⟨w', m, e, h1, h2, h3, h4, h5, h6, h7, -, h8⟩ := collect_world h now n true (.inl hn)
  unfold Fits at hn
  unfold collectNow
  rw [long_num (by omega)]
  simp only
  rw [e]
  refine ⟨w', by rw [h6]; rfl, h1, fun a => ?_, h2.1, h2.2.1, h3, h4, h5⟩
  rw [h8]
  simp

/-- **C159**, looking for one of several: the first array of the list of which there is a kept one of the type asked for and of its length, held by nobody else; `None` when
there is none. Arrays of several dimensions or without items are passed over. Every look-up without success counts as a miss. -/
theorem try_items {t : Int} (ht : 0 ≤ t) : ∀ (ds : List (List Nat)) {w : World}, Right w →
    ∃ w' r, tryItems t w (ds.map .array) = some (w', r) ∧ Right w' ∧ w'.heads = w.heads ∧
      ((r = .nothing ∧ w'.st = w.st ∧ w'.hits = w.hits ∧ w'.misses = w.misses + ds.countP (fun d => decide (d.prod ≥ 1 ∧ t < 14 ∧ d.length = 1)) ∧
          ∀ n, n ≥ 1 → [n] ∈ ds → ¬∃ a, Free w.st t n a) ∨
        ∃ pre n post a, ds = pre ++ [n] :: post ∧ r = .recycled a ∧ Handed w.st w'.st t n a ∧ w'.hits = w.hits + 1 ∧
          w'.misses = w.misses + pre.countP (fun d => decide (d.prod ≥ 1 ∧ t < 14 ∧ d.length = 1)) ∧ ∀ n', n' ≥ 1 → [n'] ∈ pre → ¬∃ a, Free w.st t n' a)
  | [], w, h => ⟨w, .nothing, rfl, h, rfl, .inl ⟨rfl, rfl, rfl, by simp, fun _ _ h => absurd h (by simp)⟩⟩
  | d :: ds, w, h => by
    obtain ⟨w1, r1, e, h1, hh, -, -, hnone, hsome⟩ := find_world h d.length t d.prod ht
    rw [List.map_cons, tryItems, e]
    simp only [Option.bind_some]
    cases r1 with
    | some a =>
      obtain ⟨g1, g2, g3, g4, g5⟩ := hsome a rfl
      match d, g2 with
      | [n], _ =>
        have hp : [n].prod = n := by simp
        rw [hp] at g1
        exact ⟨w1, _, rfl, h1, hh, .inr ⟨[], n, ds, a, rfl, rfl, g1, g4, by simpa using g5, fun _ _ h => absurd h (by simp)⟩⟩
    | none =>
      obtain ⟨g1, g2, g3, g4, g5⟩ := hnone rfl
      obtain ⟨w2, r2, e2, h2, hh2, hcase⟩ := try_items ht ds h1
      have hfree : ∀ n, n ≥ 1 → [n] = d → ¬∃ a, Free w.st t n a := by
        intro n hn hd
        subst hd
        have := g5 (by simpa using hn) rfl
        simpa using this
      refine ⟨w2, r2, e2, h2, hh2.trans hh, ?_⟩
      rcases hcase with ⟨q1, q2, q3, q4, q5⟩ | ⟨pre, n, post, a, q1, q2, q3, q4, q5, q6⟩
      · refine .inl ⟨q1, q2.trans g1, q3.trans g2, ?_, ?_⟩
        · rw [q4, g4, List.countP_cons]
          simp only [decide_eq_true_eq]
          split <;> simp <;> omega
        · intro n hn hm
          rcases List.mem_cons.1 hm with hm | hm
          · exact hfree n hn hm
          · rw [← g1]; exact q5 n hn hm
      · refine .inr ⟨d :: pre, n, post, a, by rw [q1]; rfl, q2, by rw [← g1]; exact q3, by omega, ?_, ?_⟩
        · rw [q5, g4, List.countP_cons]
          simp only [decide_eq_true_eq]
          split <;> simp <;> omega
        · intro n' hn hm
          rcases List.mem_cons.1 hm with hm | hm
          · exact hfree n' hn hm
          · rw [← g1]; exact q6 n' hn hm

/-- **C159**, `TryRecycleNumpy` for a type number which is not negative and a list of arrays. -/
theorem try_recycle {w : World} (h : Right w) {t : Int} (ht : 0 ≤ t) (ht' : t ≤ 2147483647) (ds : List (List Nat)) :
    ∃ w' r, tryRecycle w (.num t) (.list (ds.map .array)) = some (w', r) ∧ Right w' ∧
      (r = .nothing ∧ w'.st = w.st ∧ w'.hits = w.hits ∧ w'.misses = w.misses + ds.countP (fun d => decide (d.prod ≥ 1 ∧ t < 14 ∧ d.length = 1)) ∧
          (∀ n, n ≥ 1 → [n] ∈ ds → ¬∃ a, Free w.st t n a) ∨
        ∃ pre n post a, ds = pre ++ [n] :: post ∧ r = .recycled a ∧ Handed w.st w'.st t n a ∧ w'.hits = w.hits + 1 ∧
          w'.misses = w.misses + pre.countP (fun d => decide (d.prod ≥ 1 ∧ t < 14 ∧ d.length = 1)) ∧ ∀ n', n' ≥ 1 → [n'] ∈ pre → ¬∃ a, Free w.st t n' a) := by
  obtain ⟨w', r, e, h1, -, h2⟩ := try_items ht ds h
  refine ⟨w', r, ?_, h1, h2⟩
  unfold tryRecycle
  rw [int_num (by omega)]
  exact e

/-- **C159**, giving an array to the recycler: it answers `True` exactly when the recycler is on, keeps arrays for some time, nobody else holds the array, and it is of a kind
which is kept and not there yet. It is then held, with the reference of the program as before. -/
theorem recycle_call {w : World} (h : Right w) {a : Nat} (ho : w.st.outside a ≥ 1) (hf : Fits w.st.timespan) (now : Nat) :
    ∃ w' b, recycle w now (.array a) = some (w', .truth b) ∧ Right w' ∧
      (b = true ↔ w.st.mode = false ∧ w.st.refs a = 1 ∧ (w.st.info a).plain = true ∧ 0 < w.st.timespan ∧ Welcome w.st a) ∧
      (b = true → Held w'.st a ∧ w'.st.refs a = 2 ∧ w'.heads = w.heads + 1) ∧ (b = false → w'.heads = w.heads ∧ ∀ c, Held w'.st c → Held w.st c) ∧
      w'.st.outside = w.st.outside ∧ w'.st.info = w.st.info ∧ w'.hits = w.hits ∧ w'.misses = w.misses := by
  unfold recycle
  simp only
  split
  · rename_i hc
    refine ⟨w, false, rfl, h, ⟨fun e => (by cases e), fun e => ?_⟩, fun e => (by cases e), fun _ => ⟨rfl, fun _ h => h⟩, rfl, rfl, rfl, rfl⟩
    simp [e.1, e.2.1, e.2.2.1] at hc
  · rename_i hc
    simp only [Bool.or_eq_true, decide_eq_true_eq, not_or, Bool.not_eq_eq_eq_not, Bool.not_true] at hc
    obtain ⟨⟨hm, hr⟩, hpl⟩ := hc
    have hr1 : w.st.refs a = 1 := by omega
    have hpl1 : (w.st.info a).plain = true := by simpa using hpl
    have hm1 : w.st.mode = false := by simpa using hm
    split
    · rename_i hts
      obtain ⟨w1, b, e, h1, hw, g1, g2, g3, g4, g5⟩ := insert_world h hr1 ho hpl1 now
      obtain ⟨w2, n, e2, h2, hw2, q1, q2, q3, q4, q5, q6, q7⟩ := collect_world h1 now w.st.timespan false (.inl hf)
      rw [e]
      simp only [Option.bind_some, e2, Option.map_some]
      refine ⟨w2, b, rfl, h2, ⟨fun hb => ⟨hm1, hr1, hpl1, hts, g3.1 hb⟩, fun hb => g3.2 hb.2.2.2.2⟩, ?_, ?_, hw2.1.trans hw.1, hw2.2.1.trans hw.2.1, q1.trans g1, q2.trans g2⟩
      · intro hb
        obtain ⟨tk, hhd⟩ := g5 hb
        obtain ⟨i, j, k, hs, htsc⟩ := tk.held
        have hheld : Held w2.st a := by
          refine (q7 a).2 ⟨⟨i, j, k, hs⟩, ?_⟩
          rintro ⟨-, i', j', k', hs', hold⟩
          obtain ⟨rfl, rfl, rfl⟩ := h1.inv.once _ _ _ _ _ _ _ hs hs'
          rw [htsc] at hold
          omega
        refine ⟨hheld, ?_, by omega⟩
        rw [h2.inv.refsHeld a hheld, hw2.1, hw.1]
        have hn : ¬Held w.st a := fun hh => by have := h.inv.refsHeld a hh; omega
        have := h.inv.refsFree a hn
        omega
      · intro hb
        have := g4 hb
        subst this
        exact ⟨q3, fun c hc => ((q7 c).1 hc).1⟩
    · rename_i hts
      exact ⟨w, false, rfl, h, ⟨fun e => (by cases e), fun e => absurd e.2.2.2.1 hts⟩, fun e => (by cases e), fun _ => ⟨rfl, fun _ h => h⟩, rfl, rfl, rfl, rfl⟩

/-- **C159**, what an array given to the recycler drives out when there is no collection within 60 billion cycles: at most one of the same kind, only when there are four,
and one held elsewhere too if there is one. -/
theorem recycle_takes {w : World} (h : Right w) {a : Nat} (ho : w.st.outside a ≥ 1) {now : Nat} (hq : now - w.st.lastGc < 60000000000) {w' : World}
    (e : recycle w now (.array a) = some (w', .truth true)) : Taken w.st w'.st a now := by
  unfold recycle at e
  simp only at e
  split at e
  · simp at e
  · rename_i hc
    simp only [Bool.or_eq_true, decide_eq_true_eq, not_or, Bool.not_eq_eq_eq_not, Bool.not_true] at hc
    obtain ⟨⟨hm, hr⟩, hpl⟩ := hc
    split at e
    · obtain ⟨w1, b, e1, h1, hw, g1, g2, g3, g4, g5⟩ := insert_world h (a := a) (by omega) ho (by simpa using hpl) now
      have hl : w1.st.lastGc = w.st.lastGc := by
        cases b with
        | false => rw [g4 rfl]
        | true =>
          unfold insert at e1
          cases hi : w.st.insert a now with
          | none => rw [hi] at e1; simp at e1
          | some r =>
            rw [hi] at e1
            simp only [Option.map_some, Option.some.injEq] at e1
            have hr : r.1.lastGc = w.st.lastGc := by
              unfold Rec.insert at hi
              split at hi
              · simp only at hi
                split at hi
                · cases hi; rfl
                · cases hs : w.st.slotFor (lzcnt (w.st.info a).len) (w.st.info a).type with
                  | none => rw [hs] at hi; simp at hi
                  | some q =>
                    rw [hs] at hi
                    simp only [Option.map_some, Option.some.injEq] at hi
                    rw [← hi]
                    show q.1.lastGc = _
                    unfold Rec.slotFor at hs
                    split at hs
                    · cases hs; rfl
                    · cases hv : victim w.st.refs (w.st.item (lzcnt (w.st.info a).len) (w.st.info a).type) (w.st.head (lzcnt (w.st.info a).len) (w.st.info a).type) (List.range 4) with
                      | none => rw [hv] at hs; simp at hs
                      | some k =>
                        rw [hv] at hs
                        simp only [Option.bind_some] at hs
                        unfold Rec.release at hs
                        simp only at hs
                        split at hs
                        · simp at hs
                        · simp only [Option.map_some, Option.some.injEq] at hs
                          rw [← hs]; rfl
              · cases hi; rfl
            split at e1
            · simp only [Prod.mk.injEq] at e1; rw [← e1.1]; exact hr
            · simp at e1
      rw [e1] at e
      simp only [Option.bind_some] at e
      unfold collect at e
      rw [if_pos (by rw [hl]; simp [hq])] at e
      simp only [Option.map_some, Option.some.injEq, Prod.mk.injEq, Reply.truth.injEq] at e
      obtain ⟨rfl, hb⟩ := e
      exact (g5 hb).1
    · simp at e

/-- **C159**, a new array for one given: for a type number which is not negative, a kept array of that type and length which nobody else holds, or one made by numpy with the
type asked for and the shape of the given array. Texts are never taken from the recycler. -/
theorem allocate_numpy {w : World} (h : Right w) {t : Int} (ht : 0 ≤ t) (ht' : t ≤ 2147483647) (now : Nat) (first second : Bool) {dims : List Nat} (hd : dims ≠ []) :
    ∃ w' r, allocateNumpy w now first second (some dims) (.num t) = some (w', r) ∧ Right w' ∧
      ((∃ n a, dims = [n] ∧ ¬(18 ≤ t ∧ t ≤ 20) ∧ r = .recycled a ∧ Handed w.st w'.st t n a ∧ w'.hits = w.hits + 1) ∨
        (first = true ∧ r = .made t dims (if 18 ≤ t ∧ t ≤ 20 then 1 else 0) false ∧ w'.st = w.st ∧ w'.hits = w.hits) ∨
        (first = false ∧ second = true ∧ r = .made t dims (if 18 ≤ t ∧ t ≤ 20 then 1 else 0) true ∧ w'.hits = w.hits ∧ ∀ a, Held w'.st a → Held w.st a) ∨
        (first = false ∧ second = false ∧ r = .error ∧ w'.hits = w.hits ∧ ∀ a, Held w'.st a → Held w.st a)) ∧
      ((∃ a n, dims = [n] ∧ n ≥ 1 ∧ Free w.st t n a) → ∃ a, r = .recycled a) := by
  have alloc : ∀ {w1 : World}, Right w1 → ∀ item, ∃ w' r, allocate w1 now first second t dims item = some (w', r) ∧ Right w' ∧ w'.hits = w1.hits ∧
      (∀ a, Held w'.st a → Held w1.st a) ∧
      ((first = true ∧ r = .made t dims item false ∧ w'.st = w1.st) ∨ (first = false ∧ second = true ∧ r = .made t dims item true) ∨
        (first = false ∧ second = false ∧ r = .error)) := by
    intro w1 h1 item
    have hsh : shape dims = dims := by unfold shape; rw [if_neg hd]
    unfold allocate
    rw [hsh]
    cases first with
    | true => exact ⟨w1, _, rfl, h1, rfl, fun _ h => h, .inl ⟨rfl, rfl, rfl⟩⟩
    | false =>
      obtain ⟨w2, n, e2, h2, hw2, q1, q2, q3, q4, q5, q6, q7⟩ := collect_world h1 now 0 false (.inl (by unfold Fits; omega))
      rw [if_neg (by simp), e2]
      refine ⟨w2, _, rfl, h2, q1, fun a ha => ((q7 a).1 ha).1, .inr ?_⟩
      cases second with
      | true => exact .inl ⟨rfl, rfl, rfl⟩
      | false => exact .inr ⟨rfl, rfl, rfl⟩
  unfold allocateNumpy
  rw [int_num (by omega)]
  simp only
  by_cases hs : 18 ≤ t ∧ t ≤ 20
  · rw [if_pos hs, if_pos hs]
    obtain ⟨w', r, e, g1, g2, g3, g4⟩ := alloc h 1
    refine ⟨w', r, e, g1, .inr ?_, ?_⟩
    · rcases g4 with g | g | g
      · exact .inl ⟨g.1, g.2.1, g.2.2, g2⟩
      · exact .inr (.inl ⟨g.1, g.2.1, g.2.2, g2, g3⟩)
      · exact .inr (.inr ⟨g.1, g.2.1, g.2.2, g2, g3⟩)
    · rintro ⟨a, n, -, -, ⟨i, j, k, hsl⟩, -, hty, -⟩
      obtain ⟨-, -, b3, b4, -⟩ := h.inv.slot _ _ _ _ hsl
      omega
  · rw [if_neg hs, if_neg hs]
    obtain ⟨w1, r1, e, h1, hh, -, -, hnone, hsome⟩ := find_world h dims.length t dims.prod ht
    rw [e]
    simp only [Option.bind_some]
    cases r1 with
    | some a =>
      obtain ⟨g1, g2, g3, g4, g5⟩ := hsome a rfl
      match dims, g2 with
      | [n], _ =>
        have hp : [n].prod = n := by simp
        rw [hp] at g1
        exact ⟨w1, _, rfl, h1, .inl ⟨n, a, rfl, hs, rfl, g1, g4⟩, fun _ => ⟨a, rfl⟩⟩
    | none =>
      obtain ⟨f1, f2, f3, f4, f5⟩ := hnone rfl
      obtain ⟨w', r, e, g1, g2, g3, g4⟩ := alloc h1 0
      rw [f1] at g3 g4
      refine ⟨w', r, e, g1, .inr ?_, ?_⟩
      · rcases g4 with g | g | g
        · exact .inl ⟨g.1, g.2.1, g.2.2, g2.trans f2⟩
        · exact .inr (.inl ⟨g.1, g.2.1, g.2.2, g2.trans f2, g3⟩)
        · exact .inr (.inr ⟨g.1, g.2.1, g.2.2, g2.trans f2, g3⟩)
      · rintro ⟨a, n, hdn, hn, hfree⟩
        subst hdn
        have := f5 (by simpa using hn) rfl
        exact absurd ⟨a, by simpa using hfree⟩ this

/-- **C159**, the dump: the number of items, not of bytes, of all arrays kept. -/
theorem dump_call {w : World} (h : Right w) : ∃ l : List Nat, l.Nodup ∧ (∀ a, a ∈ l ↔ Held w.st a) ∧ l.length = kept w.st ∧
    dump w = .number ((l.map fun a => ((w.st.info a).len : Int)).sum) := by
  refine ⟨(slots.filter fun p => decide ((w.st.item p.1 p.2.1 p.2.2).size ≠ 0)).map fun p => (w.st.item p.1 p.2.1 p.2.2).arr, ?_, ?_, ?_, ?_⟩
  · unfold List.Nodup
    rw [List.pairwise_map]
    have := List.Pairwise.filter (fun p : Nat × Nat × Nat => decide ((w.st.item p.1 p.2.1 p.2.2).size ≠ 0)) slots_nodup
    refine this.imp_of_mem ?_
    rintro ⟨i, j, k⟩ ⟨i', j', k'⟩ h1 h2 hne e
    simp only [List.mem_filter, decide_eq_true_eq] at h1 h2
    obtain ⟨rfl, rfl, rfl⟩ := h.inv.once i j k i' j' k' _ ⟨(mem_slots.1 h1.1).2.2, h1.2, rfl⟩ ⟨(mem_slots.1 h2.1).2.2, h2.2, e.symm⟩
    exact hne rfl
  · intro a
    simp only [List.mem_map, List.mem_filter, decide_eq_true_eq]
    constructor
    · rintro ⟨⟨i, j, k⟩, ⟨h1, h2⟩, h3⟩
      exact ⟨i, j, k, (mem_slots.1 h1).2.2, h2, h3⟩
    · rintro ⟨i, j, k, hs⟩
      exact ⟨(i, j, k), ⟨mem_slots.2 (inslot_bounds h.inv hs), hs.2.1⟩, hs.2.2⟩
  · rw [List.length_map, ← List.countP_eq_length_filter]
    rfl
  · unfold dump
    congr 1
    rw [List.map_map]
    have gen : ∀ l : List (Nat × Nat × Nat), (∀ p ∈ l, p ∈ slots) →
        (l.map fun p => if w.st.head p.1 p.2.1 ≠ w.st.tail p.1 p.2.1 then ((w.st.item p.1 p.2.1 p.2.2).size : Int) else 0).sum =
        ((l.filter fun p => decide ((w.st.item p.1 p.2.1 p.2.2).size ≠ 0)).map ((fun a => ((w.st.info a).len : Int)) ∘ fun p => (w.st.item p.1 p.2.1 p.2.2).arr)).sum := by
      intro l
      induction l with
      | nil => intro _; rfl
      | cons p l ih =>
        intro hl
        rw [List.map_cons, List.sum_cons, ih (fun q hq => hl q (List.mem_cons_of_mem _ hq))]
        obtain ⟨i, j, k⟩ := p
        have hm := mem_slots.1 (hl (i, j, k) (List.mem_cons_self ..))
        by_cases hz : (w.st.item i j k).size ≠ 0
        · have hs : InSlot w.st i j k (w.st.item i j k).arr := ⟨hm.2.2, hz, rfl⟩
          rw [if_pos (inslot_open h.inv hs), List.filter_cons_of_pos (by simpa using hz), List.map_cons, List.sum_cons]
          have := (h.inv.slot _ _ _ _ hs).1
          simp only [Function.comp]
          rw [this]
        · rw [List.filter_cons_of_neg (by simpa using hz)]
          have hz0 : (w.st.item i j k).size = 0 := by omega
          simp [hz0]
    exact gen slots (fun _ h => h)

/-- **C159**, the two settings: the old time is the answer; the mode is answered with `True` whatever it was, and any number but 0 turns the recycler off. -/
theorem settings_call (w : World) {n : Int} (hn : -9223372036854775808 ≤ n ∧ n ≤ 9223372036854775807) :
    setTimeout w (.num n) = ({ w with st := { w.st with timespan := n } }, .number w.st.timespan) ∧
    setMode w (.num n) = ({ w with st := { w.st with mode := decide (n ≠ 0) } }, .truth true) := by
  unfold setTimeout setMode
  rw [long_num hn]
  exact ⟨rfl, rfl⟩

/-! ### Histories -/

/-- An answer which hands out an array. -/
def isRecycled : Reply → Bool
  | .recycled _ => true
  | _ => false

theorem Right.init : Right .init := ⟨RecInv.init, by decide +kernel⟩

theorem step_right {w : World} (h : Right w) {op : Op} (hp : Fair w op) :
    ∃ w' r, step w op = some (w', r) ∧ Right w' ∧ w'.hits = w.hits + (if isRecycled r then 1 else 0) := by
  have prog : ∀ (o : RecOp), Pre w.st o → (∀ s', w.st.step o = some s' → kept s' = kept w.st) →
      ∃ w' r, ((w.st.step o).map fun r => (({ w with st := r } : World), Reply.nothing)) = some (w', r) ∧ Right w' ∧ w'.hits = w.hits + (if isRecycled r then 1 else 0) := by
    intro o ho hk
    obtain ⟨s', e, h'⟩ := step_inv h.inv ho
    rw [e]
    refine ⟨_, _, rfl, ⟨h', ?_⟩, by simp [isRecycled]⟩
    show w.heads - w.tails = kept s'
    rw [hk s' e]
    exact h.count
  cases op with
  | setMode x =>
    show ∃ w' r, some (setMode w x) = some (w', r) ∧ _
    unfold setMode
    cases hx : long x with
    | none => exact ⟨w, .error, rfl, h, by simp [isRecycled]⟩
    | some n => exact ⟨_, .truth true, rfl, ⟨⟨h.inv.count, h.inv.slot, h.inv.once, h.inv.refsHeld, h.inv.refsFree⟩, h.count⟩, by simp [isRecycled]⟩
  | setTimeout x =>
    show ∃ w' r, some (setTimeout w x) = some (w', r) ∧ _
    unfold setTimeout
    cases hx : long x with
    | none => exact ⟨w, .error, rfl, h, by simp [isRecycled]⟩
    | some n => exact ⟨_, .number w.st.timespan, rfl, ⟨⟨h.inv.count, h.inv.slot, h.inv.once, h.inv.refsHeld, h.inv.refsFree⟩, h.count⟩, by simp [isRecycled]⟩
  | collectNow now x =>
    cases x with
    | other => exact ⟨w, .error, rfl, h, by simp [isRecycled]⟩
    | num n =>
      by_cases hr : -9223372036854775808 ≤ n ∧ n ≤ 9223372036854775807
      · obtain ⟨w', e, h1, -, -, -, h2, -⟩ := collect_now h now (hp hr)
        exact ⟨w', _, e, h1, by simpa [isRecycled] using h2⟩
      · refine ⟨w, .error, ?_, h, by simp [isRecycled]⟩
        have : long (.num n) = none := by
          show (if _ then some n else none) = _
          rw [if_neg hr]
        show collectNow w now (.num n) = _
        unfold collectNow
        rw [this]
  | dump => exact ⟨w, _, rfl, h, by simp [isRecycled, dump]⟩
  | recycle now x =>
    cases x with
    | other => exact ⟨w, .error, rfl, h, by simp [isRecycled]⟩
    | array a =>
      obtain ⟨w', b, e, h1, -, -, -, -, -, h2, -⟩ := recycle_call h hp.1 hp.2 now
      exact ⟨w', _, e, h1, by simpa [isRecycled] using h2⟩
  | tryRecycle x o =>
    show ∃ w' r, tryRecycle w x o = some (w', r) ∧ _
    unfold tryRecycle
    cases x with
    | other => exact ⟨w, .error, rfl, h, by simp [isRecycled]⟩
    | num t =>
      cases hx : int (.num t) with
      | none => exact ⟨w, .error, rfl, h, by simp [isRecycled]⟩
      | some t' =>
        have ht : t' = t := int_some hx
        subst ht
        cases o with
        | other => exact ⟨w, .nothing, rfl, h, by simp [isRecycled]⟩
        | list l =>
          obtain ⟨h0, hl⟩ := hp
          have : ∃ ds : List (List Nat), l = ds.map .array := by
            clear hx h0
            induction l with
            | nil => exact ⟨[], rfl⟩
            | cons x l ih =>
              obtain ⟨ds, e⟩ := ih (fun y hy => hl y (List.mem_cons_of_mem _ hy))
              obtain ⟨d, e'⟩ := hl x (List.mem_cons_self ..)
              exact ⟨d :: ds, by rw [e, e']; rfl⟩
          obtain ⟨ds, rfl⟩ := this
          obtain ⟨w', r, e, h1, -, h2⟩ := try_items h0 ds h
          refine ⟨w', r, e, h1, ?_⟩
          rcases h2 with ⟨rfl, -, q, -⟩ | ⟨_, _, _, a, -, rfl, -, q, -⟩
          · simpa [isRecycled] using q
          · simpa [isRecycled] using q
  | allocateNumpy now f sec o x =>
    show ∃ w' r, allocateNumpy w now f sec o x = some (w', r) ∧ _
    cases o with
    | none => exact ⟨w, .error, rfl, h, by simp [isRecycled]⟩
    | some dims =>
      cases x with
      | other => exact ⟨w, .error, rfl, h, by simp [isRecycled]⟩
      | num t =>
        have h0 : 0 ≤ t := hp
        have alloc : ∀ {w1 : World}, Right w1 → ∀ item, ∃ w' r, allocate w1 now f sec t dims item = some (w', r) ∧ Right w' ∧ w'.hits = w1.hits + (if isRecycled r then 1 else 0) := by
          intro w1 h1 item
          unfold allocate
          cases f with
          | true => exact ⟨w1, _, rfl, h1, by simp [isRecycled]⟩
          | false =>
            obtain ⟨w2, n, e2, h2, hw2, q1, -⟩ := collect_world h1 now 0 false (.inl (by unfold Fits; omega))
            rw [if_neg (by simp), e2]
            refine ⟨w2, _, rfl, h2, ?_⟩
            cases sec <;> simpa [isRecycled] using q1
        unfold allocateNumpy
        cases hx : int (.num t) with
        | none => exact ⟨w, .error, rfl, h, by simp [isRecycled]⟩
        | some t' =>
          have ht : t' = t := int_some hx
          subst ht
          simp only
          split
          · exact alloc h 1
          · obtain ⟨w1, r1, e, h1, hh, -, -, hnone, hsome⟩ := find_world h dims.length t' dims.prod h0
            rw [e]
            simp only [Option.bind_some]
            cases r1 with
            | some a =>
              obtain ⟨g1, g2, g3, g4, g5⟩ := hsome a rfl
              exact ⟨w1, _, rfl, h1, by simpa [isRecycled] using g4⟩
            | none =>
              obtain ⟨f1, f2, -⟩ := hnone rfl
              obtain ⟨w', r, e', q1, q2⟩ := alloc h1 0
              exact ⟨w', r, e', q1, by omega⟩
  | create a info => exact prog (.create a info) hp (fun s' e => by cases e; rfl)
  | change a info => exact prog (.change a info) hp (fun s' e => by cases e; rfl)
  | incref a => exact prog (.incref a) hp (fun s' e => by cases e; rfl)
  | decref a => exact prog (.decref a) hp (fun s' e => by cases e; rfl)

/-- **C159**, all histories which are fair: there is no undefined behaviour; what came less what went is what is kept; no array is kept twice; the references are those of
the program and one more for each kept array; and the number of hits is the number of arrays handed out. -/
theorem history_partial : ∀ (ops : List Op) {w : World}, Right w → AllFair w ops →
    ∃ w' rs, run w ops = some (w', rs) ∧ rs.length = ops.length ∧ Right w' ∧ w'.hits = w.hits + rs.countP isRecycled
  | [], w, h, _ => ⟨w, [], rfl, rfl, h, by simp⟩
  | op :: ops, w, h, hp => by
    obtain ⟨w1, r, e, h1, hh⟩ := step_right h hp.1
    obtain ⟨w2, rs, e2, hl, h2, hh2⟩ := history_partial ops h1 (hp.2 w1 r e)
    refine ⟨w2, r :: rs, by unfold run; rw [e]; simp [e2], by simp [hl], h2, ?_⟩
    rw [hh2, hh, List.countP_cons]
    split <;> simp <;> omega

/-! ### Examples -/

/-- Two arrays are made, given to the recycler and dropped. -/
def exHistory : List Op :=
  [.create 1 (exInfo 64), .create 2 (exInfo 128), .recycle 5 (.array 1), .decref 1, .recycle 6 (.array 2), .decref 2]

/-- The answers and counters of a history. -/
def see (ops : List Op) : Option (List Reply × Int × Int × Int × Int) := (run .init ops).map fun r => (r.2, r.1.hits, r.1.misses, r.1.heads, r.1.tails)

example : see (exHistory ++ [.tryRecycle (.num 7) (.list [.array [3, 4], .array [5], .array [1000]]), .dump]) =
    some ([.nothing, .nothing, .truth true, .nothing, .truth true, .nothing, .recycled 1, .number 1000], 1, 1, 2, 1) := by decide +kernel

example : see (exHistory ++ [.allocateNumpy 7 true true (some [1000]) (.num 7), .allocateNumpy 7 true true (some [1000]) (.num 18), .allocateNumpy 7 true true (some [3, 5]) (.num 7)]) =
    some ([.nothing, .nothing, .truth true, .nothing, .truth true, .nothing, .recycled 1, .made 18 [1000] 1 false, .made 7 [3, 5] 0 false], 1, 0, 2, 1) := by decide +kernel

/-- Of two arrays only the older one goes. -/
example : see ([.create 1 (exInfo 64), .create 2 (exInfo 128), .recycle 5 (.array 1), .recycle 5000000000 (.array 2), .dump, .collectNow 6000000000 (.num 2), .dump]) =
    some ([.nothing, .nothing, .truth true, .truth true, .number 2000, .stats 0 0 2 0 1, .number 1000], 0, 0, 2, 1) := by decide +kernel

example : see [.setTimeout (.num 5), .setTimeout (.num 6), .setMode (.num 1), .setMode .other] = some ([.number 150, .number 5, .truth true, .error], 0, 0, 0, 0) := by
  decide +kernel

end Riptide.Recycle.Call
