import Verif.Arrays.InfoSpec
import Verif.Arrays.NumsLemmas
/-! What `BuildArrayInfo` answers (C147). -/
namespace Riptide.Nums.Info
open Riptide.Nums Riptide.Binary
open Riptide.Mask.Call.Spec (inC)

theorem inC_one (n : Nat) (s : Int) : inC [n] [s] = (List.range n).map fun (i : Nat) => (i : Int) * s := by
  simp only [inC, List.map_cons, List.map_nil]
  rw [← List.map_eq_flatMap]
  simp

theorem keepLay_one (n : Nat) (s : Int) (item : Nat) : keepLay ⟨[n], [s], item⟩ = ⟨[n], [(item : Int)], item⟩ := by
  simp [keepLay, keepStride, sortedDims, insertDim, prod, List.range_succ]

theorem copyMem_get (item n : Nat) (s : Int) (m : Mem) (k j : Nat) (hk : k < n) (hj : j < item) :
    copyMem item ((inC [n] [(item : Int)]).zip (inC [n] [s])) m (((k * item : Nat) : Int) + j) = m ((k : Int) * s + j) := by
  have hz : (inC [n] [(item : Int)]).zip (inC [n] [s]) = (List.range n).map fun (i : Nat) => ((i : Int) * item, (i : Int) * s) := by
    rw [inC_one, inC_one, List.zip_map']
  have hf : ((List.range n).map fun (i : Nat) => ((i : Int) * item, (i : Int) * s)).find?
      (fun p => decide (p.1 ≤ ((k * item : Nat) : Int) + j ∧ ((k * item : Nat) : Int) + j < p.1 + item)) = some ((k : Int) * item, (k : Int) * s) := by
    rw [List.find?_map, Option.map_eq_some_iff]
    refine ⟨k, ?_, rfl⟩
    rw [List.find?_range_eq_some]
    refine ⟨?_, List.mem_range.2 hk, ?_⟩
    · simp
      omega
    · intro i hi
      have : (i + 1) * item ≤ k * item := Nat.mul_le_mul_right _ hi
      rw [Nat.succ_mul] at this
      simp only [Function.comp, Bool.not_eq_true', decide_eq_false_iff_not]
      push_cast
      have h2 : ((i * item : Nat) : Int) + item ≤ ((k * item : Nat) : Int) := by omega
      push_cast at h2
      omega
  unfold copyMem
  rw [hz, hf]
  simp only
  congr 1
  push_cast
  omega

theorem bits_one {a : Arr} {m : Mem} {n : Nat} {s : Int} {vs : List Nat} (hd : a.lay.dims = [n]) (hs : a.lay.strides = [s])
    (h : Bits a.lay.item a m vs) : vs.length = n ∧ ∀ (k b : Nat), vs[k]? = some b → HasBits a.lay.item a.swapped m ((k : Int) * s) b := by
  unfold Bits at h
  rw [hd, hs] at h
  obtain ⟨h1, h2⟩ := allAt_get h
  rw [inC_one] at h1 h2
  have hl : vs.length = n := by rw [h1]; simp
  refine ⟨hl, fun k b hk => ?_⟩
  obtain ⟨hlt, _⟩ := List.getElem?_eq_some_iff.1 hk
  refine h2 k _ b ?_ hk
  rw [List.getElem?_map, List.getElem?_range (by omega)]
  rfl

theorem has_len {w : Nat} {sw : Bool} {b : Nat} : (if sw then (bytesOf w b).reverse else bytesOf w b).length = w := by
  cases sw <;> simp [bytesOf_length]

/-- The entry of one item. -/
theorem entry_good {n : Nat} {x : Arg} (h : Row n x) : ∃ e, entry true true true x = .ok e ∧ Describes n x e ∧ e.len = n ∧ e.item = sizeOf x := by
  cases x with
  | pyNone =>
    have : n = 0 := h
    subst this
    exact ⟨_, rfl, ⟨rfl, rfl⟩, rfl, rfl⟩
  | other => exact absurd h id
  | array a m =>
    obtain ⟨ht, hd, s, hs, h1⟩ := h
    have hlay : a.lay = ⟨[n], [s], a.lay.item⟩ := by
      cases hl : a.lay with
      | mk d ss i => rw [hl] at hd hs; simp only at hd hs; rw [hd, hs]
    have hlen : a.lay.len = n := by rw [Lay.len, hd]; simp [prod]
    by_cases hc : (a.lay.cContig || a.lay.fContig) = true
    · have hcase : n = 0 ∨ s = a.lay.item := by
        rw [hlay] at hc
        simp only [Lay.cContig, Lay.fContig, Lay.len, prod, sameStrides, cStrides, fStrides, Bool.or_eq_true, decide_eq_true_eq, Bool.and_true] at hc
        grind
      refine ⟨⟨true, a.type, a.lay.item, 1, n, m, false⟩, ?_, ⟨rfl, rfl, rfl, rfl, rfl, ?_⟩, rfl, rfl⟩
      · have htk : taken true true a m = some (a, m, false) := by unfold taken ensure; rw [if_pos rfl, if_pos hc]
        unfold entry
        simp only
        rw [htk]
        simp only
        unfold entryOf
        rw [if_neg (by omega), hs]
        simp only
        rw [if_neg (by rw [hd]; simp), if_neg (by rw [hlen]; omega), hd, hlen]
        rfl
      · intro vs hv
        obtain ⟨h2, h3⟩ := bits_one hd hs hv
        refine ⟨h2, fun k b hk => ?_⟩
        have hlt := (List.getElem?_eq_some_iff.1 hk).1
        rcases hcase with h0 | h0
        · omega
        · have := h3 k b hk
          rw [h0] at this
          push_cast
          exact this
    · have hc2 := copyMem_get a.lay.item n s m
      have hk : keepLay a.lay = ⟨[n], [(a.lay.item : Int)], a.lay.item⟩ := by rw [hlay, keepLay_one]
      refine ⟨⟨true, a.type, a.lay.item, 1, n, copyMem a.lay.item ((inC [n] [(a.lay.item : Int)]).zip (inC [n] [s])) m, true⟩, ?_,
        ⟨rfl, rfl, rfl, rfl, rfl, ?_⟩, rfl, rfl⟩
      · have htk : taken true true a m = some ((copyOf a m).1, (copyOf a m).2, true) := by
          unfold taken ensure
          rw [if_pos rfl, if_neg hc, if_pos rfl]
        unfold entry
        simp only
        rw [htk]
        simp only
        unfold entryOf copyOf
        simp only
        rw [if_neg (by omega), hk]
        simp only
        rw [if_neg (by simp), if_neg (by simp), hd, hs]
        simp [Lay.len, prod]
      · intro vs hv
        obtain ⟨h2, h3⟩ := bits_one hd hs hv
        refine ⟨h2, fun k b hkb => ?_⟩
        have hlt := (List.getElem?_eq_some_iff.1 hkb).1
        obtain ⟨h4, h5⟩ := h3 k b hkb
        refine ⟨h4, fun j hj => ?_⟩
        rw [has_len] at hj
        show copyMem a.lay.item ((inC [n] [(a.lay.item : Int)]).zip (inC [n] [s])) m (((k * a.lay.item : Nat) : Int) + j) = _
        rw [hc2 k j (by omega) hj]
        exact h5 j (by rw [has_len]; exact hj)

theorem entries_good {n : Nat} : ∀ (l : List Arg) (i : Nat), (∀ x ∈ l, Row n x) →
    ∃ es, entries true true (fun _ => true) i l = .ok es ∧ es.length = l.length ∧ (∀ e ∈ es, e.len = n) ∧ es.map (·.item) = l.map sizeOf ∧
      ∀ (k : Nat) x, l[k]? = some x → ∃ e, es[k]? = some e ∧ Describes n x e
  | [], _, _ => ⟨[], rfl, rfl, by simp, rfl, by simp⟩
  | x :: l, i, h => by
    obtain ⟨e, h1, h2, h3, h4⟩ := entry_good (h x (by simp))
    obtain ⟨es, g1, g2, g3, g4, g5⟩ := entries_good l (i + 1) (fun y hy => h y (by simp [hy]))
    refine ⟨e :: es, ?_, by simp [g2], ?_, by simp [h4, g4], ?_⟩
    · unfold entries
      rw [h1, g1]
    · intro y hy
      rcases List.mem_cons.1 hy with rfl | hy
      · exact h3
      · exact g3 y hy
    · intro k y hk
      cases k with
      | zero => simp at hk; subst hk; exact ⟨e, rfl, h2⟩
      | succ k => simp at hk; simpa using g5 k y hk

/-- With as many rows in every array, and memory, every array is described: its type, its size and its items one after the other. -/
theorem build_describes (l : List Arg) (n : Nat) (h : ∀ x ∈ l, Row n x) :
    ∃ es, build true (fun _ => true) true true (.items l) = .ok es (l.map sizeOf).sum ∧ es.length = l.length ∧
      ∀ (k : Nat) x, l[k]? = some x → ∃ e, es[k]? = some e ∧ Describes n x e := by
  obtain ⟨es, h1, h2, h3, h4, h5⟩ := entries_good l 0 h
  refine ⟨es, ?_, h2, h5⟩
  unfold build
  simp only [Obj.list]
  rw [if_neg (by decide), h1]
  simp only
  rw [if_pos, h4]
  unfold sameRows
  split
  · rfl
  · next x es' =>
    simp only [Bool.not_true, Bool.false_or, List.all_eq_true, decide_eq_true_eq]
    intro y hy
    rw [h3 y hy, h3 x (by simp)]

theorem entry_only {convert room : Bool} {x : Arg} {e : Entry} (h : entry true convert room x = .ok e) :
    x = .pyNone ∧ e.len = 0 ∨ ∃ a m, x = .array a m ∧ a.type ≤ 20 ∧ a.lay.dims = [e.len] := by
  cases x with
  | pyNone => left; simp only [entry, Except.ok.injEq] at h; rw [← h]; exact ⟨rfl, rfl⟩
  | other => cases h
  | array a m =>
    right
    refine ⟨a, m, rfl, ?_⟩
    unfold entry at h
    simp only at h
    cases ht : taken convert room a m with
    | none => rw [ht] at h; cases h
    | some p =>
      obtain ⟨b, mb, c⟩ := p
      rw [ht] at h
      simp only at h
      have hb : b.type = a.type ∧ b.lay.dims = a.lay.dims := by
        unfold taken ensure at ht
        split at ht
        · split at ht
          · cases ht; exact ⟨rfl, rfl⟩
          · split at ht
            · cases ht; exact ⟨rfl, rfl⟩
            · cases ht
        · cases ht; exact ⟨rfl, rfl⟩
      unfold entryOf at h
      split at h
      · cases h
      · next h20 =>
        cases hst : b.lay.strides with
        | nil => rw [hst] at h; cases h
        | cons s ss =>
          rw [hst] at h
          simp only at h
          split at h
          · cases h
          · next hnd =>
            split at h
            · cases h
            · simp only [Except.ok.injEq] at h
              rw [← h]
              simp only
              rw [← hb.1, ← hb.2]
              refine ⟨by omega, ?_⟩
              have h1 : b.lay.dims.length = 1 := by
                rcases Nat.decEq b.lay.dims.length 1 with h | h
                · exact absurd ⟨trivial, h⟩ hnd
                · exact h
              match hd : b.lay.dims, h1 with
              | [d], _ => simp [Lay.len, hd, prod]

theorem entries_only {convert : Bool} {room : Nat → Bool} : ∀ (l : List Arg) (i : Nat) (es : List Entry), entries true convert room i l = .ok es →
    es.length = l.length ∧ ∀ (k : Nat) x e, l[k]? = some x → es[k]? = some e → ∃ j, entry true convert (room j) x = .ok e
  | [], i, es, h => by
    simp only [entries, Except.ok.injEq] at h
    subst h
    simp
  | x :: l, i, es, h => by
    unfold entries at h
    cases h1 : entry true convert (room i) x with
    | error e => rw [h1] at h; cases h
    | ok e =>
      rw [h1] at h
      simp only at h
      cases h2 : entries true convert room (i + 1) l with
      | error e => rw [h2] at h; cases h
      | ok r =>
        rw [h2] at h
        simp only [Except.ok.injEq] at h
        subst h
        obtain ⟨g1, g2⟩ := entries_only l (i + 1) r h2
        refine ⟨by simp [g1], ?_⟩
        intro k y f hk hf
        cases k with
        | zero =>
          simp at hk hf
          subst hk hf
          exact ⟨i, h1⟩
        | succ k =>
          simp at hk hf
          exact g2 k y f hk hf

/-- With the check of rows nothing else is accepted: items which are neither `None` nor arrays of one dimension of a known type, and arrays of
different lengths, are not. -/
theorem build_only {table convert : Bool} {room : Nat → Bool} {l : List Arg} {es : List Entry} {total : Nat}
    (h : build table room true convert (.items l) = .ok es total) :
    ∃ n, ∀ x ∈ l, x = .pyNone ∧ n = 0 ∨ ∃ a m, x = .array a m ∧ a.type ≤ 20 ∧ a.lay.dims = [n] := by
  unfold build at h
  simp only [Obj.list] at h
  split at h
  · unfold noTable at h
    split at h <;> cases h
  · cases he : entries true convert room 0 l with
    | error b => rw [he] at h; cases b <;> cases h
    | ok fs =>
      rw [he] at h
      simp only at h
      split at h
      · next hr =>
        obtain ⟨h1, h2⟩ := entries_only l 0 fs he
        refine ⟨(fs.map (·.len)).headD 0, fun x hx => ?_⟩
        obtain ⟨k, hk, rfl⟩ := List.getElem_of_mem hx
        obtain ⟨j, hj⟩ := h2 k l[k] fs[k] (by simp) (by simp)
        have hlen : ∀ e ∈ fs, e.len = (fs.map (·.len)).headD 0 := by
          cases hf : fs with
          | nil => simp
          | cons y ys =>
            rw [hf] at hr
            unfold sameRows at hr
            simp only [Bool.not_true, Bool.false_or, List.all_eq_true, decide_eq_true_eq] at hr
            intro e he
            rcases List.mem_cons.1 he with rfl | he
            · rfl
            · rw [hr _ (by simp [he])]
              rfl
        have hlen := hlen fs[k] (List.getElem_mem _)
        rw [← hlen]
        exact entry_only hj
      · cases h

/-- One array, not in a list, is taken as a list of one. -/
theorem one_array (table : Bool) (room : Nat → Bool) (checkrows convert : Bool) (a : Arr) (m : Mem) :
    build table room checkrows convert (.one a m) = build table room checkrows convert (.items [.array a m]) := rfl

end Riptide.Nums.Info
