import Verif.Date.CallSpec
import Verif.Date.Accept
import Verif.Mask.CallLemmas
namespace Riptide.Date.Call
open Riptide.Binary Riptide.Mask.Call.Spec Riptide.Date.Call.Spec

theorem mapM_range' {β : Type} (f : Nat → Option β) : ∀ (l : List β) (s : Nat), (∀ i x, l[i]? = some x → f (s + i) = some x) →
    (List.range' s l.length).mapM f = some l
  | [], _, _ => rfl
  | y :: l, s, h => by
    rw [List.length_cons, List.range'_succ, List.mapM_cons, show f s = some y from h 0 y (by simp), mapM_range' f l (s + 1)]
    · rfl
    · intro i x hx
      have := h (i + 1) x (by simpa using hx)
      rw [← this]; congr 1; omega

theorem mapM_range {β : Type} (f : Nat → Option β) (l : List β) (n : Nat) (hn : l.length = n)
    (h : ∀ i x, l[i]? = some x → f i = some x) : (List.range n).mapM f = some l := by
  rw [List.range_eq_range', ← hn]
  exact mapM_range' f l 0 fun i x hx => by rw [Nat.zero_add]; exact h i x hx

theorem encode_length (k : Kind) (sw : Bool) (c : Int) : (encode k sw c).length = width k := by
  cases k
  · rfl
  · show (if sw then (bytesOf 4 c.toNat).reverse else bytesOf 4 c.toNat).length = 4
    split <;> rfl
  · rfl

theorem toInt_ofInt {c : Int} (h : -128 ≤ c ∧ c < 128) : (BitVec.ofInt 8 c).toInt = c := by
  rw [BitVec.toInt_ofInt, Int.bmod_def]
  have e : ((2 ^ 8 : Nat) : Int) = 256 := rfl
  rw [e]
  split <;> omega

/-- A character is read as it was written. -/
theorem charAt_has {k : Kind} {m : Mem} {o c : Int} (hc : IsChar k c) (h : Has m o (encode k false c)) : charAt k m o = some c := by
  cases k
  · have := h 0 (Nat.zero_lt_succ _)
    rw [show o + ((0 : Nat) : Int) = o from by omega] at this
    rw [charAt, this]
    · show some (BitVec.ofInt 8 c).toInt = some c
      rw [toInt_ofInt hc]
    · nofun
  · have h0 := h 0 (show 0 < 4 by decide)
    have h1 := h 1 (show 1 < 4 by decide)
    have h2 := h 2 (show 2 < 4 by decide)
    have h3 := h 3 (show 3 < 4 by decide)
    rw [show o + ((0 : Nat) : Int) = o from by omega] at h0
    unfold charAt
    simp only
    rw [show m (o + 1) = _ from h1, show m (o + 2) = _ from h2, show m (o + 3) = _ from h3, h0]
    obtain ⟨n, rfl⟩ := Int.eq_ofNat_of_zero_le hc.1
    have hn : n < 4294967296 := by have := hc.2; omega
    have h3 := hc.2
    simp only [encode, bytesOf, Int.toNat_natCast, bind, pure]
    simp only [Bool.false_eq_true, if_false, List.getElem?_cons_zero, List.getElem?_cons_succ, Option.bind_some, BitVec.toNat_ofNat, Nat.reducePow]
    congr 2
    omega
  · have := h 0 (Nat.zero_lt_succ _)
    rw [show o + ((0 : Nat) : Int) = o from by omega] at this
    rw [charAt, this]
    · show some (BitVec.ofInt 8 c).toInt = some c
      rw [toInt_ofInt hc]
    · nofun

theorem has_part {α : Type} {f : α → List (BitVec 8)} {n : Nat} {l : List α} {m : Mem} {o : Int} (hf : ∀ x, (f x).length = n)
    (h : Has m o (l.flatMap f)) {i : Nat} {x : α} (hi : l[i]? = some x) : Has m (o + ((i * n : Nat) : Int)) (f x) := by
  intro j hj
  have g := Riptide.Mask.Call.flatMap_get f n l i j x (fun y _ => hf y) hi (by rw [← hf x]; exact hj)
  have hl : i * n + j < (l.flatMap f).length := by
    rcases Nat.lt_or_ge (i * n + j) (l.flatMap f).length with h1 | h1
    · exact h1
    · rw [List.getElem?_eq_none h1, List.getElem?_eq_getElem hj] at g
      cases g
  have := h (i * n + j) hl
  rw [g] at this
  rw [← this]
  congr 1
  push_cast
  omega

theorem item_read {a : Arr} (hs : a.kind = .unicode → a.swapped = false) {m : Mem} {o : Int} {t : List Int} (h : Holds a m o t) :
    itemChars a = t.length ∧ ∀ j c, t[j]? = some c → charAt a.kind m (o + ((j * width a.kind : Nat) : Int)) = some c := by
  obtain ⟨h1, h2, h3⟩ := h
  have hw : 0 < width a.kind := by cases a.kind <;> decide
  refine ⟨by unfold itemChars; rw [← h1, Nat.mul_div_cancel _ hw], ?_⟩
  intro j c hj
  refine charAt_has (h2 c (List.mem_of_getElem? hj)) ?_
  have := has_part (fun x => encode_length a.kind a.swapped x) h3 hj
  cases hk : a.kind with
  | unicode => rw [hs hk, hk] at this; exact this
  | bytes => rw [hk] at this; exact this
  | other => rw [hk] at this; exact this

theorem holds_get {a : Arr} {m : Mem} : ∀ {os : List Int} {ts : List (List Int)}, HoldsAll a m os ts →
    ts.length = os.length ∧ ∀ (i : Nat) o t, os[i]? = some o → ts[i]? = some t → Holds a m o t
  | [], [], _ => ⟨rfl, fun i o t h => by simp at h⟩
  | o :: os, t :: ts, h => by
    obtain ⟨h1, h2⟩ := holds_get h.2
    refine ⟨by simp [h1], ?_⟩
    intro i o' t' ho ht
    cases i with
    | zero => simp at ho ht; subst ho; subst ht; exact h.1
    | succ i => exact h2 i o' t' (by simpa using ho) (by simpa using ht)
  | [], _ :: _, h => h.elim
  | _ :: _, [], h => h.elim

/-- The items of an array which lie one after the other. -/
theorem items_even {a : Arr} (hs : a.kind = .unicode → a.swapped = false) {m : Mem} {os : List Int} {ts : List (List Int)}
    (he : Even a.lay.item os) (hn : os.length = a.lay.len) (h : HoldsAll a m os ts) : items a m = some ts := by
  obtain ⟨h1, h2⟩ := holds_get h
  unfold items
  refine mapM_range _ _ _ (by omega) ?_
  intro i t ht
  have hi : i < os.length := by
    rcases Nat.lt_or_ge i ts.length with h3 | h3
    · omega
    · rw [List.getElem?_eq_none h3] at ht; cases ht
  have hh := h2 i _ t (he i hi) ht
  obtain ⟨h4, h5⟩ := item_read hs hh
  refine mapM_range _ _ _ h4.symm ?_
  intro j c hj
  rw [← h5 j c hj]
  congr 1
  have := hh.1
  rw [← this, h4, Nat.add_mul]
  push_cast
  rw [Int.mul_assoc]

/-! ## The loop -/

theorem parse_after (w : Which) (x : List Int) (e : Err) : w.parse x e = (w.parse x none).map fun r => (r.1, e.or r.2) := by
  cases w
  · exact parseTime_after x e
  · exact parseDate_after x e
  · exact parseDateTime_after x e

theorem walk_eq (w : Which) : ∀ (l : List (List Int)) (e : Warning), walk w.parse l e =
    (l.mapM fun x => w.parse x none).map fun rs =>
      (rs.map Prod.fst, e.or ((l.zip rs).findSome? fun p => p.2.2.map fun y => (p.1, y)))
  | [], e => by simp [walk]
  | x :: xs, e => by
    rw [walk, parse_after, List.mapM_cons]
    cases hx : w.parse x none with
    | none => rfl
    | some r =>
      simp only [Option.map_some, Option.bind_some, walk_eq w xs]
      cases hl : xs.mapM (fun x => w.parse x none) with
      | none => simp
      | some rs =>
        simp only [Option.map_some, bind, Option.bind_some, pure, List.map_cons, List.zip_cons_cons, List.findSome?_cons]
        cases e with
        | some e => rfl
        | none =>
          cases hr : r.2 with
          | none => rfl
          | some y => rfl

end Riptide.Date.Call
