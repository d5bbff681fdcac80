import Verif.Common.Lists
/-! Output buffers: a buffer of `n` uninitialised slots and a sequence of writes to it.  A write
outside the buffer is undefined behaviour (`none`). -/
namespace Riptide

/-- Execute `ws : (slot, value)` on a fresh buffer of `n` uninitialised slots. -/
def runWrites {α : Type} (n : Nat) (ws : List (Nat × α)) : Option (List (Option α)) :=
  ws.foldlM (fun buf w => if w.1 < buf.length then some (buf.set w.1 (some w.2)) else none)
    (List.replicate n none)

/-- When all writes to a slot agree (with `f`), the result is determined slot by slot. -/
theorem runWrites_eq {α : Type} (f : Nat → α) {n : Nat} {ws : List (Nat × α)}
    (h1 : ∀ w ∈ ws, w.1 < n) (h2 : ∀ w ∈ ws, w.2 = f w.1) :
    runWrites n ws =
      some ((List.range n).map fun i => if i ∈ ws.map Prod.fst then some (f i) else none) := by
  have gen : ∀ (ws : List (Nat × α)) (buf : List (Option α)), buf.length = n →
      (∀ w ∈ ws, w.1 < n) → (∀ w ∈ ws, w.2 = f w.1) →
      ∃ out, ws.foldlM (fun (buf : List (Option α)) w => if w.1 < buf.length then
          some (buf.set w.1 (some w.2)) else none) buf = some out ∧ out.length = n ∧
        ∀ i, i < n → out[i]? = if i ∈ ws.map Prod.fst then some (some (f i)) else buf[i]? := by
    intro ws
    induction ws with
    | nil => intro buf hl _ _; exact ⟨buf, rfl, hl, by simp⟩
    | cons w ws ih =>
      intro buf hl h1 h2
      obtain ⟨out, ho, hlen, hi⟩ := ih (buf.set w.1 (some w.2)) (by simpa using hl)
        (fun x hx => h1 x (by simp [hx])) (fun x hx => h2 x (by simp [hx]))
      have hw := h1 w (by simp)
      refine ⟨out, ?_, hlen, ?_⟩
      · rw [List.foldlM_cons, if_pos (by omega)]
        exact ho
      · intro i hin
        rw [hi i hin]
        by_cases hm : i ∈ ws.map Prod.fst
        · simp only [hm, if_true, List.map_cons, List.mem_cons, or_true]
        · by_cases he : i = w.1
          · subst he
            simp only [hm, if_false, List.map_cons, List.mem_cons, true_or, if_true]
            rw [List.getElem?_set_self (by omega), h2 w (by simp)]
          · simp only [hm, if_false, List.map_cons, List.mem_cons, he, or_self]
            rw [List.getElem?_set_ne (Ne.symm he)]
  obtain ⟨out, ho, hlen, hi⟩ := gen ws (List.replicate n none) (by simp) h1 h2
  unfold runWrites
  rw [ho]
  congr 1
  apply List.ext_getElem?
  intro i
  by_cases hin : i < n
  · rw [hi i hin]
    simp only [List.getElem?_map, List.getElem?_range hin, Option.map_some,
      List.getElem?_replicate, hin, if_true]
    split <;> rfl
  · rw [List.getElem?_eq_none (by omega), List.getElem?_eq_none (by simp; omega)]

/-- Writing entry `k` of `l` to slot `k`, once each, in any order, produces `l`. -/
theorem runWrites_perm {α : Type} {l : List α} {ws : List (Nat × α)}
    (h : ws.Perm (l.zipIdx.map Prod.swap)) : runWrites l.length ws = some (l.map some) := by
  cases l with
  | nil => have : ws = [] := by simpa using h
           subst this; rfl
  | cons a0 l0 =>
    generalize hl : a0 :: l0 = l at *
    have hmem : ∀ w ∈ ws, l[w.1]? = some w.2 := by
      intro w hw
      obtain ⟨x, hx, rfl⟩ := List.mem_map.1 (h.mem_iff.1 hw)
      exact List.mem_zipIdx_iff_getElem?.1 hx
    rw [runWrites_eq (fun i => l[i]?.getD a0)
      (fun w hw => by
        have := hmem w hw
        exact (List.getElem?_eq_some_iff.1 this).1)
      (fun w hw => by rw [hmem w hw]; rfl)]
    congr 1
    apply List.ext_getElem?
    intro i
    by_cases hi : i < l.length
    · have hin : i ∈ ws.map Prod.fst := by
        have h2 := (h.map Prod.fst).mem_iff (a := i)
        rw [h2]
        simp only [List.map_map, List.mem_map, Function.comp, Prod.fst_swap]
        exact ⟨(l[i], i), List.mem_zipIdx_iff_getElem?.2 (by simp), rfl⟩
      simp only [List.getElem?_map, List.getElem?_range hi, Option.map_some, hin, if_true,
        List.getElem?_eq_getElem hi, Option.getD_some]
    · rw [List.getElem?_eq_none (by simp; omega), List.getElem?_eq_none (by simp; omega)]

/-- A write outside the buffer makes the whole run undefined. -/
theorem runWrites_oob {α : Type} {n : Nat} {ws : List (Nat × α)} {w : Nat × α} (hw : w ∈ ws)
    (h : n ≤ w.1) : runWrites n ws = none := by
  have gen : ∀ (ws : List (Nat × α)) (buf : List (Option α)), buf.length = n → w ∈ ws →
      ws.foldlM (fun (buf : List (Option α)) w => if w.1 < buf.length then
          some (buf.set w.1 (some w.2)) else none) buf = none := by
    intro ws
    induction ws with
    | nil => intro buf _ h; simp at h
    | cons x ws ih =>
      intro buf hl hm
      rw [List.foldlM_cons]
      split
      · rename_i hx
        rcases List.mem_cons.1 hm with rfl | hm
        · omega
        · exact ih _ (by simpa using hl) hm
      · rfl
  exact gen ws _ (by simp) hw

/-- Without a write outside the buffer the run is defined. -/
theorem runWrites_isSome {α : Type} {n : Nat} {ws : List (Nat × α)} (h : ∀ w ∈ ws, w.1 < n) :
    ∃ out, runWrites n ws = some out ∧ out.length = n := by
  have gen : ∀ (ws : List (Nat × α)) (buf : List (Option α)), buf.length = n →
      (∀ w ∈ ws, w.1 < n) →
      ∃ out, ws.foldlM (fun (buf : List (Option α)) w => if w.1 < buf.length then
          some (buf.set w.1 (some w.2)) else none) buf = some out ∧ out.length = n := by
    intro ws
    induction ws with
    | nil => intro buf h _; exact ⟨buf, rfl, h⟩
    | cons x ws ih =>
      intro buf hl hm
      rw [List.foldlM_cons, if_pos (by have := hm x (by simp); omega)]
      exact ih _ (by simpa using hl) (fun w hw => hm w (by simp [hw]))
  exact gen ws _ (by simp) h

end Riptide
