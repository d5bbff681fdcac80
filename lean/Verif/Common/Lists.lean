/-! General list lemmas used by several parts of the development. -/
namespace Riptide

theorem perm_range_of_nodup {l : List Nat} {n : Nat} (h1 : l.Nodup) (h2 : ∀ b ∈ l, b < n)
    (h3 : n ≤ l.length) : l.Perm (List.range n) := by
  induction n generalizing l with
  | zero =>
    cases l with
    | nil => simp
    | cons a l => exact absurd (h2 a (by simp)) (by omega)
  | succ n ih =>
    by_cases hn : n ∈ l
    · have hp := List.perm_cons_erase hn
      have hlen := hp.length_eq
      have := ih (l := l.erase n) (h1.erase n) (by
        intro b hb
        have hb2 := (List.Nodup.mem_erase_iff h1).1 hb
        have := h2 b hb2.2
        have := hb2.1
        omega) (by simp at hlen; omega)
      rw [List.range_succ]
      exact hp.trans ((List.Perm.cons n this).trans (List.perm_append_singleton n _).symm)
    · exfalso
      have hlt : ∀ b ∈ l, b < n := by
        intro b hb
        have := h2 b hb
        have : b ≠ n := fun e => hn (e ▸ hb)
        omega
      have := (ih h1 hlt (by omega)).length_eq
      simp at this; omega

/-- Writes to distinct slots commute: writing `f b` to slot `b` for every `b < n`, in any order,
produces `f 0, …, f (n-1)`. -/
theorem foldl_set_perm {α : Type} (f : Nat → α) {calls : List Nat} {n : Nat}
    (h : calls.Perm (List.range n)) (init : List α) (hl : init.length = n) :
    calls.foldl (fun a b => a.set b (f b)) init = (List.range n).map f := by
  have gen : ∀ (cs : List Nat) (a : List α),
      (cs.foldl (fun a b => a.set b (f b)) a).length = a.length ∧
      ∀ i, (cs.foldl (fun a b => a.set b (f b)) a)[i]? =
        if i < a.length then (if i ∈ cs then some (f i) else a[i]?) else none := by
    intro cs
    induction cs with
    | nil => intro a; refine ⟨rfl, fun i => ?_⟩
             by_cases h : i < a.length <;> simp [h]
    | cons c cs ih =>
      intro a
      have := ih (a.set c (f c))
      simp only [List.foldl_cons, List.length_set] at *
      refine ⟨this.1, fun i => ?_⟩
      rw [this.2 i]
      by_cases h : i < a.length
      · by_cases h2 : i ∈ cs
        · simp [h, h2]
        · by_cases h3 : i = c
          · subst h3; simp [h, h2]
          · simp [h, h2, h3, List.getElem_set_ne (Ne.symm h3)]
      · simp [h]
  have hg := gen calls init
  apply List.ext_getElem?
  intro i
  rw [hg.2 i, hl]
  by_cases hi : i < n
  · have : i ∈ calls := h.mem_iff.2 (List.mem_range.2 hi)
    simp [hi, this]
  · simp [hi]

theorem exists_perm_of_perm_map {α β : Type} {g : α → β} {h : β → α} (hg : ∀ a, h (g a) = a)
    {l : List β} {l2 : List α} (hp : l.Perm (l2.map g)) :
    (l.map h).Perm l2 ∧ l = (l.map h).map g := by
  constructor
  · have := hp.map h
    rwa [List.map_map, show h ∘ g = id from funext hg, List.map_id] at this
  · rw [List.map_map]
    have : ∀ x ∈ l, (g ∘ h) x = x := by
      intro x hx
      have := hp.mem_iff.1 hx
      obtain ⟨a, _, rfl⟩ := List.mem_map.1 this
      simp [hg]
    conv => lhs; rw [← List.map_id l]
    exact List.map_congr_left (fun x hx => (this x hx).symm)

theorem countP_flatMap' {α β : Type} (p : β → Bool) (f : α → List β) (l : List α) :
    (l.flatMap f).countP p = (l.map fun a => (f a).countP p).sum := by
  induction l with
  | nil => rfl
  | cons a l ih => simp [List.flatMap_cons, List.countP_append, ih]


theorem mapM_some {α β : Type} (f : α → Option β) (g : α → β) (l : List α)
    (h : ∀ a ∈ l, f a = some (g a)) : l.mapM f = some (l.map g) := by
  induction l with
  | nil => rfl
  | cons a l ih =>
    rw [List.mapM_cons, h a (by simp), ih (fun b hb => h b (by simp [hb]))]
    rfl

theorem filterMap_congr' {α β : Type} {f g : α → Option β} {l : List α}
    (h : ∀ a ∈ l, f a = g a) : l.filterMap f = l.filterMap g := by
  induction l with
  | nil => rfl
  | cons a l ih =>
    rw [List.filterMap_cons, List.filterMap_cons, h a (by simp), ih fun b hb => h b (by simp [hb])]

theorem nodup_map_inj {α β : Type} {f : α → β} {l : List α}
    (hf : ∀ a ∈ l, ∀ b ∈ l, f a = f b → a = b) (h : l.Nodup) : (l.map f).Nodup := by
  induction l with
  | nil => simp
  | cons a l ih =>
    have hc := List.nodup_cons.1 h
    rw [List.map_cons, List.nodup_cons]
    refine ⟨?_, ih (fun x hx y hy => hf x (by simp [hx]) y (by simp [hy])) hc.2⟩
    intro hm
    obtain ⟨b, hb, he⟩ := List.mem_map.1 hm
    have := hf b (by simp [hb]) a (by simp) he
    subst this
    exact hc.1 hb

end Riptide
