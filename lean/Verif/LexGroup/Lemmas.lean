import Verif.LexGroup.Model
import Verif.LexGroup.Spec
/-! Lemmas for `GroupFromLexSort`. -/
namespace Riptide.LexGroup

/-- The key writes for given runs, numbered from `g`. -/
def keyW (g : Nat) : List (List Nat) → List (Nat × Nat)
  | [] => []
  | l :: ls => (l.map fun i => (i, g)) ++ keyW (g + 1) ls

/-- The writes of first rows. -/
def firstW (g : Nat) : List (List Nat) → List (Nat × Nat)
  | [] => []
  | l :: ls => (g, l.headD 0) :: firstW (g + 1) ls

/-- The writes of counts. -/
def countW (g : Nat) : List (List Nat) → List (Nat × Nat)
  | [] => []
  | l :: ls => (g, l.length) :: countW (g + 1) ls

/-- The loop, started with the head `h` of a run, splits the rest into the remainder `c` of that run and further
runs. -/
theorem loop_runs {α : Type} (diff : α → α → Bool) (vals : List α) (d : α) (base cslot : Nat) :
    ∀ (is : List Nat) (h : Nat) (cnt grp : Nat), (∀ i ∈ is, i < vals.length) →
    (h :: is).Pairwise (fun i j => diff (vals.getD i d) (vals.getD j d) = false ↔ vals.getD i d = vals.getD j d) →
    ∃ (c : List Nat) (L : List (List Nat)), is = c ++ L.flatten ∧
      (∀ i ∈ c, vals.getD i d = vals.getD h d) ∧ IsRuns (fun i => vals.getD i d) L.flatten L ∧
      (∀ l, L[0]? = some l → ∀ i ∈ l, vals.getD h d ≠ vals.getD i d) ∧
      loop diff vals base cslot is (vals.getD h d) cnt grp =
        some ⟨(c.map fun i => (i, grp + base)) ++ keyW (grp + 1 + base) L, firstW (grp + 1) L,
          (grp + cslot, cnt + c.length) :: countW (grp + 1 + cslot) L, grp + 1 + L.length⟩
  | [], h, cnt, grp, _, _ => by
    refine ⟨[], [], rfl, fun _ hh => (by cases hh), ⟨rfl, fun _ hh => (by cases hh), fun _ hh => (by cases hh),
      fun _ _ _ hh => (by cases hh)⟩, fun _ hh => (by cases hh), rfl⟩
  | i :: is, h, cnt, grp, hb, hp => by
    have hi : i < vals.length := hb i (List.mem_cons_self ..)
    have hb' : ∀ j ∈ is, j < vals.length := fun j hj => hb j (List.mem_cons_of_mem _ hj)
    have hget : vals[i]? = some (vals.getD i d) := by
      rw [List.getD_eq_getElem?_getD, List.getElem?_eq_getElem hi]; rfl
    have hpi : diff (vals.getD h d) (vals.getD i d) = false ↔ vals.getD h d = vals.getD i d :=
      List.rel_of_pairwise_cons hp (List.mem_cons_self ..)
    have hpt : (i :: is).Pairwise _ := (List.pairwise_cons.1 hp).2
    unfold loop
    rw [hget, Option.bind_some]
    cases hd : diff (vals.getD h d) (vals.getD i d) with
    | true =>
      have hne : vals.getD h d ≠ vals.getD i d := by
        intro e; have := hpi.2 e; rw [hd] at this; cases this
      obtain ⟨c, L, e1, e2, e3, e4, e5⟩ := loop_runs diff vals d base cslot is i 1 (grp + 1) hb' hpt
      rw [if_pos rfl, e5, Option.map_some]
      have hrun : IsRuns (fun i => vals.getD i d) (((i :: c) :: L).flatten) ((i :: c) :: L) := by
        refine ⟨rfl, ?_, ?_, ?_⟩
        · intro l hl
          rcases List.mem_cons.1 hl with rfl | hl
          · exact List.cons_ne_nil _ _
          · exact e3.nonempty l hl
        · intro l hl
          rcases List.mem_cons.1 hl with rfl | hl
          · have key : ∀ a ∈ i :: c, vals.getD a d = vals.getD i d := by
              intro a ha
              rcases List.mem_cons.1 ha with rfl | ha
              · rfl
              · exact e2 a ha
            intro a ha b hb2
            exact (key a ha).trans (key b hb2).symm
          · exact e3.same l hl
        · intro k l l' h1 h2
          cases k with
          | zero =>
            simp only [List.getElem?_cons_zero, Option.some.injEq] at h1
            simp only [List.getElem?_cons_succ, Nat.zero_add] at h2
            subst h1
            intro a ha b hb2
            have hb3 := e4 l' h2 b hb2
            rcases List.mem_cons.1 ha with rfl | ha
            · exact hb3
            · show vals.getD a d ≠ vals.getD b d
              rw [e2 a ha]; exact hb3
          | succ k =>
            simp only [List.getElem?_cons_succ] at h1 h2
            exact e3.apart k l l' h1 h2
      refine ⟨[], (i :: c) :: L, ?_, fun _ hh => (by cases hh), hrun, ?_, ?_⟩
      · rw [e1]; rfl
      · intro l hl a ha
        simp only [List.getElem?_cons_zero, Option.some.injEq] at hl
        subst hl
        rcases List.mem_cons.1 ha with rfl | ha
        · exact hne
        · rw [e2 a ha]; exact hne
      · congr 1
        simp only [GW.mk.injEq]
        refine ⟨?_, ?_, ?_, ?_⟩
        · simp [keyW, Nat.add_right_comm]
        · simp [firstW]
        · simp only [countW, List.length_cons, List.length_nil, Nat.add_zero]
          rw [show 1 + c.length = c.length + 1 by omega, show grp + 1 + 1 + cslot = grp + 1 + cslot + 1 by omega]
        · simp; omega
    | false =>
      have heq : vals.getD h d = vals.getD i d := hpi.1 hd
      have hpt' : (h :: is).Pairwise (fun i j => diff (vals.getD i d) (vals.getD j d) = false ↔
          vals.getD i d = vals.getD j d) := by
        refine List.pairwise_cons.2 ⟨fun a ha => ?_, (List.pairwise_cons.1 hpt).2⟩
        exact List.rel_of_pairwise_cons hp (List.mem_cons_of_mem _ ha)
      obtain ⟨c, L, e1, e2, e3, e4, e5⟩ := loop_runs diff vals d base cslot is h (cnt + 1) grp hb' hpt'
      rw [if_neg (by simp), e5, Option.map_some]
      refine ⟨i :: c, L, by rw [e1]; rfl, ?_, e3, e4, ?_⟩
      · intro a ha
        rcases List.mem_cons.1 ha with rfl | ha
        · exact heq.symm
        · exact e2 a ha
      · congr 1
        simp only [GW.mk.injEq]
        refine ⟨by simp, trivial, ?_, trivial⟩
        simp; omega

/-- `groupIndex` numbers the runs. -/
theorem groupIndex_runs {α : Type} (diff : α → α → Bool) (vals : List α) (d : α) (base cslot : Nat) (order : List Nat)
    (hb : ∀ i ∈ order, i < vals.length) (hp : order.Pairwise
      (fun i j => diff (vals.getD i d) (vals.getD j d) = false ↔ vals.getD i d = vals.getD j d)) :
    ∃ L, IsRuns (fun i => vals.getD i d) order L ∧
      groupIndex diff vals base cslot order =
        some ⟨keyW base L, firstW 0 L,
          (if order = [] then [] else (if cslot = 1 then [(0, 0)] else []) ++ countW cslot L), L.length⟩ := by
  cases order with
  | nil =>
    exact ⟨[], ⟨rfl, fun _ hh => (by cases hh), fun _ hh => (by cases hh), fun _ _ _ hh => (by cases hh)⟩, rfl⟩
  | cons i is =>
    have hi : i < vals.length := hb i (List.mem_cons_self ..)
    have hget : vals[i]? = some (vals.getD i d) := by
      rw [List.getD_eq_getElem?_getD, List.getElem?_eq_getElem hi]; rfl
    obtain ⟨c, L, e1, e2, e3, e4, e5⟩ := loop_runs diff vals d base cslot is i 1 0
      (fun j hj => hb j (List.mem_cons_of_mem _ hj)) hp
    refine ⟨(i :: c) :: L, ⟨by rw [e1]; rfl, ?_, ?_, ?_⟩, ?_⟩
    · intro l hl
      rcases List.mem_cons.1 hl with rfl | hl
      · exact List.cons_ne_nil _ _
      · exact e3.nonempty l hl
    · intro l hl
      rcases List.mem_cons.1 hl with rfl | hl
      · have key : ∀ a ∈ i :: c, vals.getD a d = vals.getD i d := by
          intro a ha
          rcases List.mem_cons.1 ha with rfl | ha
          · rfl
          · exact e2 a ha
        intro a ha b hb2
        exact (key a ha).trans (key b hb2).symm
      · exact e3.same l hl
    · intro k l l' h1 h2
      cases k with
      | zero =>
        simp only [List.getElem?_cons_zero, Option.some.injEq] at h1
        simp only [List.getElem?_cons_succ, Nat.zero_add] at h2
        subst h1
        intro a ha b hb2
        have hb3 := e4 l' h2 b hb2
        rcases List.mem_cons.1 ha with rfl | ha
        · exact hb3
        · show vals.getD a d ≠ vals.getD b d
          rw [e2 a ha]; exact hb3
      | succ k =>
        simp only [List.getElem?_cons_succ] at h1 h2
        exact e3.apart k l l' h1 h2
    · show (vals[i]?.bind fun v => (loop diff vals base cslot is v 1 0).map _) = _
      rw [hget, Option.bind_some, e5, Option.map_some, if_neg (List.cons_ne_nil _ _)]
      congr 1
      simp only [GW.mk.injEq]
      refine ⟨?_, ?_, ?_, ?_⟩
      · simp [keyW, Nat.add_comm]
      · simp [firstW]
      · simp [countW, Nat.add_comm]
      · simp; omega

/-! ### Buffers -/

/-- Writes to different slots: every slot holds what was written to it. -/
theorem runWrites_nodup {n : Nat} {ws : List (Nat × Nat)} (h1 : ∀ w ∈ ws, w.1 < n) (h2 : (ws.map Prod.fst).Nodup) :
    ∃ out, runWrites n ws = some out ∧ out.length = n ∧ (∀ w ∈ ws, out[w.1]? = some (some w.2)) ∧
      ∀ i, i < n → i ∉ ws.map Prod.fst → out[i]? = some none := by
  have hf : ∀ w ∈ ws, w.2 = ((ws.find? fun x => x.1 == w.1).map Prod.snd).getD 0 := by
    intro w hw
    cases hx : ws.find? fun x => x.1 == w.1 with
    | none =>
      have := List.find?_eq_none.1 hx w hw
      simp at this
    | some x =>
      have ha := List.find?_some hx
      have hb := List.mem_of_find?_eq_some hx
      have e : x.1 = w.1 := by simpa using ha
      obtain ⟨p, hp, ep⟩ := List.mem_iff_getElem.1 hb
      obtain ⟨q, hq, eq⟩ := List.mem_iff_getElem.1 hw
      have : p = q := by
        have hpw := List.pairwise_iff_getElem.1 h2
        have ef : (ws.map Prod.fst)[p]'(by simpa using hp) = (ws.map Prod.fst)[q]'(by simpa using hq) := by
          simp [ep, eq, e]
        rcases Nat.lt_trichotomy p q with h | h | h
        · exact absurd ef (hpw p q _ _ h)
        · exact h
        · exact absurd ef.symm (hpw q p _ _ h)
      subst this
      rw [← ep, ← eq]; rfl
  rw [runWrites_eq (fun i => ((ws.find? fun x => x.1 == i).map Prod.snd).getD 0) h1 hf]
  refine ⟨_, rfl, by simp, ?_, ?_⟩
  · intro w hw
    have hm : w.1 ∈ ws.map Prod.fst := List.mem_map_of_mem hw
    rw [List.getElem?_map, List.getElem?_range (h1 w hw), Option.map_some, if_pos hm]
    congr 2
    exact (hf w hw).symm
  · intro i hi hm
    rw [List.getElem?_map, List.getElem?_range hi, Option.map_some, if_neg hm]

theorem keyW_fst : ∀ (L : List (List Nat)) (g : Nat), (keyW g L).map Prod.fst = L.flatten
  | [], _ => rfl
  | l :: L, g => by
    unfold keyW
    rw [List.map_append, List.map_map, keyW_fst L (g + 1), List.flatten_cons]
    congr 1
    have : (Prod.fst ∘ fun i : Nat => (i, g)) = id := rfl
    rw [this, List.map_id]

theorem keyW_mem : ∀ (L : List (List Nat)) (g k : Nat) (l : List Nat), L[k]? = some l → ∀ i ∈ l, (i, g + k) ∈ keyW g L
  | [], _, _, _, h, _, _ => by cases h
  | l0 :: L, g, k, l, h, i, hi => by
    unfold keyW
    cases k with
    | zero =>
      simp only [List.getElem?_cons_zero, Option.some.injEq] at h
      subst h
      exact List.mem_append_left _ (List.mem_map.2 ⟨i, hi, rfl⟩)
    | succ k =>
      simp only [List.getElem?_cons_succ] at h
      have := keyW_mem L (g + 1) k l h i hi
      rw [show g + 1 + k = g + (k + 1) by omega] at this
      exact List.mem_append_right _ this

theorem firstW_eq : ∀ (L : List (List Nat)) (g : Nat), firstW g L = (L.map fun l => l.headD 0).zipIdx.map
    (fun p => (g + p.2, p.1)) := by
  have gen : ∀ (L : List (List Nat)) (g s : Nat), firstW (g + s) L = ((L.map fun l => l.headD 0).zipIdx s).map
      (fun p => (g + p.2, p.1)) := by
    intro L
    induction L with
    | nil => intro _ _; rfl
    | cons l L ih =>
      intro g s
      unfold firstW
      rw [List.map_cons, List.zipIdx_cons, List.map_cons, ← ih g (s + 1)]
      rfl
  intro L g
  have := gen L g 0
  simpa using this

theorem countW_eq : ∀ (L : List (List Nat)) (g : Nat), countW g L = (L.map List.length).zipIdx.map
    (fun p => (g + p.2, p.1)) := by
  have gen : ∀ (L : List (List Nat)) (g s : Nat), countW (g + s) L = ((L.map List.length).zipIdx s).map
      (fun p => (g + p.2, p.1)) := by
    intro L
    induction L with
    | nil => intro _ _; rfl
    | cons l L ih =>
      intro g s
      unfold countW
      rw [List.map_cons, List.zipIdx_cons, List.map_cons, ← ih g (s + 1)]
      rfl
  intro L g
  have := gen L g 0
  simpa using this

theorem countW_fst (L : List (List Nat)) (g : Nat) : (countW g L).map Prod.fst = List.range' g L.length := by
  induction L generalizing g with
  | nil => rfl
  | cons l L ih => unfold countW; rw [List.map_cons, ih, List.length_cons, List.range'_succ]

theorem firstW_fst (L : List (List Nat)) (g : Nat) : (firstW g L).map Prod.fst = List.range' g L.length := by
  induction L generalizing g with
  | nil => rfl
  | cons l L ih => unfold firstW; rw [List.map_cons, ih, List.length_cons, List.range'_succ]

theorem countW_mem (L : List (List Nat)) (g k : Nat) (l : List Nat) (h : L[k]? = some l) : (g + k, l.length) ∈ countW g L := by
  rw [countW_eq]
  refine List.mem_map.2 ⟨(l.length, k), ?_, rfl⟩
  rw [List.mem_zipIdx_iff_getElem?]
  simp [h]

theorem firstW_mem (L : List (List Nat)) (g k : Nat) (l : List Nat) (h : L[k]? = some l) : (g + k, l.headD 0) ∈ firstW g L := by
  rw [firstW_eq]
  refine List.mem_map.2 ⟨(l.headD 0, k), ?_, rfl⟩
  rw [List.mem_zipIdx_iff_getElem?]
  simp [h]

/-- There are at most as many runs as rows. -/
theorem IsRuns.length_le {β : Type} {val : Nat → β} {order : List Nat} {L : List (List Nat)} (h : IsRuns val order L) :
    L.length ≤ order.length := by
  have gen : ∀ L : List (List Nat), (∀ l ∈ L, l ≠ []) → L.length ≤ L.flatten.length := by
    intro L
    induction L with
    | nil => intro _; exact Nat.le_refl _
    | cons l L ih =>
      intro h
      have h1 := ih fun l hl => h l (List.mem_cons_of_mem _ hl)
      have h2 : 0 < l.length := List.length_pos_iff.2 (h l (List.mem_cons_self ..))
      rw [List.flatten_cons, List.length_append, List.length_cons]; omega
  rw [← h.flat]; exact gen L h.nonempty

/-- A window of a buffer holding given entries. -/
theorem window_eq {buf : List (Option Nat)} {xs : List Nat} {s : Nat}
    (h : ∀ (k : Nat) x, xs[k]? = some x → buf[s + k]? = some (some x)) :
    (buf.drop s).take xs.length = xs.map some := by
  apply List.ext_getElem?
  intro k
  rw [List.getElem?_take, List.getElem?_drop, List.getElem?_map]
  by_cases hk : k < xs.length
  · rw [if_pos hk, h k xs[k] (List.getElem?_eq_getElem hk), List.getElem?_eq_getElem hk]; rfl
  · rw [if_neg hk, List.getElem?_eq_none (by omega)]; rfl

end Riptide.LexGroup
