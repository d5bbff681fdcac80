import Verif.Heap.Model
/-! Sifting. -/
namespace Riptide.Heap

/-- The recorded positions are the actual ones. -/
def PosOk (h : HS) : Prop := ∀ (i x : Nat), h.es[i]? = some x → h.pos x = some i

/-- `h'` has the elements of `h` in another order. -/
structure Mv (h h' : HS) : Prop where
  perm : h'.es.Perm h.es
  posOk : PosOk h → PosOk h'
  out : ∀ x, x ∉ h.es → h'.pos x = h.pos x

theorem Mv.refl (h : HS) : Mv h h := ⟨.refl _, id, fun _ _ => rfl⟩

theorem Mv.trans {a b c : HS} (h1 : Mv a b) (h2 : Mv b c) : Mv a c :=
  ⟨h2.perm.trans h1.perm, fun h => h2.posOk (h1.posOk h), fun x hx => by
    rw [h2.out x (fun h => hx (h1.perm.mem_iff.1 h)), h1.out x hx]⟩

/-- The key at a position. -/
def val (ord : Nat → Int) (l : List Nat) (i : Nat) : Int := (l[i]?.map ord).getD 0

theorem val_get {ord : Nat → Int} {l : List Nat} {i x : Nat} (h : l[i]? = some x) :
    val ord l i = ord x := by unfold val; rw [h]; rfl

theorem less_eq {ord : Nat → Int} {h : HS} {i j : Nat} (hi : i < h.es.length) (hj : j < h.es.length) :
    h.less ord i j = some (decide (val ord h.es i < val ord h.es j)) := by
  unfold HS.less
  have e1 := List.getElem?_eq_getElem hi
  have e2 := List.getElem?_eq_getElem hj
  rw [val_get e1, val_get e2, e1, e2]
  rfl

theorem posOk_nodup {h : HS} (hp : PosOk h) {i j x : Nat} (hi : h.es[i]? = some x)
    (hj : h.es[j]? = some x) : i = j := by
  have := (hp i x hi).symm.trans (hp j x hj)
  exact Option.some.inj this

/-- The list after a swap. -/
theorem swap_get (l : List Nat) {i j : Nat} (hi : i < l.length) (hj : j < l.length) (k : Nat) :
    ((l.set i l[j]).set j l[i])[k]? = if k = j then some l[i] else if k = i then some l[j] else l[k]? := by
  rw [List.getElem?_set, List.getElem?_set]
  by_cases h1 : k = j
  · subst h1
    rw [if_pos rfl, if_pos rfl, if_pos (by simpa using hj)]
  · rw [if_neg (fun h : j = k => h1 h.symm), if_neg h1]
    by_cases h2 : k = i
    · subst h2
      rw [if_pos rfl, if_pos rfl, if_pos hi]
    · rw [if_neg (fun h : i = k => h2 h.symm), if_neg h2]

theorem swap_run (ord : Nat → Int) {h : HS} {i j : Nat} (hi : i < h.es.length) (hj : j < h.es.length) :
    ∃ h', h.swap i j = some h' ∧ Mv h h' ∧ h'.es = (h.es.set i h.es[j]).set j h.es[i] ∧
      ∀ k, val ord h'.es k =
        if k = j then val ord h.es i else if k = i then val ord h.es j else val ord h.es k := by
  have e1 := List.getElem?_eq_getElem hi
  have e2 := List.getElem?_eq_getElem hj
  refine ⟨_, by unfold HS.swap; rw [e1, e2]; rfl, ⟨List.set_set_perm hi hj, ?_, ?_⟩, rfl, ?_⟩
  · intro hp k x hk
    replace hk : ((h.es.set i h.es[j]).set j h.es[i])[k]? = some x := hk
    rw [swap_get _ hi hj] at hk
    show setPos (setPos h.pos h.es[j] (some i)) h.es[i] (some j) x = some k
    unfold setPos
    by_cases h1 : k = j
    · rw [if_pos h1] at hk
      rw [if_pos (Option.some.inj hk).symm, h1]
    · rw [if_neg h1] at hk
      by_cases h2 : k = i
      · rw [if_pos h2] at hk
        have hx := Option.some.inj hk
        rw [if_neg, if_pos hx.symm, h2]
        intro he
        rw [he] at hx
        have := posOk_nodup hp e2 (by rw [e1, hx])
        omega
      · rw [if_neg h2] at hk
        rw [if_neg, if_neg]
        · exact hp k x hk
        · intro he
          subst he
          exact h1 (posOk_nodup hp hk e2)
        · intro he
          subst he
          exact h2 (posOk_nodup hp hk e1)
  · intro x hx
    show setPos (setPos h.pos h.es[j] (some i)) h.es[i] (some j) x = h.pos x
    unfold setPos
    rw [if_neg, if_neg]
    · rintro rfl; exact hx (List.getElem_mem _)
    · rintro rfl; exact hx (List.getElem_mem _)
  · intro k
    show val ord ((h.es.set i h.es[j]).set j h.es[i]) k = _
    unfold val
    rw [swap_get _ hi hj, e1, e2]
    by_cases h1 : k = j
    · rw [if_pos h1, if_pos h1]
    · rw [if_neg h1, if_neg h1]
      by_cases h2 : k = i
      · rw [if_pos h2, if_pos h2]
      · rw [if_neg h2, if_neg h2]

/-- Heap order of the keys `v` of `n` elements. -/
def Ordered (v : Nat → Int) (n : Nat) : Prop := ∀ i, 0 < i → i < n → v i ≤ v ((i - 1) / 2)

/-- Heap order except between `p` and its parent. -/
def UpExcept (v : Nat → Int) (n p : Nat) : Prop :=
  (∀ i, 0 < i → i < n → i ≠ p → v i ≤ v ((i - 1) / 2)) ∧
  (0 < p → ∀ c, 0 < c → c < n → (c - 1) / 2 = p → v c ≤ v ((p - 1) / 2))

/-- Heap order except between `p` and its parent and children. -/
def Except (v : Nat → Int) (n p : Nat) : Prop :=
  (∀ i, 0 < i → i < n → i ≠ p → (i - 1) / 2 ≠ p → v i ≤ v ((i - 1) / 2)) ∧
  (0 < p → ∀ c, 0 < c → c < n → (c - 1) / 2 = p → v c ≤ v ((p - 1) / 2))

theorem upExcept_of_ordered {v : Nat → Int} {n p : Nat} (h : Ordered v n) (hp : p < n) :
    UpExcept v n p := by
  refine ⟨fun i h1 h2 _ => h i h1 h2, fun h0 c h1 h2 h3 => ?_⟩
  have a := h c h1 h2
  have b := h p h0 hp
  rw [h3] at a
  omega

theorem siftUp_run (ord : Nat → Int) (fuel : Nat) : ∀ (p : Nat) (h : HS), p ≤ fuel →
    p < h.es.length → UpExcept (val ord h.es) h.es.length p →
    ∃ h', siftUp ord fuel p h = some h' ∧ Mv h h' ∧ Ordered (val ord h'.es) h'.es.length := by
  induction fuel with
  | zero =>
    intro p h hp _ hu
    have : p = 0 := by omega
    subst this
    exact ⟨h, rfl, .refl h, fun i h1 h2 => hu.1 i h1 h2 (by omega)⟩
  | succ fuel ih =>
    intro p h hp hl hu
    unfold siftUp
    by_cases h0 : p = 0
    · rw [if_pos h0]
      subst h0
      exact ⟨h, rfl, .refl h, fun i h1 h2 => hu.1 i h1 h2 (by omega)⟩
    rw [if_neg h0, less_eq (by omega) hl]
    simp only [Option.bind_some]
    by_cases hc : val ord h.es ((p - 1) / 2) < val ord h.es p
    · rw [if_pos (by simpa using hc)]
      obtain ⟨h1, e, hm, -, hv⟩ := swap_run ord (h := h) (i := (p - 1) / 2) (j := p) (by omega) hl
      rw [e]
      have hlen : h1.es.length = h.es.length := hm.perm.length_eq
      obtain ⟨h2, e2, hm2, ho⟩ := ih ((p - 1) / 2) h1 (by omega) (by omega) (by
        rw [hlen]
        generalize val ord h.es = v at *
        generalize val ord h1.es = v' at *
        generalize h.es.length = n at *
        obtain ⟨hu1, hu2⟩ := hu
        refine ⟨fun i hi1 hi2 hi3 => ?_, fun hp0 c hc1 hc2 hc3 => ?_⟩
        · rw [hv, hv]
          by_cases hip : i = p
          · subst hip
            rw [if_pos rfl, if_neg (by omega), if_pos rfl]
            omega
          · rw [if_neg hip, if_neg hi3]
            by_cases hpar : (i - 1) / 2 = p
            · rw [if_pos hpar]
              exact hu2 (by omega) i hi1 hi2 hpar
            · rw [if_neg hpar]
              have := hu1 i hi1 hi2 hip
              by_cases hpar2 : (i - 1) / 2 = (p - 1) / 2
              · rw [if_pos hpar2]
                rw [hpar2] at this
                omega
              · rw [if_neg hpar2]
                exact this
        · rw [hv, hv]
          have hq := hu1 ((p - 1) / 2) hp0 (by omega) (by omega)
          rw [if_neg (show ((p - 1) / 2 - 1) / 2 ≠ p by omega),
            if_neg (show ((p - 1) / 2 - 1) / 2 ≠ (p - 1) / 2 by omega)]
          by_cases hcp : c = p
          · rw [if_pos hcp]
            exact hq
          · rw [if_neg hcp, if_neg (by omega)]
            have := hu1 c hc1 hc2 hcp
            rw [hc3] at this
            omega)
      exact ⟨h2, e2, hm.trans hm2, ho⟩
    · rw [if_neg (by simpa using hc)]
      refine ⟨h, rfl, .refl h, fun i h1 h2 => ?_⟩
      by_cases hip : i = p
      · subst hip; omega
      · exact hu.1 i h1 h2 hip

theorem pickChild_run (ord : Nat → Int) {h : HS} {p : Nat} (hl : 2 * p + 2 ≤ h.es.length) :
    ∃ c, pickChild ord h p = some c ∧ (c = 2 * p + 1 ∨ c = 2 * p + 2) ∧ c < h.es.length ∧
      ∀ c', c' < h.es.length → (c' = 2 * p + 1 ∨ c' = 2 * p + 2) → val ord h.es c' ≤ val ord h.es c := by
  unfold pickChild
  by_cases hr : 2 * p + 2 < h.es.length
  · rw [if_pos hr, less_eq (by omega) hr]
    by_cases hc : val ord h.es (2 * p + 1) < val ord h.es (2 * p + 2)
    · refine ⟨2 * p + 2, by simp [hc], .inr rfl, hr, fun c' _ h2 => ?_⟩
      rcases h2 with rfl | rfl <;> omega
    · refine ⟨2 * p + 1, by simp [hc], .inl rfl, by omega, fun c' _ h2 => ?_⟩
      rcases h2 with rfl | rfl <;> omega
  · rw [if_neg hr]
    refine ⟨2 * p + 1, rfl, .inl rfl, by omega, fun c' h1 h2 => ?_⟩
    rcases h2 with rfl | rfl
    · omega
    · omega

theorem siftDown_run (ord : Nat → Int) (fuel : Nat) : ∀ (p : Nat) (h : HS), h.es.length ≤ p + fuel →
    p < h.es.length → Except (val ord h.es) h.es.length p →
    ∃ h', siftDown ord fuel p h = some h' ∧ Mv h h' ∧ UpExcept (val ord h'.es) h'.es.length p ∧
      ((0 < p → val ord h.es p ≤ val ord h.es ((p - 1) / 2)) → Ordered (val ord h'.es) h'.es.length) := by
  induction fuel with
  | zero => intro p h h1 h2; omega
  | succ fuel ih =>
    intro p h hf hl hx
    unfold siftDown
    by_cases hk : 2 * p + 2 ≤ h.es.length
    · rw [if_pos hk]
      obtain ⟨c, ec, hc, hcl, hmax⟩ := pickChild_run ord hk
      rw [ec]
      simp only [Option.bind_some]
      rw [less_eq hcl hl]
      simp only [Option.bind_some]
      by_cases hs : val ord h.es c < val ord h.es p
      · rw [if_pos (by simpa using hs)]
        have hu : UpExcept (val ord h.es) h.es.length p := by
          refine ⟨fun i h1 h2 h3 => ?_, hx.2⟩
          by_cases hpar : (i - 1) / 2 = p
          · have := hmax i h2 (by omega)
            rw [hpar]
            omega
          · exact hx.1 i h1 h2 h3 hpar
        refine ⟨h, rfl, .refl h, hu, fun hup i h1 h2 => ?_⟩
        by_cases hip : i = p
        · subst hip; exact hup h1
        · exact hu.1 i h1 h2 hip
      · rw [if_neg (by simpa using hs)]
        obtain ⟨h1, e, hm, -, hv⟩ := swap_run ord (h := h) (i := p) (j := c) hl hcl
        rw [e]
        have hlen : h1.es.length = h.es.length := hm.perm.length_eq
        have hpc : (c - 1) / 2 = p := by omega
        have hcp : c ≠ p := by omega
        have key : Except (val ord h1.es) h1.es.length c ∧
            val ord h1.es c ≤ val ord h1.es ((c - 1) / 2) := by
          rw [hlen]
          generalize val ord h.es = v at *
          generalize val ord h1.es = v' at *
          generalize h.es.length = n at *
          have hvc : v' c = v p := by rw [hv, if_pos rfl]
          have hvp : v' p = v c := by rw [hv, if_neg (fun h => hcp h.symm), if_pos rfl]
          have hvo : ∀ k, k ≠ c → k ≠ p → v' k = v k := fun k h1 h2 => by
            rw [hv, if_neg h1, if_neg h2]
          refine ⟨⟨fun i hi1 hi2 hi3 hi4 => ?_, fun hc0 d hd1 hd2 hd3 => ?_⟩, ?_⟩
          · by_cases hip : i = p
            · subst hip
              rw [hvp, hvo _ (by omega) (by omega)]
              exact hx.2 hi1 c (by omega) hcl hpc
            · by_cases hpar : (i - 1) / 2 = p
              · rw [hvo i hi3 hip, hpar, hvp]
                exact hmax i hi2 (by omega)
              · rw [hvo i hi3 hip, hvo _ hi4 hpar]
                exact hx.1 i hi1 hi2 hip hpar
          · rw [hpc, hvp, hvo d (by omega) (by omega)]
            have := hx.1 d hd1 hd2 (by omega) (by omega)
            rw [hd3] at this
            exact this
          · rw [hpc, hvp, hvc]
            omega
        obtain ⟨h2, e2, hm2, hu2, ho2⟩ := ih c h1 (by omega) (by omega) key.1
        have ho := ho2 fun _ => key.2
        have hlen2 : h2.es.length = h1.es.length := hm2.perm.length_eq
        exact ⟨h2, e2, hm.trans hm2, upExcept_of_ordered ho (by omega), fun _ => ho⟩
    · rw [if_neg hk]
      have hu : UpExcept (val ord h.es) h.es.length p :=
        ⟨fun i h1 h2 h3 => hx.1 i h1 h2 h3 (by omega), hx.2⟩
      refine ⟨h, rfl, .refl h, hu, fun hup i h1 h2 => ?_⟩
      by_cases hip : i = p
      · subst hip; exact hup h1
      · exact hu.1 i h1 h2 hip

theorem sift_run (ord : Nat → Int) {h : HS} {p : Nat} (hl : p < h.es.length)
    (hx : Except (val ord h.es) h.es.length p) :
    ∃ h', sift ord p h = some h' ∧ Mv h h' ∧ Ordered (val ord h'.es) h'.es.length := by
  obtain ⟨h1, e1, hm1, hu, _⟩ := siftDown_run ord h.es.length p h (by omega) hl hx
  have hlen : h1.es.length = h.es.length := hm1.perm.length_eq
  obtain ⟨h2, e2, hm2, ho⟩ := siftUp_run ord p p h1 (Nat.le_refl _) (by omega) hu
  exact ⟨h2, by unfold sift; rw [e1]; exact e2, hm1.trans hm2, ho⟩

/-- What a heap keeps: order, positions, and no position for the others. -/
structure Good (ord : Nat → Int) (h : HS) : Prop where
  ordered : Ordered (val ord h.es) h.es.length
  pos : PosOk h

theorem good_nodup {h : HS} (hp : PosOk h) : h.es.Nodup := by
  rw [List.Nodup, List.pairwise_iff_getElem]
  intro i j hi hj hij he
  have := posOk_nodup hp (List.getElem?_eq_getElem hi) (by rw [List.getElem?_eq_getElem hj, he])
  omega

/-- Heap order depends only on the keys of the stored elements. -/
theorem val_congr {ord ord' : Nat → Int} {l : List Nat} (h : ∀ x ∈ l, ord x = ord' x) :
    val ord l = val ord' l := by
  funext i
  unfold val
  cases hi : l[i]? with
  | none => rfl
  | some x =>
    show ord x = ord' x
    exact h x (List.mem_of_getElem? hi)

theorem push_run {ord : Nat → Int} {h : HS} {max x : Nat} (hg : Good ord h) (hx : x ∉ h.es)
    (hm : h.es.length < max) :
    ∃ h', push ord max x h = some h' ∧ Good ord h' ∧ h'.es.Perm (h.es ++ [x]) ∧
      ∀ y, y ∉ h.es → y ≠ x → h'.pos y = h.pos y := by
  unfold push
  rw [if_neg (by omega)]
  have hget : ∀ i, i < h.es.length → val ord (h.es ++ [x]) i = val ord h.es i := by
    intro i hi
    unfold val
    rw [List.getElem?_append_left hi]
  obtain ⟨h', e, hmv, ho⟩ := siftUp_run ord h.es.length h.es.length
    ⟨h.es ++ [x], setPos h.pos x (some h.es.length)⟩ (Nat.le_refl _) (by simp) (by
      have hlen : (h.es ++ [x]).length = h.es.length + 1 := by simp
      show UpExcept (val ord (h.es ++ [x])) (h.es ++ [x]).length h.es.length
      rw [hlen]
      refine ⟨fun i h1 h2 h3 => ?_, fun _ c h1 h2 h3 => by omega⟩
      rw [hget i (by omega), hget _ (by omega)]
      exact hg.ordered i h1 (by omega))
  refine ⟨h', e, ⟨ho, hmv.posOk ?_⟩, hmv.perm, fun y hy hyx => ?_⟩
  · intro i y hi
    replace hi : (h.es ++ [x])[i]? = some y := hi
    show setPos h.pos x (some h.es.length) y = some i
    unfold setPos
    have hil := (List.getElem?_eq_some_iff.1 hi).1
    rw [List.length_append, List.length_singleton] at hil
    by_cases h1 : i < h.es.length
    · rw [List.getElem?_append_left h1] at hi
      rw [if_neg]
      · exact hg.pos i y hi
      · rintro rfl; exact hx (List.mem_of_getElem? hi)
    · have : i = h.es.length := by omega
      subst this
      rw [List.getElem?_append_right (Nat.le_refl _)] at hi
      have : x = y := by simpa using hi
      rw [if_pos this.symm]
  · have := hmv.out y (by
      show y ∉ h.es ++ [x]
      rw [List.mem_append, List.mem_singleton]
      rintro (h | h)
      · exact hy h
      · exact hyx h)
    rw [this]
    show setPos h.pos x (some h.es.length) y = h.pos y
    unfold setPos
    rw [if_neg hyx]

theorem popBack_run {ord : Nat → Int} {h : HS} (hg : Good ord h) (h0 : h.es ≠ []) :
    ∃ x, h.es = h.es.dropLast ++ [x] ∧ popBack h = some ⟨h.es.dropLast, setPos h.pos x none⟩ ∧
      Good ord ⟨h.es.dropLast, setPos h.pos x none⟩ := by
  obtain ⟨x, hx⟩ : ∃ x, h.es.getLast? = some x := by
    rw [List.getLast?_eq_some_getLast h0]; exact ⟨_, rfl⟩
  have hsplit : h.es = h.es.dropLast ++ [x] := by
    have := List.dropLast_concat_getLast h0
    rw [List.getLast?_eq_some_getLast h0] at hx
    rw [← Option.some.inj hx]
    exact this.symm
  refine ⟨x, hsplit, by unfold popBack; rw [hx], ?_, ?_⟩
  · intro i h1 h2
    replace h2 : i < h.es.dropLast.length := h2
    have hget : ∀ i, i < h.es.dropLast.length → val ord h.es.dropLast i = val ord h.es i := by
      intro i hi
      unfold val
      conv => rhs; rw [hsplit]
      rw [List.getElem?_append_left hi]
    show val ord h.es.dropLast i ≤ val ord h.es.dropLast ((i - 1) / 2)
    rw [hget i h2, hget _ (by omega)]
    rw [List.length_dropLast] at h2
    exact hg.ordered i h1 (by omega)
  · intro i y hi
    replace hi : h.es.dropLast[i]? = some y := hi
    have hi' : h.es[i]? = some y := by
      rw [hsplit, List.getElem?_append_left (List.getElem?_eq_some_iff.1 hi).1]
      exact hi
    show setPos h.pos x none y = some i
    unfold setPos
    rw [if_neg]
    · exact hg.pos i y hi'
    · rintro rfl
      have hl : h.es[h.es.dropLast.length]? = some y := by
        conv => lhs; arg 1; rw [hsplit]
        rw [List.getElem?_append_right (Nat.le_refl _)]
        simp
      have := posOk_nodup hg.pos hi' hl
      have := (List.getElem?_eq_some_iff.1 hi).1
      omega

theorem perm_of_append_singleton {l : List Nat} {a : Nat} {m : List Nat} (h : l.Perm (m ++ [a])) :
    (l.erase a).Perm m := by
  have h1 : (m ++ [a]).Perm (a :: m) := List.perm_append_singleton a m
  have h2 := (h.trans h1).erase a
  rwa [List.erase_cons_head] at h2

/-- The key of the erased element may have changed: it is not looked at. -/
theorem erase_run {ord ord' : Nat → Int} {h : HS} {i x : Nat} (hg : Good ord h) (hi : h.es[i]? = some x)
    (hk : ∀ y ∈ h.es, y ≠ x → ord' y = ord y) :
    ∃ h', erase ord' (some i) h = some h' ∧ Good ord' h' ∧ h'.es.Perm (h.es.erase x) ∧ h'.pos x = none ∧
      ∀ y, y ∉ h.es → h'.pos y = h.pos y := by
  obtain ⟨hil, hix⟩ := List.getElem?_eq_some_iff.1 hi
  unfold erase
  obtain ⟨h1, e1, hm1, hes, hv1⟩ := swap_run ord (h := h) (i := i) (j := h.es.length - 1) hil (by omega)
  have hlen1 : h1.es.length = h.es.length := hm1.perm.length_eq
  have hp1 : PosOk h1 := hm1.posOk hg.pos
  have h10 : h1.es ≠ [] := by
    intro h0
    rw [h0] at hlen1
    simp at hlen1
    omega
  -- the last element is x
  have hlast : h1.es[h.es.length - 1]? = some x := by
    rw [hes, swap_get _ hil (by omega), if_pos rfl, hix]
  obtain ⟨y, hy⟩ : ∃ x, h1.es.getLast? = some x := by
    rw [List.getLast?_eq_some_getLast h10]; exact ⟨_, rfl⟩
  have hyx : y = x := by
    rw [List.getLast?_eq_getElem?, hlen1, hlast] at hy
    exact (Option.some.inj hy).symm
  subst hyx
  have hsplit : h1.es = h1.es.dropLast ++ [y] := by
    have := List.dropLast_concat_getLast h10
    rw [List.getLast?_eq_some_getLast h10] at hy
    rw [← Option.some.inj hy]
    exact this.symm
  have hperm : h1.es.dropLast.Perm (h.es.erase y) :=
    (perm_of_append_singleton (by rw [← hsplit]; exact hm1.perm.symm)).symm
  show ∃ h', (((h.swap i (h.es.length - 1)).bind popBack).bind fun h' =>
    if i < h'.es.length then sift ord' i h' else some h') = some h' ∧ _
  rw [e1]
  simp only [Option.bind_some]
  have epop : popBack h1 = some ⟨h1.es.dropLast, setPos h1.pos y none⟩ := by unfold popBack; rw [hy]
  rw [epop]
  simp only [Option.bind_some]
  have hpos2 : PosOk ⟨h1.es.dropLast, setPos h1.pos y none⟩ := by
    intro k z hk
    replace hk : h1.es.dropLast[k]? = some z := hk
    have hkl := (List.getElem?_eq_some_iff.1 hk).1
    have hk' : h1.es[k]? = some z := by
      rw [hsplit, List.getElem?_append_left hkl]
      exact hk
    show setPos h1.pos y none z = some k
    unfold setPos
    rw [if_neg]
    · exact hp1 k z hk'
    · rintro rfl
      have := posOk_nodup hp1 hk' hlast
      rw [List.length_dropLast] at hkl
      omega
  have hval : ∀ k, k < h.es.length - 1 →
      val ord h1.es.dropLast k = if k = i then val ord h.es (h.es.length - 1) else val ord h.es k := by
    intro k hk
    have : val ord h1.es.dropLast k = val ord h1.es k := by
      unfold val
      conv => rhs; rw [hsplit]
      rw [List.getElem?_append_left (by rw [List.length_dropLast]; omega)]
    rw [this, hv1, if_neg (by omega)]
  have hcong : val ord' h1.es.dropLast = val ord h1.es.dropLast := by
    apply val_congr
    intro z hz
    have hz1 : z ∈ h1.es := by rw [hsplit]; exact List.mem_append_left _ hz
    refine hk z (hm1.perm.mem_iff.1 hz1) ?_
    rintro rfl
    obtain ⟨k, hk'⟩ := List.mem_iff_getElem?.1 hz
    have hkl := (List.getElem?_eq_some_iff.1 hk').1
    have hk2 : h1.es[k]? = some z := by
      rw [hsplit, List.getElem?_append_left hkl]
      exact hk'
    have := posOk_nodup hp1 hk2 hlast
    rw [List.length_dropLast] at hkl
    omega
  have hlend : h1.es.dropLast.length = h.es.length - 1 := by rw [List.length_dropLast]; omega
  have hout : ∀ z, z ∉ h.es → setPos h1.pos y none z = h.pos z := by
    intro z hz
    unfold setPos
    rw [if_neg, hm1.out z hz]
    rintro rfl
    exact hz (List.mem_of_getElem? hi)
  have hnone : setPos h1.pos y none y = none := by unfold setPos; rw [if_pos rfl]
  have hnd : y ∉ h1.es.dropLast := by
    intro hmem
    obtain ⟨k, hk⟩ := List.mem_iff_getElem?.1 hmem
    have hkl := (List.getElem?_eq_some_iff.1 hk).1
    have hk' : h1.es[k]? = some y := by
      rw [hsplit, List.getElem?_append_left hkl]
      exact hk
    have := posOk_nodup hp1 hk' hlast
    omega
  by_cases hii : i < h1.es.dropLast.length
  · rw [if_pos hii]
    obtain ⟨h3, e3, hm3, ho3⟩ := sift_run ord' (h := ⟨h1.es.dropLast, setPos h1.pos y none⟩) (p := i) hii (by
      show Except (val ord' h1.es.dropLast) h1.es.dropLast.length i
      rw [hcong]
      rw [hlend] at hii ⊢
      refine ⟨fun k h1 h2 h3 h4 => ?_, fun h0 c h1 h2 h3 => ?_⟩
      · rw [hval k h2, hval _ (by omega), if_neg h3, if_neg h4]
        exact hg.ordered k h1 (by omega)
      · rw [hval c h2, hval _ (by omega), if_neg (by omega), if_neg (by omega)]
        have a := hg.ordered c h1 (by omega)
        have b := hg.ordered i h0 (by omega)
        rw [h3] at a
        omega)
    refine ⟨h3, e3, ⟨ho3, hm3.posOk hpos2⟩, hm3.perm.trans hperm, ?_, fun z hz => ?_⟩
    · rw [hm3.out y hnd]; exact hnone
    · rw [hm3.out z ?_]
      · exact hout z hz
      · intro hmem
        have := hperm.mem_iff.1 hmem
        exact hz (List.mem_of_mem_erase this)
  · rw [if_neg hii]
    refine ⟨_, rfl, ⟨?_, hpos2⟩, hperm, hnone, hout⟩
    show Ordered (val ord' h1.es.dropLast) h1.es.dropLast.length
    rw [hcong]
    rw [hlend] at hii ⊢
    intro k h1 h2
    rw [hval k h2, hval _ (by omega), if_neg (by omega), if_neg (by omega)]
    exact hg.ordered k h1 (by omega)

theorem applyChange_run {ord ord' : Nat → Int} {h : HS} {i x : Nat} (hg : Good ord h)
    (hi : h.es[i]? = some x) (hk : ∀ y ∈ h.es, y ≠ x → ord' y = ord y) :
    ∃ h', applyChange ord' (some i) h = some h' ∧ Good ord' h' ∧ h'.es.Perm h.es ∧
      ∀ y, y ∉ h.es → h'.pos y = h.pos y := by
  obtain ⟨hil, hix⟩ := List.getElem?_eq_some_iff.1 hi
  have hval : ∀ k, k < h.es.length → k ≠ i → val ord' h.es k = val ord h.es k := by
    intro k hk1 hk2
    have e := List.getElem?_eq_getElem hk1
    rw [val_get e, val_get e]
    refine hk _ (List.getElem_mem _) fun he => hk2 ?_
    exact posOk_nodup hg.pos (by rw [e, he]) hi
  obtain ⟨h3, e3, hm3, ho3⟩ := sift_run ord' (h := h) (p := i) hil (by
    refine ⟨fun k h1 h2 h3 h4 => ?_, fun h0 c h1 h2 h3 => ?_⟩
    · rw [hval k h2 h3, hval _ (by omega) h4]
      exact hg.ordered k h1 h2
    · rw [hval c h2 (by omega), hval _ (by omega) (by omega)]
      have a := hg.ordered c h1 h2
      have b := hg.ordered i h0 hil
      rw [h3] at a
      omega)
  exact ⟨h3, e3, ⟨ho3, hm3.posOk hg.pos⟩, hm3.perm, hm3.out⟩

/-- The first element is an extreme one. -/
theorem top_extreme {ord : Nat → Int} {h : HS} (hg : Ordered (val ord h.es) h.es.length) {x : Nat}
    (hx : h.top = some x) : ∀ y ∈ h.es, ord y ≤ ord x := by
  have key : ∀ i, i < h.es.length → val ord h.es i ≤ val ord h.es 0 := by
    intro i
    induction i using Nat.strongRecOn with
    | _ i ih =>
      intro hi
      by_cases h0 : i = 0
      · subst h0; omega
      · have a := hg i (by omega) hi
        have b := ih ((i - 1) / 2) (by omega) (by omega)
        omega
  intro y hy
  obtain ⟨i, hi⟩ := List.mem_iff_getElem?.1 hy
  have := key i (List.getElem?_eq_some_iff.1 hi).1
  rw [val_get hi, val_get (show h.es[0]? = some x from hx)] at this
  exact this

end Riptide.Heap
