import Verif.Pack.CountProps
/-! The linking loops and the chains they build. -/
namespace Riptide.Pack
open Riptide.Work Spec

/-- `v` is the first row at or after `i` whose key is `g`, as stored by `store`, or `stop`. -/
def FirstFrom (keys : List Int) (store : Nat → Int) (stop g : Int) (i : Nat) (v : Int) : Prop :=
  (∃ j : Nat, v = store j ∧ i ≤ j ∧ j < keys.length ∧ keys[j]? = some g ∧
      ∀ m, i ≤ m → m < j → keys[m]? ≠ some g) ∨
    (v = stop ∧ ∀ j, i ≤ j → j < keys.length → keys[j]? ≠ some g)

/-- `v` is the last row before `i` whose key is `g`, as stored by `store`, or `stop`. -/
def LastBefore (keys : List Int) (store : Nat → Int) (stop g : Int) (i : Nat) (v : Int) : Prop :=
  (∃ j : Nat, v = store j ∧ j < i ∧ keys[j]? = some g ∧
      ∀ m, j < m → m < i → keys[m]? ≠ some g) ∨
    (v = stop ∧ ∀ j, j < i → keys[j]? ≠ some g)

theorem linkStep_in {strict : Bool} {store : Nat → Int} {keys : List Int}
    {s : List (Option Int) × List Int} {i : Nat} {g : Int} {v : Int} (hk : keys[i]? = some g)
    (hg : 0 ≤ g ∧ g < (s.2.length : Int)) (hv : s.2[g.toNat]? = some v) :
    linkStep strict store keys s i = some (s.1.set i (some v), s.2.set g.toNat (store i)) := by
  unfold linkStep
  rw [hk]
  simp only
  rw [if_pos hg, hv]

/-- The loop that visits the rows backwards. -/
theorem link_back {strict : Bool} {store : Nat → Int} {keys : List Int} {stop : Int} {G : Nat}
    (hs : strict = true → ∀ (i : Nat) (k : Int), keys[i]? = some k → 0 ≤ k ∧ k < (G : Int)) :
    ∀ (k i : Nat), i + k = keys.length →
    ∃ (nx : List (Option Int)) (gp : List Int),
      (List.range' i k).reverse.foldlM (linkStep strict store keys)
        (List.replicate keys.length none, List.replicate G stop) = some (nx, gp) ∧
      nx.length = keys.length ∧ gp.length = G ∧
      (∀ g : Nat, g < G → ∃ v, gp[g]? = some v ∧ FirstFrom keys store stop (g : Int) i v) ∧
      (∀ (r : Nat) (g : Nat), i ≤ r → g < G → keys[r]? = some (g : Int) →
        ∃ v, nx[r]? = some (some v) ∧ FirstFrom keys store stop (g : Int) (r + 1) v) ∧
      (∀ (r : Nat), r < keys.length →
        (r < i ∨ ∃ k, keys[r]? = some k ∧ ¬ (0 ≤ k ∧ k < (G : Int))) → nx[r]? = some none) := by
  intro k
  induction k with
  | zero =>
    intro i hi
    refine ⟨_, _, rfl, by simp, by simp, ?_, ?_, ?_⟩
    · intro g hg
      refine ⟨stop, by simp [hg], .inr ⟨rfl, fun j h1 h2 => by omega⟩⟩
    · intro r g hr _ hk
      have := (List.getElem?_eq_some_iff.1 hk).1
      omega
    · intro r hr _; simp [hr]
  | succ k ih =>
    intro i hi
    obtain ⟨nx, gp, h1, h2, h3, h4, h5, h6⟩ := ih (i + 1) (by omega)
    have hil : i < keys.length := by omega
    have hki : keys[i]? = some keys[i] := List.getElem?_eq_getElem hil
    generalize hkey : keys[i] = key at hki
    rw [List.range'_succ, List.reverse_cons, List.foldlM_append, h1]
    simp only [Option.bind_eq_bind, Option.bind_some, List.foldlM_cons, List.foldlM_nil]
    by_cases hin : 0 ≤ key ∧ key < (G : Int)
    · obtain ⟨v, hv, hfv⟩ := h4 key.toNat (by omega)
      have hcast : ((key.toNat : Nat) : Int) = key := by omega
      rw [hcast] at hfv
      rw [linkStep_in hki (by simp only; omega) hv]
      refine ⟨nx.set i (some v), gp.set key.toNat (store i), rfl, by simpa using h2,
        by simpa using h3, ?_, ?_, ?_⟩
      · intro g hg
        by_cases hgk : (g : Int) = key
        · refine ⟨store i, ?_, .inl ⟨i, rfl, Nat.le_refl _, hil, by rw [hki, hgk],
            fun m h7 h8 => by omega⟩⟩
          rw [show key.toNat = g by omega, List.getElem?_set_self (by omega)]
        · obtain ⟨w, hw, hfw⟩ := h4 g hg
          refine ⟨w, ?_, ?_⟩
          · rw [List.getElem?_set_ne (by omega)]; exact hw
          · rcases hfw with ⟨j, e1, e2, e3, e4, e5⟩ | ⟨e1, e2⟩
            · refine .inl ⟨j, e1, by omega, e3, e4, ?_⟩
              intro m hm1 hm2
              by_cases hmi : m = i
              · subst hmi; rw [hki]; intro h; exact hgk (Option.some.inj h).symm
              · exact e5 m (by omega) hm2
            · refine .inr ⟨e1, ?_⟩
              intro j hj1 hj2
              by_cases hji : j = i
              · subst hji; rw [hki]; intro h; exact hgk (Option.some.inj h).symm
              · exact e2 j (by omega) hj2
      · intro r g hr hg hk
        by_cases hri : r = i
        · subst hri
          rw [hki] at hk
          have := Option.some.inj hk
          subst this
          exact ⟨v, by rw [List.getElem?_set_self (by omega)], hfv⟩
        · obtain ⟨w, hw, hfw⟩ := h5 r g (by omega) hg hk
          exact ⟨w, by rw [List.getElem?_set_ne (by omega)]; exact hw, hfw⟩
      · intro r hr hor
        have hri : i ≠ r := by
          rintro rfl
          rcases hor with h | ⟨k', hk', hn⟩
          · omega
          · rw [hki] at hk'
            have := Option.some.inj hk'
            subst this
            exact hn hin
        rw [List.getElem?_set_ne hri]
        apply h6 r hr
        rcases hor with h | h
        · left; omega
        · right; exact h
    · have hstep : linkStep strict store keys (nx, gp) i = some (nx, gp) := by
        unfold linkStep
        rw [hki]
        simp only
        rw [if_neg (by omega), if_neg]
        intro hst
        exact hin (hs hst i key hki)
      rw [hstep]
      refine ⟨nx, gp, rfl, h2, h3, ?_, ?_, ?_⟩
      · intro g hg
        obtain ⟨w, hw, hfw⟩ := h4 g hg
        refine ⟨w, hw, ?_⟩
        have hgk : ¬ key = (g : Int) := by omega
        rcases hfw with ⟨j, e1, e2, e3, e4, e5⟩ | ⟨e1, e2⟩
        · refine .inl ⟨j, e1, by omega, e3, e4, ?_⟩
          intro m hm1 hm2
          by_cases hmi : m = i
          · subst hmi; rw [hki]; intro h; exact hgk (Option.some.inj h)
          · exact e5 m (by omega) hm2
        · refine .inr ⟨e1, ?_⟩
          intro j hj1 hj2
          by_cases hji : j = i
          · subst hji; rw [hki]; intro h; exact hgk (Option.some.inj h)
          · exact e2 j (by omega) hj2
      · intro r g hr hg hk
        by_cases hri : r = i
        · subst hri
          rw [hki] at hk
          have := Option.some.inj hk
          omega
        · exact h5 r g (by omega) hg hk
      · intro r hr hor
        apply h6 r hr
        rcases hor with h | h
        · left; omega
        · right; exact h

/-- The loop that visits the rows forwards. -/
theorem link_fwd {store : Nat → Int} {keys : List Int} {stop : Int} {G : Nat} :
    ∀ (i : Nat), i ≤ keys.length →
    ∃ (nx : List (Option Int)) (gp : List Int),
      (List.range i).foldlM (linkStep false store keys)
        (List.replicate keys.length none, List.replicate G stop) = some (nx, gp) ∧
      nx.length = keys.length ∧ gp.length = G ∧
      (∀ g : Nat, g < G → ∃ v, gp[g]? = some v ∧ LastBefore keys store stop (g : Int) i v) ∧
      (∀ (r : Nat) (g : Nat), r < i → g < G → keys[r]? = some (g : Int) →
        ∃ v, nx[r]? = some (some v) ∧ LastBefore keys store stop (g : Int) r v) ∧
      (∀ (r : Nat), r < keys.length →
        (i ≤ r ∨ ∃ k, keys[r]? = some k ∧ ¬ (0 ≤ k ∧ k < (G : Int))) → nx[r]? = some none) := by
  intro i
  induction i with
  | zero =>
    intro _
    refine ⟨_, _, rfl, by simp, by simp, ?_, ?_, ?_⟩
    · intro g hg
      exact ⟨stop, by simp [hg], .inr ⟨rfl, fun j h => by omega⟩⟩
    · intro r g hr; omega
    · intro r hr _; simp [hr]
  | succ i ih =>
    intro hi
    obtain ⟨nx, gp, h1, h2, h3, h4, h5, h6⟩ := ih (by omega)
    have hil : i < keys.length := by omega
    have hki : keys[i]? = some keys[i] := List.getElem?_eq_getElem hil
    generalize hkey : keys[i] = key at hki
    rw [List.range_succ, List.foldlM_append, h1]
    simp only [Option.bind_eq_bind, Option.bind_some, List.foldlM_cons, List.foldlM_nil]
    have keep : ∀ (g : Nat) (w : Int), (g : Int) ≠ key → LastBefore keys store stop (g : Int) i w →
        LastBefore keys store stop (g : Int) (i + 1) w := by
      intro g w hgk hfw
      rcases hfw with ⟨j, e1, e2, e3, e4⟩ | ⟨e1, e2⟩
      · refine .inl ⟨j, e1, by omega, e3, ?_⟩
        intro m hm1 hm2
        by_cases hmi : m = i
        · subst hmi; rw [hki]; intro h; exact hgk (Option.some.inj h).symm
        · exact e4 m hm1 (by omega)
      · refine .inr ⟨e1, ?_⟩
        intro j hj
        by_cases hji : j = i
        · subst hji; rw [hki]; intro h; exact hgk (Option.some.inj h).symm
        · exact e2 j (by omega)
    by_cases hin : 0 ≤ key ∧ key < (G : Int)
    · obtain ⟨v, hv, hfv⟩ := h4 key.toNat (by omega)
      have hcast : ((key.toNat : Nat) : Int) = key := by omega
      rw [hcast] at hfv
      rw [linkStep_in hki (by simp only; omega) hv]
      refine ⟨nx.set i (some v), gp.set key.toNat (store i), rfl, by simpa using h2,
        by simpa using h3, ?_, ?_, ?_⟩
      · intro g hg
        by_cases hgk : (g : Int) = key
        · refine ⟨store i, ?_, .inl ⟨i, rfl, by omega, by rw [hki, hgk], fun m h7 h8 => by omega⟩⟩
          rw [show key.toNat = g by omega, List.getElem?_set_self (by omega)]
        · obtain ⟨w, hw, hfw⟩ := h4 g hg
          exact ⟨w, by rw [List.getElem?_set_ne (by omega)]; exact hw, keep g w hgk hfw⟩
      · intro r g hr hg hk
        by_cases hri : r = i
        · subst hri
          rw [hki] at hk
          have := Option.some.inj hk
          subst this
          exact ⟨v, by rw [List.getElem?_set_self (by omega)], hfv⟩
        · obtain ⟨w, hw, hfw⟩ := h5 r g (by omega) hg hk
          exact ⟨w, by rw [List.getElem?_set_ne (by omega)]; exact hw, hfw⟩
      · intro r hr hor
        have hri : i ≠ r := by
          rintro rfl
          rcases hor with h | ⟨k', hk', hn⟩
          · omega
          · rw [hki] at hk'
            have := Option.some.inj hk'
            subst this
            exact hn hin
        rw [List.getElem?_set_ne hri]
        apply h6 r hr
        rcases hor with h | h
        · left; omega
        · right; exact h
    · have hstep : linkStep false store keys (nx, gp) i = some (nx, gp) := by
        unfold linkStep
        rw [hki]
        simp only
        rw [if_neg (by omega), if_neg (by simp)]
      rw [hstep]
      refine ⟨nx, gp, rfl, h2, h3, ?_, ?_, ?_⟩
      · intro g hg
        obtain ⟨w, hw, hfw⟩ := h4 g hg
        exact ⟨w, hw, keep g w (by omega) hfw⟩
      · intro r g hr hg hk
        by_cases hri : r = i
        · subst hri
          rw [hki] at hk
          have := Option.some.inj hk
          omega
        · exact h5 r g (by omega) hg hk
      · intro r hr hor
        apply h6 r hr
        rcases hor with h | h
        · left; omega
        · right; exact h

/-! ## Chains -/

theorem rowsIn_eq_nil {keys : List Int} {i g : Nat}
    (h : ∀ j, i ≤ j → j < keys.length → keys[j]? ≠ some (g : Int)) :
    rowsIn keys i keys.length g = [] := by
  unfold rowsIn
  rw [List.filter_eq_nil_iff]
  intro j hj
  have := List.mem_range'_1.1 hj
  simpa using h j this.1 (by omega)

theorem rowsIn_eq_cons {keys : List Int} {i j g : Nat} (h1 : i ≤ j) (h2 : j < keys.length)
    (h3 : keys[j]? = some (g : Int)) (h4 : ∀ m, i ≤ m → m < j → keys[m]? ≠ some (g : Int)) :
    rowsIn keys i keys.length g = j :: rowsIn keys (j + 1) keys.length g := by
  rw [rowsIn_append keys g h1 (Nat.le_of_lt h2)]
  have e1 : rowsIn keys i j g = [] := by
    unfold rowsIn
    rw [List.filter_eq_nil_iff]
    intro m hm
    have := List.mem_range'_1.1 hm
    simpa using h4 m this.1 (by omega)
  rw [e1, List.nil_append]
  unfold rowsIn
  rw [show keys.length - j = (keys.length - (j + 1)) + 1 by omega, List.range'_succ,
    List.filter_cons, if_pos (by simp [h3])]

theorem chain_stop {nx : List (Option Int)} {room : Nat} {v : Int} (h : v = -1) :
    chain nx room v = some [] := by
  cases room <;> rw [chain, if_pos h]

/-- Following the links of a group lists its rows. -/
theorem chain_rows {keys : List Int} {nx : List (Option Int)} {g : Nat}
    (hn : ∀ r : Nat, keys[r]? = some (g : Int) → ∃ v, nx[r]? = some (some v) ∧
      FirstFrom keys (fun i => (i : Int)) (-1) (g : Int) (r + 1) v) :
    ∀ (d i room : Nat) (v : Int), keys.length - i ≤ d →
      FirstFrom keys (fun i => (i : Int)) (-1) (g : Int) i v →
      (rowsIn keys i keys.length g).length ≤ room →
      chain nx room v = some ((rowsIn keys i keys.length g).map fun r : Nat => (r : Int)) := by
  intro d
  induction d with
  | zero =>
    intro i room v hd hf hr
    rcases hf with ⟨j, _, h2, h3, _⟩ | ⟨h1, h2⟩
    · omega
    · rw [rowsIn_eq_nil h2, chain_stop h1]; rfl
  | succ d ih =>
    intro i room v hd hf hr
    rcases hf with ⟨j, h1, h2, h3, h4, h5⟩ | ⟨h1, h2⟩
    · subst h1
      rw [rowsIn_eq_cons h2 h3 h4 h5] at hr ⊢
      obtain ⟨w, hw, hfw⟩ := hn j h4
      cases room with
      | zero => simp at hr
      | succ room =>
        have := ih (j + 1) room w (by omega) hfw (by simpa using hr)
        rw [chain, if_neg (by simp only; omega), if_pos (by simp only; omega)]
        simp only [Int.toNat_natCast, hw]
        rw [this]
        rfl
    · rw [rowsIn_eq_nil h2, chain_stop h1]; rfl

end Riptide.Pack
