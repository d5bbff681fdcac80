import Verif.Bins.CallNum
import Verif.Bins.Lemmas
import Verif.Bins.Props
/-! One value of a search call (C139). -/
namespace Riptide.Bins.Call
open Riptide.Work
open Riptide.Bins.Call.Spec (Ext point Right Ordered Proper)

theorem inside_left {o : IT} {B : Num} {b : Bins} {val : Int} {k : Nat} (h0 : 0 < b.n) (hov : NoOverflow o b.n) (hk : k ≤ b.n)
    (h : ∀ i : Nat, i < b.n → ∃ c, b.at_ i = some c ∧ ltN B c val = decide (i < k) ∧ leN B val c = decide (k ≤ i)) :
    inside .left o B b val = some (k : Int) := by
  show searchLoop _ _ _ _ _ _ = _
  have e : (b.n : Int) - 1 = ((b.n - 1 : Nat) : Int) := by omega
  rw [e]
  refine searchLoop_run hov hk ?_ ?_ _ 0 _ (by omega) (by omega) (by omega) (by omega) (by omega)
  · intro i hi
    obtain ⟨c, h1, h2, h3⟩ := h i hi
    rw [h1, Option.map_some, h3]
  · intro i hi
    obtain ⟨c, h1, h2, h3⟩ := h i hi
    rw [h1, Option.map_some, h2]

theorem inside_right {o : IT} {B : Num} {b : Bins} {val : Int} {k : Nat} (h0 : 0 < b.n) (hov : NoOverflow o b.n) (hk : k ≤ b.n)
    (h : ∀ i : Nat, i < b.n → ∃ c, b.at_ i = some c ∧ leN B c val = decide (i < k) ∧ ltN B val c = decide (k ≤ i)) :
    inside .right o B b val = some (k : Int) := by
  show searchLoop _ _ _ _ _ _ = _
  have e : (b.n : Int) - 1 = ((b.n - 1 : Nat) : Int) := by omega
  rw [e]
  refine searchLoop_run hov hk ?_ ?_ _ 0 _ (by omega) (by omega) (by omega) (by omega) (by omega)
  · intro i hi
    obtain ⟨c, h1, h2, h3⟩ := h i hi
    rw [h1, Option.map_some, h3]
  · intro i hi
    obtain ⟨c, h1, h2, h3⟩ := h i hi
    rw [h1, Option.map_some, h2]

/-- The cuts: `k` bins are below the value, and the ones after the first of the others are above it. -/
theorem inside_cut {o : IT} {B : Num} {b : Bins} {val : Int} {k : Nat} (h0 : 0 < b.n) (hov : NoOverflow o b.n) (hk : k < b.n)
    (h : ∀ i : Nat, i < b.n → ∃ c, b.at_ i = some c ∧ ltN B c val = decide (i < k) ∧ leN B val c = decide (k ≤ i) ∧
      (ltN B val c = true → k ≤ i) ∧ (k < i → ltN B val c = true)) :
    inside .cut o B b val = some ((max 1 k : Nat) : Int) := by
  obtain ⟨r, h1, h2, h3⟩ := bin_of_loop (o := o) (n := b.n) h0 hov
    (gt := fun m => (b.at_ m).map fun c => ltN B val c) (lt := fun m => (b.at_ m).map fun c => ltN B c val)
    (le := fun m => (b.at_ m).map fun c => leN B val c)
    (G := fun i => ∃ c, b.at_ i = some c ∧ ltN B val c = true) (L := fun i => i < k)
    (by
      intro i hi
      obtain ⟨c, h1, _⟩ := h i hi
      refine ⟨ltN B val c, by rw [h1]; rfl, fun h => ⟨c, h1, h⟩, ?_⟩
      rintro ⟨c', h2, h3⟩
      rw [h1] at h2
      cases h2
      exact h3)
    (by
      intro i hi
      obtain ⟨c, h1, h2, _⟩ := h i hi
      exact ⟨ltN B c val, by rw [h1]; rfl, by rw [h2]; exact decide_eq_true_iff⟩)
    (by
      intro i hi
      obtain ⟨c, h1, _, h2, _⟩ := h i hi
      refine ⟨leN B val c, by rw [h1]; rfl, ?_⟩
      rw [h2, decide_eq_true_iff]
      omega)
    (by
      intro i j hij hj hi
      obtain ⟨c, h1, _, _, _, h2⟩ := h j hj
      exact ⟨c, h1, h2 (by omega)⟩)
    (by
      intro i j hij hj hg
      obtain ⟨c, h1, _, _, _, h2⟩ := h j hj
      rcases Nat.lt_or_ge k j with hkj | hkj
      · exact absurd ⟨c, h1, h2 hkj⟩ hg
      · omega)
    (by
      rintro i hi ⟨⟨c, h1, h2⟩, h3⟩
      obtain ⟨c', h1', _, _, h4, _⟩ := h i hi
      rw [h1] at h1'
      cases h1'
      have := h4 h2
      omega)
    (by omega)
  show (cutLoop _ _ _ _ _ _).bind _ = _
  rw [h1]
  congr 2
  omega

/-- The casts of the ends do not move the value across them, as far as the mode compares it. -/
def EndsOk (m : Int) (f' l' f l q : Ext) : Prop :=
  (m = 1 → f'.lt q = f.lt q ∧ l'.lt q = l.lt q) ∧ (m = 2 → q.lt f' = q.lt f ∧ q.lt l' = q.lt l) ∧ (m = 0 → q.lt f' = q.lt f ∧ l'.lt q = l.lt q)

theorem proper_eq {ty : Nat} {T : Num} (h : Is ty T) (hb : ty ≠ 0) (x : Int) : validN ty T x = true ↔ Proper ty x := by
  unfold Proper
  cases T with
  | int t =>
    rw [h.1]
    show decide (x ≠ sentinel ty t) = true ↔ (ty = 0 ∨ x ≠ t.inv)
    unfold sentinel
    rw [if_neg hb]
    simp [hb]
  | flt f =>
    rw [h.1, h.2.1]
    exact Iff.rfl

theorem not_proper_nan {ty : Nat} {T : Num} (h : Is ty T) {x : Int} (hn : Spec.number ty x = none) : ¬ Proper ty x := by
  unfold Proper
  cases T with
  | int t => rw [(number_int h x).1] at hn; cases hn
  | flt f =>
    rw [h.1, h.2.1]
    rw [(number_flt h x).1] at hn
    intro hp
    have hp : f.isFinite x.toNat = true := hp
    rw [fin_of_scaled hp] at hn
    cases hn

theorem modes {m : Int} {mode : Mode} (h : modeOf m = some mode) : (m = 0 ∧ mode = .cut) ∨ (m = 1 ∧ mode = .left) ∨ (m = 2 ∧ mode = .right) := by
  unfold modeOf at h
  split at h
  · cases h; exact .inl ⟨by assumption, rfl⟩
  · split at h
    · cases h; exact .inr (.inl ⟨by assumption, rfl⟩)
    · split at h
      · cases h; exact .inr (.inr ⟨by assumption, rfl⟩)
      · cases h

theorem ordered_le {m : Int} {qs : List Ext} (h : Ordered m qs) : qs.Pairwise fun a b => b.lt a = false := by
  refine h.imp ?_
  intro a b h
  split at h
  · exact lt_asymm h
  · exact h


/-- The bins of the call hold the numbers `qs`. -/
structure Holds (tb : Nat) (b : Bins) (qs : List Ext) : Prop where
  n : b.n = qs.length
  at_ : ∀ (i : Nat) (q : Ext), qs[i]? = some q → ∃ c, b.at_ i = some c ∧ Spec.number tb c = some q

theorem Holds.get {tb : Nat} {b : Bins} {qs : List Ext} (h : Holds tb b qs) {i : Nat} (hi : i < b.n) :
    ∃ q c, qs[i]? = some q ∧ b.at_ i = some c ∧ Spec.number tb c = some q := by
  have hi' : i < qs.length := by rw [← h.n]; exact hi
  obtain ⟨c, h1, h2⟩ := h.at_ i _ (List.getElem?_eq_getElem hi')
  exact ⟨_, c, List.getElem?_eq_getElem hi', h1, h2⟩

theorem head_pos {qs : List Ext} {f : Ext} (hf : qs.head? = some f) : 0 < qs.length := by
  cases qs with
  | nil => simp at hf
  | cons a t => simp

theorem filter_none {p : Ext → Bool} {qs : List Ext} (hp : qs.Pairwise fun a b => p b = true → p a = true) {f : Ext}
    (hf : qs.head? = some f) (h : p f = false) : (qs.filter p).length = 0 := by
  have := filter_prefix p qs hp 0 f (by rw [← List.head?_eq_getElem?]; exact hf)
  rw [h] at this
  simp at this ⊢
  exact this

theorem filter_all {p : Ext → Bool} {qs : List Ext} (hp : qs.Pairwise fun a b => p b = true → p a = true) {f l : Ext}
    (hf : qs.head? = some f) (hl : qs.getLast? = some l) (h : p l = true) : (qs.filter p).length = qs.length := by
  have h0 := head_pos hf
  have := (filter_prefix p qs hp (qs.length - 1) l (by rw [← List.getLast?_eq_getElem?]; exact hl)).2 h
  have := List.length_filter_le p qs
  omega

theorem left_prefix {qs : List Ext} (h : qs.Pairwise fun a b => b.lt a = false) (q : Ext) :
    qs.Pairwise fun a b => b.lt q = true → a.lt q = true :=
  h.imp fun h1 h2 => lt_of_le_of_lt h1 h2

theorem right_prefix {qs : List Ext} (h : qs.Pairwise fun a b => b.lt a = false) (q : Ext) :
    qs.Pairwise fun a b => (!q.lt b) = true → (!q.lt a) = true := by
  refine h.imp ?_
  intro a b h1 h2
  cases h3 : q.lt a with
  | false => rfl
  | true => rw [lt_of_lt_of_le h3 h1] at h2; exact h2

theorem value_left {o : IT} {T B : Num} {ta tb : Nat} (hT : Is ta T) (hB : Is tb B)
    {b : Bins} {qs : List Ext} (hb : Holds tb b qs) (hov : NoOverflow o qs.length) (hs : qs.Pairwise fun a b => b.lt a = false)
    {e : Int × Int} {f' l' f l : Ext} (he1 : Spec.number ta e.1 = some f') (he2 : Spec.number ta e.2 = some l')
    (hf : qs.head? = some f) (hl : qs.getLast? = some l) (v : Int)
    (hk : ∀ q, Spec.number ta v = some q → (f'.lt q = f.lt q ∧ l'.lt q = l.lt q) ∧
      (q.lt f = false → l.lt q = false → ∃ y, castNum T B v = some y ∧ Spec.number tb y = some q)) :
    oneValue .left o T B ta b e v = some ((point false qs (Spec.number ta v) : Nat) : Int) := by
  have h0 := head_pos hf
  have hn := hb.n
  unfold oneValue between outside
  simp only
  cases hv : Spec.number ta v with
  | none =>
    have n1 := (nan_false hT (x := e.1) (y := v) (.inr hv)).1
    have n2 := (nan_false hT (x := v) (y := e.1) (.inl hv)).2
    rw [n1, n2, hn]
    rfl
  | some q =>
    obtain ⟨⟨k1, k2⟩, k3⟩ := hk q hv
    have hp := left_prefix hs q
    rw [ltN_eq hT he1 hv, leN_eq hT hv he2, leN_eq hT hv he1, k1, k2]
    show _ = some (((qs.filter fun b => b.lt q).length : Nat) : Int)
    cases c1 : f.lt q with
    | false =>
      rw [filter_none hp hf c1]
      rfl
    | true =>
      cases c2 : l.lt q with
      | true =>
        rw [filter_all hp hf hl c2, hn]
        rfl
      | false =>
        obtain ⟨y, y1, y2⟩ := k3 (lt_asymm c1) c2
        rw [y1]
        refine inside_left (by omega) (by rw [hn]; exact hov) (by rw [hn]; exact List.length_filter_le _ _) ?_
        intro i hi
        obtain ⟨p, c, h1, h2, h3⟩ := hb.get hi
        have h4 := filter_prefix (fun b => b.lt q) qs hp i p h1
        refine ⟨c, h2, ?_, ?_⟩
        · rw [ltN_eq hB h3 y2, Bool.eq_iff_iff, decide_eq_true_iff]
          exact h4.symm
        · rw [leN_eq hB y2 h3, Bool.eq_iff_iff, decide_eq_true_iff]
          cases hpq : p.lt q <;> rw [hpq] at h4 <;> simp at h4 ⊢ <;> omega

theorem value_right {o : IT} {T B : Num} {ta tb : Nat} (hT : Is ta T) (hB : Is tb B)
    {b : Bins} {qs : List Ext} (hb : Holds tb b qs) (hov : NoOverflow o qs.length) (hs : qs.Pairwise fun a b => b.lt a = false)
    {e : Int × Int} {f' l' f l : Ext} (he1 : Spec.number ta e.1 = some f') (he2 : Spec.number ta e.2 = some l')
    (hf : qs.head? = some f) (hl : qs.getLast? = some l) (v : Int)
    (hk : ∀ q, Spec.number ta v = some q → (q.lt f' = q.lt f ∧ q.lt l' = q.lt l) ∧
      (q.lt f = false → l.lt q = false → ∃ y, castNum T B v = some y ∧ Spec.number tb y = some q)) :
    oneValue .right o T B ta b e v = some ((point true qs (Spec.number ta v) : Nat) : Int) := by
  have h0 := head_pos hf
  have hn := hb.n
  unfold oneValue between outside
  simp only
  cases hv : Spec.number ta v with
  | none =>
    have n1 := (nan_false hT (x := e.1) (y := v) (.inr hv)).2
    have n2 := (nan_false hT (x := v) (y := e.1) (.inl hv)).1
    rw [n1, n2, hn]
    rfl
  | some q =>
    obtain ⟨⟨k1, k2⟩, k3⟩ := hk q hv
    have hp := right_prefix hs q
    rw [leN_eq hT he1 hv, ltN_eq hT hv he2, ltN_eq hT hv he1, k1, k2]
    show _ = some (((qs.filter fun b => !q.lt b).length : Nat) : Int)
    cases c1 : q.lt f with
    | true =>
      rw [filter_none hp hf (by rw [c1]; rfl)]
      rfl
    | false =>
      cases c2 : q.lt l with
      | false =>
        rw [filter_all hp hf hl (by rw [c2]; rfl), hn]
        rfl
      | true =>
        obtain ⟨y, y1, y2⟩ := k3 c1 (lt_asymm c2)
        rw [y1]
        refine inside_right (by omega) (by rw [hn]; exact hov) (by rw [hn]; exact List.length_filter_le _ _) ?_
        intro i hi
        obtain ⟨p, c, h1, h2, h3⟩ := hb.get hi
        have h4 := filter_prefix (fun b => !q.lt b) qs hp i p h1
        refine ⟨c, h2, ?_, ?_⟩
        · rw [leN_eq hB h3 y2, Bool.eq_iff_iff, decide_eq_true_iff]
          exact h4.symm
        · rw [ltN_eq hB y2 h3, Bool.eq_iff_iff, decide_eq_true_iff]
          cases hpq : q.lt p <;> rw [hpq] at h4 <;> simp at h4 ⊢ <;> omega

theorem value_cut {o : IT} {T B : Num} {ta tb : Nat} (hT : Is ta T) (hB : Is tb B) (hta : ta ≠ 0)
    {b : Bins} {qs : List Ext} (hb : Holds tb b qs) (hov : NoOverflow o qs.length) (hs : qs.Pairwise fun a b => a.lt b = true)
    {e : Int × Int} {f' l' f l : Ext} (he1 : Spec.number ta e.1 = some f') (he2 : Spec.number ta e.2 = some l')
    (hf : qs.head? = some f) (hl : qs.getLast? = some l) (v : Int)
    (hk : ∀ q, Spec.number ta v = some q → (q.lt f' = q.lt f ∧ l'.lt q = l.lt q) ∧
      (q.lt f = false → l.lt q = false → ∃ y, castNum T B v = some y ∧ Spec.number tb y = some q)) :
    ∃ r, oneValue .cut o T B ta b e v = some r ∧ (¬ Proper ta v → r = 0) ∧
      (Proper ta v → ∀ q, Spec.number ta v = some q → Riptide.Bins.Spec.IsBin (fun a b => a.lt b = true) qs q r) := by
  have h0 := head_pos hf
  have hn := hb.n
  unfold oneValue between outside
  simp only
  cases hval : validN ta T v with
  | false =>
    refine ⟨0, rfl, fun _ => rfl, fun h => ?_⟩
    rw [(proper_eq hT hta v).2 h] at hval
    cases hval
  | true =>
    have hpr := (proper_eq hT hta v).1 hval
    cases hv : Spec.number ta v with
    | none => exact absurd hpr (not_proper_nan hT hv)
    | some q =>
      obtain ⟨⟨k1, k2⟩, k3⟩ := hk q hv
      have hle : qs.Pairwise fun a b => b.lt a = false := hs.imp fun h => lt_asymm h
      have hp := left_prefix hle q
      rw [leN_eq hT he1 hv, leN_eq hT hv he2, k1, k2]
      cases c1 : q.lt f with
      | true =>
        refine ⟨0, rfl, fun h => absurd hpr h, fun _ q' hq' => ?_⟩
        cases hq'
        exact .inl ⟨rfl, .inl ⟨f, hf, c1⟩⟩
      | false =>
        cases c2 : l.lt q with
        | true =>
          refine ⟨0, rfl, fun h => absurd hpr h, fun _ q' hq' => ?_⟩
          cases hq'
          exact .inl ⟨rfl, .inr ⟨l, hl, c2⟩⟩
        | false =>
          obtain ⟨y, y1, y2⟩ := k3 c1 c2
          rw [y1]
          have hpre := filter_prefix (fun b => b.lt q) qs hp
          have hlast := hpre (qs.length - 1) l (by rw [← List.getLast?_eq_getElem?]; exact hl)
          have hfirst := hpre 0 f (by rw [← List.head?_eq_getElem?]; exact hf)
          rw [c2] at hlast
          simp only [Bool.false_eq_true, iff_false] at hlast
          have hin := inside_cut (o := o) (B := B) (b := b) (val := y) (k := (qs.filter fun b => b.lt q).length) (by omega) (by rw [hn]; exact hov)
            (by omega) (by
            intro i hi
            obtain ⟨p, c, h1, h2, h3⟩ := hb.get hi
            have h4 := hpre i p h1
            refine ⟨c, h2, ?_, ?_, ?_, ?_⟩
            · rw [ltN_eq hB h3 y2, Bool.eq_iff_iff, decide_eq_true_iff]
              exact h4.symm
            · rw [leN_eq hB y2 h3, Bool.eq_iff_iff, decide_eq_true_iff]
              cases hpq : p.lt q <;> rw [hpq] at h4 <;> simp at h4 ⊢ <;> omega
            · rw [ltN_eq hB y2 h3]
              intro h
              rw [lt_asymm h] at h4
              simp at h4
              omega
            · intro h
              rw [ltN_eq hB y2 h3]
              have hki : (qs.filter fun b => b.lt q).length < qs.length := by omega
              have h5 := hpre _ _ (List.getElem?_eq_getElem hki)
              simp only [Nat.lt_irrefl, false_iff, Bool.not_eq_true] at h5
              obtain ⟨hil, h6⟩ := List.getElem?_eq_some_iff.1 h1
              have h7 := List.pairwise_iff_getElem.1 hs _ _ hki hil h
              rw [h6] at h7
              exact lt_of_le_of_lt h5 h7)
          refine ⟨_, hin, fun h => absurd hpr h, fun _ q' hq' => ?_⟩
          cases hq'
          generalize hkk : (qs.filter fun b => b.lt q).length = k at hpre hlast hfirst
          rcases Nat.eq_zero_or_pos k with hz | hz
          · subst hz
            refine .inr (.inl ⟨rfl, f, hf, by simp [c1], ?_⟩)
            intro h
            rw [h] at hfirst
            simp at hfirst
          · have m1 : max 1 k = k := by omega
            have i1 : k - 1 < qs.length := by omega
            have i2 : k < qs.length := by omega
            refine .inr (.inr ⟨k, by rw [m1], hz, _, _, List.getElem?_eq_getElem i1, List.getElem?_eq_getElem i2, ?_, ?_⟩)
            · exact (hpre _ _ (List.getElem?_eq_getElem i1)).1 (by omega)
            · intro h
              have := (hpre _ _ (List.getElem?_eq_getElem i2)).2 h
              omega

/-- One value: the answer is right when the ends and the value keep their places. -/
theorem one_value {m : Int} {mode : Mode} (hm : modeOf m = some mode) {o : IT} {T B : Num} {ta tb : Nat} (hT : Is ta T) (hB : Is tb B)
    {b : Bins} {qs : List Ext} (hb : Holds tb b qs) (hov : NoOverflow o qs.length) (hs : Ordered m qs)
    {e : Int × Int} {f' l' f l : Ext} (he1 : Spec.number ta e.1 = some f') (he2 : Spec.number ta e.2 = some l')
    (hf : qs.head? = some f) (hl : qs.getLast? = some l) (hbool : m = 0 → ta ≠ 0) (v : Int)
    (hk : ∀ q, Spec.number ta v = some q → EndsOk m f' l' f l q ∧
      (q.lt f = false → l.lt q = false → ∃ y, castNum T B v = some y ∧ Spec.number tb y = some q)) :
    ∃ r, oneValue mode o T B ta b e v = some r ∧ Right m ta qs v r := by
  have hle := ordered_le hs
  rcases modes hm with ⟨rfl, rfl⟩ | ⟨rfl, rfl⟩ | ⟨rfl, rfl⟩
  · have hs' : qs.Pairwise fun a b => a.lt b = true := hs.imp fun h => by simpa using h
    obtain ⟨r, h1, h2⟩ := value_cut hT hB (hbool rfl) hb hov hs' he1 he2 hf hl v fun q hq => ⟨(hk q hq).1.2.2 rfl, (hk q hq).2⟩
    exact ⟨r, h1, fun _ => h2, fun h => by omega, fun h => by omega⟩
  · refine ⟨_, value_left hT hB hb hov hle he1 he2 hf hl v fun q hq => ⟨(hk q hq).1.1 rfl, (hk q hq).2⟩, fun h => by omega, fun _ => rfl, fun h => by omega⟩
  · refine ⟨_, value_right hT hB hb hov hle he1 he2 hf hl v fun q hq => ⟨(hk q hq).1.2.1 rfl, (hk q hq).2⟩, fun h => by omega, fun h => by omega, fun _ => rfl⟩

end Riptide.Bins.Call
