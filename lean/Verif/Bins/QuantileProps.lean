import Verif.Bins.Quantile
import Verif.Bins.QuantileSpec
import Verif.Sort.Argsort
/-! # Counts of invalid values from a sort, and cuts by a sort -/
namespace Riptide.Bins

/-! ### Counting -/

theorem backRun_count {α : Type} {data : List α} {index : List Nat} {ys : List α} {p : α → Bool} :
    ∀ m, m ≤ ys.length → (∀ i < m, sortedAt data index i = ys[i]?) → (ys.take m).Pairwise (fun x y => p x = true → p y = true) →
      backRun data index p m = some ((ys.take m).countP p)
  | 0, _, _, _ => by simp [backRun]
  | m + 1, hm, hs, hp => by
    have hget : ys[m]? = some ys[m] := List.getElem?_eq_getElem (by omega)
    have ht : ys.take (m + 1) = ys.take m ++ [ys[m]] := by rw [List.take_add_one, hget]; rfl
    rw [ht, List.pairwise_append] at hp
    rw [backRun, hs m (by omega), hget]
    dsimp only
    rw [ht, List.countP_append]
    split
    · rename_i h
      rw [backRun_count m (by omega) (fun i hi => hs i (by omega)) hp.1]
      simp [h]
    · rename_i h
      have h0 : (ys.take m).countP p = 0 := by
        rw [List.countP_eq_zero]
        intro x hx hpx
        exact h (hp.2.2 x hx _ (by simp) hpx)
      rw [h0]
      simp [h]

theorem frontRun_count {α : Type} {data : List α} {index : List Nat} {ys : List α} {p : α → Bool} (hn : ys.length < 2 ^ 31) :
    ∀ k j, j + k ≤ ys.length → (∀ i < j + k, sortedAt data index i = ys[i]?) → ((ys.drop j).take k).Pairwise (fun x y => p y = true → p x = true) →
      frontRun data index p k j = some (((ys.drop j).take k).countP p)
  | 0, j, _, _, _ => by simp [frontRun]
  | k + 1, j, hm, hs, hp => by
    have hget : ys[j]? = some ys[j] := List.getElem?_eq_getElem (by omega)
    have ht : (ys.drop j).take (k + 1) = ys[j] :: (ys.drop (j + 1)).take k := by
      rw [List.drop_eq_getElem_cons (by omega), List.take_succ_cons]
    rw [ht, List.pairwise_cons] at hp
    rw [frontRun, hs j (by omega), hget]
    dsimp only
    rw [ht, List.countP_cons]
    split
    · rename_i h
      rw [if_pos (by omega), frontRun_count hn k (j + 1) (by omega) (fun i hi => hs i (by omega)) hp.2]
      simp
    · rename_i h
      have h0 : ((ys.drop (j + 1)).take k).countP p = 0 := by
        rw [List.countP_eq_zero]
        intro x hx hpx
        exact h (hp.1 x hx hpx)
      rw [h0]

/-- Items with a property which comes last are the last ones. -/
theorem last_ones {α : Type} {p : α → Bool} : ∀ (l : List α), l.Pairwise (fun x y => p x = true → p y = true) →
    (∀ x ∈ l.take (l.length - l.countP p), p x = false) ∧ ∀ x ∈ l.drop (l.length - l.countP p), p x = true
  | [], _ => by simp
  | a :: l, h => by
    rw [List.pairwise_cons] at h
    obtain ⟨h1, h2⟩ := last_ones l h.2
    have hle := List.countP_le_length (p := p) (l := l)
    cases ha : p a with
    | true =>
      have hall : l.countP p = l.length := by
        rw [List.countP_eq_length]
        intro x hx
        exact h.1 x hx ha
      have hc : (a :: l).countP p = (a :: l).length := by rw [List.countP_cons, hall]; simp [ha]
      rw [hc, Nat.sub_self]
      refine ⟨by simp, ?_⟩
      intro x hx
      rw [List.drop_zero, List.mem_cons] at hx
      rcases hx with rfl | hx
      · exact ha
      · exact h.1 x hx ha
    | false =>
      have hc : (a :: l).length - (a :: l).countP p = l.length - l.countP p + 1 := by
        rw [List.countP_cons]
        simp [ha]
        omega
      rw [hc, List.take_succ_cons, List.drop_succ_cons]
      refine ⟨?_, h2⟩
      intro x hx
      rw [List.mem_cons] at hx
      rcases hx with rfl | hx
      · exact ha
      · exact h1 x hx

/-- The index is an order of the rows, and the items are in order along it. -/
structure Sorts {α : Type} (lt : α → α → Bool) (data : List α) (index : List Nat) : Prop where
  perm : index.Perm (List.range data.length)
  sorted : index.Pairwise (fun i j => ∀ x y, data[i]? = some x → data[j]? = some y → lt y x = false)

theorem Sorts.values {α : Type} [Inhabited α] {lt : α → α → Bool} {data : List α} {index : List Nat} (h : Sorts lt data index) :
    ∃ ys : List α, ys.Perm data ∧ ys.length = data.length ∧ (∀ i < data.length, sortedAt data index i = ys[i]?) ∧ ys.Pairwise (fun x y => lt y x = false) := by
  have hlen : index.length = data.length := by rw [h.perm.length_eq, List.length_range]
  have hin : ∀ r ∈ index, r < data.length := fun r hr => List.mem_range.mp (h.perm.mem_iff.mp hr)
  have hget : ∀ r, r < data.length → data[r]? = some (data.getD r default) := by
    intro r hr
    simp [List.getD, hr]
  refine ⟨index.map (fun r => data.getD r default), ?_, by simp [hlen], ?_, ?_⟩
  · refine (h.perm.map _).trans (List.Perm.of_eq ?_)
    refine List.ext_getElem? fun i => ?_
    rw [List.getElem?_map]
    by_cases hi : i < data.length
    · rw [List.getElem?_range hi, Option.map_some, hget i hi]
    · rw [List.getElem?_eq_none (by simp; omega), List.getElem?_eq_none (by omega)]
      rfl
  · intro i hi
    unfold sortedAt
    rw [List.getElem?_map, List.getElem?_eq_getElem (show i < index.length by omega)]
    dsimp only [Option.map_some]
    exact hget _ (hin _ (List.getElem_mem _))
  · rw [List.pairwise_map]
    refine h.sorted.imp_of_mem ?_
    intro a b ha hb hab
    exact hab _ _ (hget a (hin a ha)) (hget b (hin b hb))

/-! ### Floats -/

theorem inf_lt (f : FT) : f.infMag < 2 ^ (f.eb + f.mb) := by
  unfold FT.infMag
  rw [Nat.pow_add]
  have h1 := Nat.two_pow_pos f.eb
  have h2 := Nat.two_pow_pos f.mb
  exact Nat.mul_lt_mul_of_pos_right (by omega) h2

theorem pinf_eq {f : FT} {x : Nat} : f.eq x f.infMag = true ↔ f.isNan x = false ∧ f.key x = f.infMag := by
  have h := inf_lt f
  have hm : f.mag f.infMag = f.infMag := Nat.mod_eq_of_lt h
  have hn : f.isNan f.infMag = false := by unfold FT.isNan; rw [hm]; simp
  have hk : f.key f.infMag = f.infMag := by
    unfold FT.key FT.neg
    rw [if_neg (by simpa using h), hm]
  unfold FT.eq
  rw [hn, hk]
  simp

theorem ninf_eq {f : FT} {x : Nat} : f.eq x (2 ^ (f.eb + f.mb) + f.infMag) = true ↔ f.isNan x = false ∧ f.key x = -(f.infMag : Int) := by
  have h := inf_lt f
  have hm : f.mag (2 ^ (f.eb + f.mb) + f.infMag) = f.infMag := by
    unfold FT.mag
    rw [Nat.add_mod_left, Nat.mod_eq_of_lt h]
  have hn : f.isNan (2 ^ (f.eb + f.mb) + f.infMag) = false := by unfold FT.isNan; rw [hm]; simp
  have hk : f.key (2 ^ (f.eb + f.mb) + f.infMag) = -(f.infMag : Int) := by
    unfold FT.key FT.neg
    rw [if_pos (by simp), hm]
  unfold FT.eq
  rw [hn, hk]
  simp

theorem key_bounds {f : FT} {x : Nat} (h : f.isNan x = false) : -(f.infMag : Int) ≤ f.key x ∧ f.key x ≤ f.infMag := by
  have : f.mag x ≤ f.infMag := by
    unfold FT.isNan at h
    simpa using h
  unfold FT.key
  split <;> omega

theorem floatLt_false {f : FT} {x y : Nat} (h : Sort.floatLt f true y x = false) :
    (f.isNan x = true → f.isNan y = true) ∧ (f.isNan x = false → f.isNan y = false → f.key x ≤ f.key y) := by
  unfold Sort.floatLt FT.lt at h
  cases hx : f.isNan x <;> cases hy : f.isNan y <;> simp_all

theorem count_take_of_drop {α : Type} {p : α → Bool} {l : List α} {m : Nat} (h : ∀ x ∈ l.drop m, p x = false) : (l.take m).countP p = l.countP p := by
  have h0 : (l.drop m).countP p = 0 := by
    rw [List.countP_eq_zero]
    intro x hx hp
    rw [h x hx] at hp
    cases hp
  have : l.countP p = (l.take m ++ l.drop m).countP p := by rw [List.take_append_drop]
  rw [this, List.countP_append, h0, Nat.add_zero]

/-- `NanInfCountFromSort` on floats counts the NaNs and the infinities. -/
theorem floats_counted {f : FT} (hf : 0 < f.eb) {data index : List Nat} (hs : Sorts (Sort.floatLt f true) data index) (hn : data.length < 2 ^ 31) :
    countFloats f data index = some (data.countP f.isNan, data.countP (fun x => f.eq x f.infMag), data.countP (fun x => f.eq x (2 ^ (f.eb + f.mb) + f.infMag))) := by
  obtain ⟨ys, hperm, hlen, hat, hsort⟩ := hs.values
  have hord : ys.Pairwise (fun x y => (f.isNan x = true → f.isNan y = true) ∧ (f.isNan x = false → f.isNan y = false → f.key x ≤ f.key y)) :=
    hsort.imp fun h => floatLt_false h
  have hup : ys.Pairwise (fun x y => f.isNan x = true → f.isNan y = true) := hord.imp fun h => h.1
  have h1 : backRun data index f.isNan data.length = some (ys.countP f.isNan) := by
    have := backRun_count (data := data) (index := index) (p := f.isNan) data.length (by omega) hat (by rw [← hlen, List.take_length]; exact hup)
    rw [← hlen, List.take_length] at this
    rw [← hlen]
    exact this
  obtain ⟨l1, l2⟩ := last_ones ys hup
  generalize hnan : ys.countP f.isNan = nan at h1 l1 l2
  have hcle : nan ≤ ys.length := by rw [← hnan]; exact List.countP_le_length
  rw [hlen] at l1 l2 hcle
  generalize hm : data.length - nan = m at l1 l2
  have hordm := hord.sublist (List.take_sublist m ys)
  have hinc : (ys.take m).Pairwise (fun x y => f.key x ≤ f.key y) := hordm.imp_of_mem fun {a b} ha hb h => h.2 (l1 a ha) (l1 b hb)
  have hp2 : (ys.take m).Pairwise (fun x y => f.eq x f.infMag = true → f.eq y f.infMag = true) := by
    refine hinc.imp_of_mem ?_
    intro a b ha hb h hq
    rw [pinf_eq] at hq ⊢
    have := key_bounds (l1 b hb)
    exact ⟨l1 b hb, by omega⟩
  have h2 : backRun data index (fun x => f.eq x f.infMag) m = some (ys.countP (fun x => f.eq x f.infMag)) := by
    rw [backRun_count (ys := ys) m (by omega) (fun i hi => hat i (by omega)) hp2]
    congr 1
    refine count_take_of_drop ?_
    intro x hx
    have := l2 x hx
    unfold FT.eq
    simp [this]
  have htl : (ys.take m).length = m := by rw [List.length_take]; omega
  obtain ⟨k1, k2⟩ := last_ones (ys.take m) hp2
  have hct : (ys.take m).countP (fun x => f.eq x f.infMag) = ys.countP (fun x => f.eq x f.infMag) := by
    refine count_take_of_drop ?_
    intro x hx
    have := l2 x hx
    unfold FT.eq
    simp [this]
  have hile : ys.countP (fun x => f.eq x f.infMag) ≤ m := by
    have := List.countP_le_length (p := fun x => f.eq x f.infMag) (l := ys.take m)
    omega
  rw [htl, hct] at k2
  generalize hinf : ys.countP (fun x => f.eq x f.infMag) = inf at h2 k2 hile
  have hp3 : ((ys.drop 0).take (m - inf)).Pairwise
      (fun x y => f.eq y (2 ^ (f.eb + f.mb) + f.infMag) = true → f.eq x (2 ^ (f.eb + f.mb) + f.infMag) = true) := by
    rw [List.drop_zero]
    have hsub : (ys.take (m - inf)).Sublist (ys.take m) := List.take_sublist_take_left (by omega)
    refine (hinc.sublist hsub).imp_of_mem ?_
    intro a b ha hb h hq
    rw [ninf_eq] at hq ⊢
    have := key_bounds (l1 a (hsub.mem ha))
    exact ⟨l1 a (hsub.mem ha), by omega⟩
  have h3 : frontRun data index (fun x => f.eq x (2 ^ (f.eb + f.mb) + f.infMag)) (m - inf) 0 =
      some (ys.countP (fun x => f.eq x (2 ^ (f.eb + f.mb) + f.infMag))) := by
    rw [frontRun_count (ys := ys) (by omega) (m - inf) 0 (by omega) (fun i hi => hat i (by omega)) hp3, List.drop_zero]
    congr 1
    refine count_take_of_drop ?_
    intro x hx
    have hd : ys.drop (m - inf) = (ys.take m).drop (m - inf) ++ ys.drop m := by
      rw [← List.drop_append_of_le_length (by omega), List.take_append_drop]
    rw [hd, List.mem_append] at hx
    rcases hx with hx | hx
    · have hq := pinf_eq.mp (k2 x hx)
      have hpos : 0 < f.infMag := by
        unfold FT.infMag
        have h1 := Nat.one_lt_two_pow (n := f.eb) (by omega)
        exact Nat.mul_pos (by omega) (Nat.two_pow_pos _)
      cases hc : f.eq x (2 ^ (f.eb + f.mb) + f.infMag) with
      | false => rfl
      | true =>
        have hq' := ninf_eq.mp hc
        omega
    · have := l2 x hx
      unfold FT.eq
      simp [this]
  unfold countFloats
  rw [h1]
  dsimp only
  rw [hm, h2]
  dsimp only
  rw [h3]
  dsimp only
  rw [← hnan, ← hinf, hperm.countP_eq, hperm.countP_eq, hperm.countP_eq]

/-- `NanInfCountFromSort` on integers counts the invalid ones: in front if the type is signed, at the back otherwise. -/
theorem ints_counted {t : IT} {data : List Int} {index : List Nat} (hs : Sorts (Sort.intLt true) data index) (hn : data.length < 2 ^ 31)
    (hr : ∀ x ∈ data, t.InRange x) :
    countInts t data index = some (0, if t.signed then 0 else data.count t.inv, if t.signed then data.count t.inv else 0) := by
  obtain ⟨ys, hperm, hlen, hat, hsort⟩ := hs.values
  have hle : ys.Pairwise (fun x y => x ≤ y) := hsort.imp fun h => by
    unfold Sort.intLt at h
    simpa using h
  have hin : ∀ x ∈ ys, t.InRange x := fun x hx => hr x (hperm.mem_iff.mp hx)
  have hcount : ∀ l : List Int, l.countP (fun x => decide (x = t.inv)) = l.count t.inv := by
    intro l
    unfold List.count
    refine List.countP_congr ?_
    intro x _
    simp
  unfold countInts
  cases hsg : t.signed with
  | true =>
    have hinv : t.inv = t.lo := by unfold IT.inv; rw [if_pos hsg]
    have hp : ((ys.drop 0).take data.length).Pairwise (fun x y => decide (y = t.inv) = true → decide (x = t.inv) = true) := by
      rw [List.drop_zero, ← hlen, List.take_length]
      refine hle.imp_of_mem ?_
      intro a b ha hb h hq
      have := (hin a ha).1
      simp only [decide_eq_true_eq] at hq ⊢
      omega
    rw [if_pos rfl, frontRun_count (ys := ys) (by omega) data.length 0 (by omega) (fun i hi => hat i (by omega)) hp, List.drop_zero, ← hlen,
      List.take_length, hcount, hperm.count_eq]
    rfl
  | false =>
    have hinv : t.inv = t.hi := by unfold IT.inv; rw [if_neg (by simp [hsg])]
    have hp : (ys.take data.length).Pairwise (fun x y => decide (x = t.inv) = true → decide (y = t.inv) = true) := by
      rw [← hlen, List.take_length]
      refine hle.imp_of_mem ?_
      intro a b ha hb h hq
      have := (hin b hb).2
      simp only [decide_eq_true_eq] at hq ⊢
      omega
    rw [if_neg (by simp), backRun_count (ys := ys) data.length (by omega) hat hp, ← hlen, List.take_length, hcount, hperm.count_eq]
    rfl

/-! ### Cuts -/

theorem lt_keys {a b : Nat} (ha : FT.f64.isNan a = false) (hb : FT.f64.isNan b = false) : FT.f64.lt a b = true ↔ FT.f64.key a < FT.f64.key b := by
  unfold FT.lt
  simp [ha, hb]

theorem le_keys {a b : Nat} (ha : FT.f64.isNan a = false) (hb : FT.f64.isNan b = false) : dLe a b = true ↔ FT.f64.key a ≤ FT.f64.key b := by
  unfold dLe FT.lt FT.eq
  simp [ha, hb]
  omega

theorem eq_keys {a b : Nat} (ha : FT.f64.isNan a = false) (hb : FT.f64.isNan b = false) : FT.f64.eq a b = true ↔ FT.f64.key a = FT.f64.key b := by
  unfold FT.eq
  simp [ha, hb]

theorem clipLow_eq {D : Nat → Option Nat} {v : Nat → Nat} {c : Nat} : ∀ (l : List Nat), (∀ r ∈ l, D r = some (v r)) →
    clipLow D c l = some (l.dropWhile (fun r => FT.f64.lt (v r) c), (l.takeWhile (fun r => FT.f64.lt (v r) c)).map (·, 1))
  | [], _ => rfl
  | r :: l, h => by
    rw [clipLow, h r (by simp)]
    dsimp only
    cases hl : FT.f64.lt (v r) c with
    | true =>
      rw [if_pos rfl, clipLow_eq l (fun x hx => h x (by simp [hx]))]
      simp [hl]
    | false =>
      rw [if_neg (by simp)]
      simp [hl]

theorem advance_eq {edges : List Nat} {past : Option Nat} {v : Nat} (he : Edges edges) (hv : FT.f64.isNan v = false) :
    ∀ (fuel b c : Nat), edges[b]? = some c → edges.length - b < fuel →
      (∃ k e, b ≤ k ∧ edges[k]? = some e ∧ FT.f64.key v ≤ FT.f64.key e ∧ (∀ k' e', b ≤ k' → k' < k → edges[k']? = some e' → FT.f64.key e' < FT.f64.key v) ∧
        advance edges past v fuel b c = some (k, e)) ∨
      (∀ k' e', b ≤ k' → edges[k']? = some e' → FT.f64.key e' < FT.f64.key v) ∧ advance edges past v fuel b c = past.map (edges.length, ·)
  | 0, _, _, _, h => by omega
  | fuel + 1, b, c, hc, hf => by
    have hb : b < edges.length := (List.getElem?_eq_some_iff.mp hc).1
    have hcn := he.1 c (List.mem_of_getElem? hc)
    rw [advance]
    by_cases hlt : FT.f64.lt c v = true
    · rw [if_pos ⟨hb, hlt⟩]
      rw [lt_keys hcn hv] at hlt
      by_cases hlast : b + 1 = edges.length
      · right
        refine ⟨?_, ?_⟩
        · intro k' e' h1 h2
          have : k' < edges.length := (List.getElem?_eq_some_iff.mp h2).1
          have : k' = b := by omega
          subst this
          rw [hc] at h2
          cases h2
          exact hlt
        · unfold edgeAt
          rw [if_pos hlast]
          cases past with
          | none => rfl
          | some g =>
            dsimp only [Option.map_some]
            cases fuel with
            | zero => rw [advance, hlast]
            | succ fuel => rw [advance, if_neg (by omega), hlast]
      · have hb1 : b + 1 < edges.length := by omega
        have hc1 : edges[b + 1]? = some edges[b + 1] := List.getElem?_eq_getElem hb1
        unfold edgeAt
        rw [if_neg hlast, hc1]
        dsimp only
        rcases advance_eq he hv fuel (b + 1) edges[b + 1] hc1 (by omega) with ⟨k, e, k1, k2, k3, k4, k5⟩ | ⟨k1, k2⟩
        · left
          refine ⟨k, e, by omega, k2, k3, ?_, k5⟩
          intro k' e' h1 h2 h3
          by_cases hk : k' = b
          · subst hk
            rw [hc] at h3
            cases h3
            exact hlt
          · exact k4 k' e' (by omega) h2 h3
        · right
          refine ⟨?_, k2⟩
          intro k' e' h1 h2
          by_cases hk : k' = b
          · subst hk
            rw [hc] at h2
            cases h2
            exact hlt
          · exact k1 k' e' (by omega) h2
    · rw [if_neg (by rintro ⟨_, h⟩; exact hlt h)]
      rw [lt_keys hcn hv] at hlt
      exact .inl ⟨b, c, Nat.le_refl _, hc, by omega, by intro k' e' h1 h2; omega, rfl⟩

theorem wrap_label {n k : Nat} (hn : n < 2 ^ 63) (hk : k ≤ n) : (outType n).wrap (k : Int) = k := by
  refine IT.wrap_of_inRange _ ?_ ?_
  · unfold outType
    split
    · split
      · split <;> decide
      · decide
    · decide
  · unfold outType
    split
    · split
      · split
        · show -(2 : Int) ^ 63 ≤ k ∧ (k : Int) ≤ 2 ^ 63 - 1
          omega
        · show -(2 : Int) ^ 31 ≤ k ∧ (k : Int) ≤ 2 ^ 31 - 1
          omega
      · show -(2 : Int) ^ 15 ≤ k ∧ (k : Int) ≤ 2 ^ 15 - 1
        omega
    · show -(2 : Int) ^ 7 ≤ k ∧ (k : Int) ≤ 2 ^ 7 - 1
      omega

theorem middle_eq {edges : List Nat} {past : Option Nat} {D : Nat → Option Nat} {v : Nat → Nat} (he : Edges edges) (hlen : edges.length < 2 ^ 63)
    {e0 : Nat} (h0 : edges[0]? = some e0) {last : Nat} (hlast : edges[edges.length - 1]? = some last) :
    ∀ (l : List Nat) (b c : Nat), (∀ r ∈ l, D r = some (v r) ∧ FT.f64.isNan (v r) = false) → l.Pairwise (fun r s => FT.f64.key (v r) ≤ FT.f64.key (v s)) →
      edges[b]? = some c → (∀ r ∈ l, FT.f64.key e0 ≤ FT.f64.key (v r)) → (b = 0 → ∀ r ∈ l, FT.f64.key e0 < FT.f64.key (v r)) →
      (∀ r ∈ l, ∀ k' e', 1 ≤ k' → k' < b → edges[k']? = some e' → FT.f64.key e' < FT.f64.key (v r)) →
      (past = none ∧ (∃ r ∈ l, FT.f64.key last < FT.f64.key (v r)) ∧ middle edges past (outType edges.length) D l b c = none) ∨
      ((past ≠ none ∨ ∀ r ∈ l, FT.f64.key (v r) ≤ FT.f64.key last) ∧
        ∃ ws, middle edges past (outType edges.length) D l b c = some ws ∧ ws.map Prod.fst = l ∧ ∀ w ∈ ws, IsLabel edges (v w.1) w.2)
  | [], b, c, _, _, _, _, _, _ => .inr ⟨.inr (by simp), [], rfl, rfl, by simp⟩
  | r :: l, b, c, hD, hs, hc, hge, hz, hk => by
    have hb : b < edges.length := (List.getElem?_eq_some_iff.mp hc).1
    have hcn := he.1 c (List.mem_of_getElem? hc)
    obtain ⟨hDr, hvn⟩ := hD r (by simp)
    rw [List.pairwise_cons] at hs
    have hclast : FT.f64.key c ≤ FT.f64.key last := by
      by_cases hbl : b = edges.length - 1
      · subst hbl
        rw [hc] at hlast
        cases hlast
        exact Int.le_refl _
      · have hp := List.pairwise_iff_getElem.mp he.2 b (edges.length - 1) hb (by omega) (by omega)
        have q1 : edges[b] = c := (List.getElem?_eq_some_iff.mp hc).2
        obtain ⟨_, q2⟩ := List.getElem?_eq_some_iff.mp hlast
        rw [q1, q2] at hp
        exact hp
    rw [middle, hDr]
    dsimp only
    by_cases hle : dLe (v r) c = true
    · rw [if_pos hle]
      rw [le_keys hvn hcn] at hle
      have hb1 : 1 ≤ b := by
        rcases Nat.eq_zero_or_pos b with h | h
        · have := hz h r (by simp)
          subst h
          rw [h0] at hc
          cases hc
          omega
        · exact h
      rcases middle_eq he hlen h0 hlast l b c (fun x hx => hD x (by simp [hx])) hs.2 hc (fun x hx => hge x (by simp [hx]))
        (by intro h; omega) (fun x hx => hk x (by simp [hx])) with ⟨q1, ⟨x, hx, hxl⟩, q3⟩ | ⟨q0, ws, q1, q2, q3⟩
      · exact .inl ⟨q1, ⟨x, by simp [hx], hxl⟩, by rw [q3]; rfl⟩
      · refine .inr ⟨?_, _, by rw [q1]; rfl, by simp [q2], ?_⟩
        · rcases q0 with q0 | q0
          · exact .inl q0
          · refine .inr fun x hx => ?_
            rw [List.mem_cons] at hx
            rcases hx with rfl | hx
            · omega
            · exact q0 x hx
        · intro w hw
          rw [List.mem_cons] at hw
          rcases hw with rfl | hw
          · refine .inr ⟨b, ?_, hb1, e0, c, h0, hc, hge r (by simp), hle, fun k' e' => hk r (by simp) k' e'⟩
            exact_mod_cast wrap_label hlen (k := b + 1) (by omega)
          · exact q3 w hw
    · rw [if_neg hle]
      rw [le_keys hvn hcn] at hle
      rcases advance_eq (past := past) he hvn (edges.length + 1) b c hc (by omega) with ⟨k, e, k1, k2, k3, k4, k5⟩ | ⟨k1, k2⟩
      · have hkb : k ≠ b := by
          rintro rfl
          rw [hc] at k2
          cases k2
          omega
        have hkl : k < edges.length := (List.getElem?_eq_some_iff.mp k2).1
        rw [k5]
        dsimp only
        rw [if_neg (by omega)]
        have hall : ∀ k' e', 1 ≤ k' → k' < k → edges[k']? = some e' → FT.f64.key e' < FT.f64.key (v r) := by
          intro k' e' h1 h2 h3
          by_cases h : k' < b
          · exact hk r (by simp) k' e' h1 h h3
          · exact k4 k' e' (by omega) h2 h3
        rcases middle_eq he hlen h0 hlast l k e (fun x hx => hD x (by simp [hx])) hs.2 k2 (fun x hx => hge x (by simp [hx]))
          (by intro h; omega) (by
            intro x hx k' e' h1 h2 h3
            have := hs.1 x hx
            have := hall k' e' h1 h2 h3
            omega) with ⟨q1, ⟨x, hx, hxl⟩, q3⟩ | ⟨q0, ws, q1, q2, q3⟩
        · exact .inl ⟨q1, ⟨x, by simp [hx], hxl⟩, by rw [q3]; rfl⟩
        · refine .inr ⟨?_, _, by rw [q1]; rfl, by simp [q2], ?_⟩
          · rcases q0 with q0 | q0
            · exact .inl q0
            · refine .inr fun x hx => ?_
              rw [List.mem_cons] at hx
              rcases hx with rfl | hx
              · have : FT.f64.key e ≤ FT.f64.key last := by
                  by_cases hbl : k = edges.length - 1
                  · subst hbl
                    rw [k2] at hlast
                    cases hlast
                    exact Int.le_refl _
                  · have hp := List.pairwise_iff_getElem.mp he.2 k (edges.length - 1) hkl (by omega) (by omega)
                    have q1 : edges[k] = e := (List.getElem?_eq_some_iff.mp k2).2
                    obtain ⟨_, q2⟩ := List.getElem?_eq_some_iff.mp hlast
                    rw [q1, q2] at hp
                    exact hp
                omega
              · exact q0 x hx
          · intro w hw
            rw [List.mem_cons] at hw
            rcases hw with rfl | hw
            · refine .inr ⟨k, ?_, by omega, e0, e, h0, k2, hge r (by simp), k3, hall⟩
              exact_mod_cast wrap_label hlen (k := k + 1) (by omega)
            · exact q3 w hw
      · have hab : FT.f64.key last < FT.f64.key (v r) := k1 (edges.length - 1) last (by omega) hlast
        rw [k2]
        cases past with
        | none => exact .inl ⟨rfl, ⟨r, by simp, hab⟩, rfl⟩
        | some g =>
          dsimp only [Option.map_some]
          rw [if_pos (Nat.le_refl _)]
          refine .inr ⟨.inl (by simp), _, rfl, by simp [Function.comp_def], ?_⟩
          intro w hw
          obtain ⟨x, hx, rfl⟩ := List.mem_map.mp hw
          refine .inl ⟨rfl, e0, last, h0, hlast, .inr ?_⟩
          rw [List.mem_cons] at hx
          rcases hx with rfl | hx
          · exact hab
          · have := hs.1 x hx
            dsimp only
            omega

/-- The rows between the counts. -/
theorem drop_take_append {α : Type} (l : List α) {a b n : Nat} (h : a + b ≤ n) :
    l = l.take a ++ ((l.drop a).take (n - b - a) ++ l.drop (n - b)) := by
  have h1 : (l.drop a).drop (n - b - a) = l.drop (n - b) := by
    rw [List.drop_drop]
    congr 1
    omega
  rw [← h1, List.take_append_drop, List.take_append_drop]

/-- Each row gets the label of its bin, and 0 if the counts say that it is invalid; `none` if a value is above the last edge and reading behind the edges is
undefined. -/
theorem cuts_labelled {α : Type} {data : List α} {conv : α → Nat} {index edges : List Nat} {past : Option Nat} {nan inf neg : Nat} {v : Nat → Nat}
    (hperm : index.Perm (List.range data.length)) (hcount : neg + (nan + inf) ≤ data.length)
    (hv : ∀ r x, data[r]? = some x → v r = conv x)
    (hvalid : ∀ r ∈ (index.drop neg).take (data.length - (nan + inf) - neg), FT.f64.isNan (v r) = false)
    (hsort : ((index.drop neg).take (data.length - (nan + inf) - neg)).Pairwise (fun r s => FT.f64.key (v r) ≤ FT.f64.key (v s)))
    (he : Edges edges) (hlen : edges.length < 2 ^ 63) (hlen2 : 2 ≤ edges.length) {top : Nat} (htop : edges[edges.length - 1]? = some top) :
    (past = none ∧ (∃ r ∈ (index.drop neg).take (data.length - (nan + inf) - neg), FT.f64.key top < FT.f64.key (v r)) ∧
      binsToCutsSorted data conv index edges past nan inf neg = none) ∨
    ((past ≠ none ∨ ∀ r ∈ (index.drop neg).take (data.length - (nan + inf) - neg), FT.f64.key (v r) ≤ FT.f64.key top) ∧
      ∃ out : List Int, binsToCutsSorted data conv index edges past nan inf neg = some (out.map some) ∧ out.length = data.length ∧
        (∀ r ∈ index.take neg ++ index.drop (data.length - (nan + inf)), out[r]? = some 0) ∧
        ∀ r ∈ (index.drop neg).take (data.length - (nan + inf) - neg), ∃ label, out[r]? = some label ∧ IsLabel edges (v r) label) := by
  generalize hn : data.length = n at *
  have hilen : index.length = n := by rw [hperm.length_eq, List.length_range]
  have hin : ∀ r ∈ index, r < n := fun r hr => List.mem_range.mp (hperm.mem_iff.mp hr)
  have hnodup : index.Nodup := hperm.nodup_iff.mpr List.nodup_range
  have hdec := drop_take_append index hcount
  generalize hmid : (index.drop neg).take (n - (nan + inf) - neg) = mid at *
  generalize hback : index.drop (n - (nan + inf)) = back at *
  have hmidin : ∀ r ∈ mid, r < n := fun r hr => hin r (by rw [hdec]; simp [hr])
  have hD : ∀ r ∈ mid, (fun r => (data[r]?).map conv) r = some (v r) := by
    intro r hr
    have hlt := hmidin r hr
    have hg : data[r]? = some data[r] := List.getElem?_eq_getElem (by omega)
    dsimp only
    rw [hg, hv r _ hg]
    rfl
  have hlast : (List.range (nan + inf)).mapM (fun i => if i < n then index[n - i - 1]? else none) = some back.reverse := by
    have hbl : back.length = nan + inf := by rw [← hback, List.length_drop]; omega
    rw [mapM_some (g := fun i => index.getD (n - i - 1) 0)]
    · congr 1
      refine List.ext_getElem? fun i => ?_
      rw [List.getElem?_map]
      by_cases hi : i < nan + inf
      · rw [List.getElem?_range hi, List.getElem?_reverse (by omega), ← hback, List.getElem?_drop, Option.map_some]
        rw [← hback] at hbl
        rw [hbl, show n - (nan + inf) + (nan + inf - 1 - i) = n - i - 1 by omega]
        simp [List.getD, show n - i - 1 < index.length by omega]
      · rw [List.getElem?_eq_none (by simp; omega), List.getElem?_eq_none (by simp; omega)]
        rfl
    · intro i hi
      rw [List.mem_range] at hi
      rw [if_pos (by omega)]
      simp [List.getD, show n - i - 1 < index.length by omega]
  obtain ⟨e0, h0⟩ : ∃ e0, edges[0]? = some e0 := ⟨edges[0], List.getElem?_eq_getElem (by omega)⟩
  obtain ⟨e1, h1⟩ : ∃ e1, edges[1]? = some e1 := ⟨edges[1], List.getElem?_eq_getElem (by omega)⟩
  have he0n := he.1 e0 (List.mem_of_getElem? h0)
  have hedge0 : edgeAt edges past 0 = some e0 := by
    unfold edgeAt
    rw [if_neg (by omega), h0]
  have hedge1 : edgeAt edges past 1 = some e1 := by
    unfold edgeAt
    rw [if_neg (by omega), h1]
  have hclip := clipLow_eq (c := e0) mid hD
  generalize hrest : mid.dropWhile (fun r => FT.f64.lt (v r) e0) = rest at hclip
  generalize hlow : mid.takeWhile (fun r => FT.f64.lt (v r) e0) = low at hclip
  have hsplit : mid = low ++ rest := by rw [← hlow, ← hrest, List.takeWhile_append_dropWhile]
  have hrestmem : ∀ r ∈ rest, r ∈ mid := fun r hr => by rw [hsplit]; simp [hr]
  have hlowlt : ∀ r ∈ low, FT.f64.key (v r) < FT.f64.key e0 := by
    intro r hr
    rw [← hlow] at hr
    have hm : r ∈ mid := (List.takeWhile_sublist _).mem hr
    have := List.all_eq_true.mp List.all_takeWhile r hr
    exact (lt_keys (hvalid r hm) he0n).mp this
  have hrests : rest.Pairwise (fun r s => FT.f64.key (v r) ≤ FT.f64.key (v s)) := by
    rw [hsplit] at hsort
    exact (List.pairwise_append.mp hsort).2.1
  have hrestge : ∀ r ∈ rest, FT.f64.key e0 ≤ FT.f64.key (v r) := by
    cases hr0 : rest with
    | nil => intro r hr; cases hr
    | cons a t =>
      have ha : ¬ FT.f64.lt (v a) e0 = true := by
        have := List.head?_dropWhile_not (fun r => FT.f64.lt (v r) e0) mid
        rw [hrest, hr0] at this
        simpa using this
      rw [lt_keys (hvalid a (hrestmem a (by rw [hr0]; simp))) he0n] at ha
      rw [hr0, List.pairwise_cons] at hrests
      intro r hr
      rw [List.mem_cons] at hr
      rcases hr with rfl | hr
      · omega
      · have := hrests.1 r hr
        omega
  have hlowtop : FT.f64.key e0 ≤ FT.f64.key top := by
    have hp := List.pairwise_iff_getElem.mp he.2 0 (edges.length - 1) (by omega) (by omega) (by omega)
    have q1 : edges[0] = e0 := (List.getElem?_eq_some_iff.mp h0).2
    obtain ⟨_, q2⟩ := List.getElem?_eq_some_iff.mp htop
    rw [q1, q2] at hp
    exact hp
  obtain ⟨b, c, hbc, hcb, hb0, hbk⟩ : ∃ b c, startBin edges past (fun r => (data[r]?).map conv) e0 rest = some (b, c) ∧
      edges[b]? = some c ∧ (b = 0 → ∀ r ∈ rest, FT.f64.key e0 < FT.f64.key (v r)) ∧ b ≤ 1 := by
    cases hr0 : rest with
    | nil => exact ⟨0, e0, rfl, h0, by simp, by omega⟩
    | cons a t =>
      have ham := hrestmem a (by rw [hr0]; simp)
      have hDa := hD a ham
      dsimp only at hDa
      rw [startBin, hDa]
      dsimp only
      cases hq : FT.f64.eq (v a) e0 with
      | true =>
        rw [hedge1]
        refine ⟨1, e1, ?_, h1, by intro h; omega, by omega⟩
        rw [if_pos (by simp; omega)]
        rfl
      | false =>
        refine ⟨0, e0, by simp, h0, ?_, by omega⟩
        have hne : ¬ FT.f64.key (v a) = FT.f64.key e0 := by
          intro h
          rw [(eq_keys (hvalid a ham) he0n).mpr h] at hq
          cases hq
        have hga := hrestge a (by rw [hr0]; simp)
        rw [hr0, List.pairwise_cons] at hrests
        intro _ r hr
        rw [List.mem_cons] at hr
        rcases hr with rfl | hr
        · omega
        · have := hrests.1 r hr
          omega
  have hmiddle := middle_eq (past := past) (D := fun r => (data[r]?).map conv) (v := v) he hlen h0 htop rest b c
    (fun r hr => ⟨hD r (hrestmem r hr), hvalid r (hrestmem r hr)⟩) hrests hcb hrestge hb0 (by intro r hr k' e' h1 h2; omega)
  have hcut : cutWrites data conv index edges past n nan inf neg =
      (middle edges past (outType edges.length) (fun r => (data[r]?).map conv) rest b c).map
        (fun ws => (index.take neg).map (·, 0) ++ back.reverse.map (·, 0) ++ low.map (·, 1) ++ ws) := by
    unfold cutWrites
    rw [if_neg (by omega), hlast]
    dsimp only
    rw [hedge0]
    dsimp only
    rw [if_neg (by omega), hmid, hclip]
    dsimp only
    rw [hbc]
    dsimp only
    cases middle edges past (outType edges.length) (fun r => (data[r]?).map conv) rest b c <;> rfl
  have hlowle : ∀ r ∈ low, FT.f64.key (v r) ≤ FT.f64.key top := by
    intro r hr
    have := hlowlt r hr
    omega
  rcases hmiddle with ⟨q1, ⟨x, hx, hxl⟩, q3⟩ | ⟨q0, ws, q1, q2, q3⟩
  · refine .inl ⟨q1, ⟨x, hrestmem x hx, hxl⟩, ?_⟩
    unfold binsToCutsSorted
    rw [hn, hcut, q3]
    rfl
  · refine .inr ⟨?_, ?_⟩
    · rcases q0 with q0 | q0
      · exact .inl q0
      · refine .inr fun r hr => ?_
        rw [hsplit, List.mem_append] at hr
        rcases hr with hr | hr
        · exact hlowle r hr
        · exact q0 r hr
    · generalize hW : (index.take neg).map (fun r => (r, (0 : Int))) ++ back.reverse.map (·, 0) ++ low.map (·, 1) ++ ws = W at hcut
      rw [q1, Option.map_some, hW] at hcut
      have hfst : W.map Prod.fst = index.take neg ++ back.reverse ++ low ++ rest := by
        rw [← hW]
        simp [Function.comp_def, q2]
      have hWperm : (W.map Prod.fst).Perm index := by
        have e1 : (index.take neg ++ back.reverse ++ low ++ rest).Perm (index.take neg ++ (mid ++ back)) := by
          rw [List.append_assoc, List.append_assoc, ← hsplit]
          exact List.Perm.append_left _ ((List.Perm.append_right _ (List.reverse_perm _)).trans List.perm_append_comm)
        rw [hfst]
        exact e1.trans (List.Perm.of_eq hdec.symm)
      have hWnd : (W.map Prod.fst).Nodup := hWperm.nodup_iff.mpr hnodup
      have hinj : ∀ w ∈ W, ∀ w' ∈ W, w.1 = w'.1 → w.2 = w'.2 := by
        intro w hw w' hw' h
        obtain ⟨i, hi⟩ := List.getElem?_of_mem hw
        obtain ⟨j, hj⟩ := List.getElem?_of_mem hw'
        have hi' := (List.getElem?_eq_some_iff.mp hi).1
        have hj' := (List.getElem?_eq_some_iff.mp hj).1
        have g1 := (List.getElem?_eq_some_iff.mp hi).2
        have g2 := (List.getElem?_eq_some_iff.mp hj).2
        rcases Nat.lt_trichotomy i j with hij | hij | hij
        · have := List.pairwise_iff_getElem.mp hWnd i j (by simpa using hi') (by simpa using hj') hij
          simp [g1, g2, h] at this
        · subst hij
          rw [hi] at hj
          cases hj
          rfl
        · have := List.pairwise_iff_getElem.mp hWnd j i (by simpa using hj') (by simpa using hi') hij
          simp [g1, g2, h] at this
      let f : Nat → Int := fun r => ((W.find? (fun w => w.1 == r)).map Prod.snd).getD 0
      have hf : ∀ w ∈ W, w.2 = f w.1 := by
        intro w hw
        show w.2 = ((W.find? (fun w' => w'.1 == w.1)).map Prod.snd).getD 0
        cases hfd : W.find? (fun w' => w'.1 == w.1) with
        | none => exact absurd (List.find?_eq_none.mp hfd w hw) (by simp)
        | some w' =>
          have e1 := List.find?_some hfd
          have e2 := List.mem_of_find?_eq_some hfd
          exact hinj w hw w' e2 (by simpa using (eq_of_beq e1).symm)
      have hrun := runWrites_eq f (n := n) (ws := W) (by
        intro w hw
        exact hin _ (hWperm.mem_iff.mp (List.mem_map.mpr ⟨w, hw, rfl⟩))) hf
      have hall : ∀ i < n, i ∈ W.map Prod.fst := by
        intro i hi
        exact hWperm.mem_iff.mpr (hperm.mem_iff.mpr (List.mem_range.mpr hi))
      have hout : ∀ w ∈ W, ((List.range n).map f)[w.1]? = some w.2 := by
        intro w hw
        have hwn : w.1 < n := hin _ (hWperm.mem_iff.mp (List.mem_map.mpr ⟨w, hw, rfl⟩))
        rw [List.getElem?_map, List.getElem?_range hwn, hf w hw]
        rfl
      refine ⟨(List.range n).map f, ?_, by simp, ?_, ?_⟩
      · unfold binsToCutsSorted
        rw [hn, hcut]
        dsimp only
        rw [hrun, List.map_map]
        congr 1
        refine List.map_congr_left ?_
        intro i hi
        rw [if_pos (hall i (List.mem_range.mp hi))]
        rfl
      · intro r hr
        refine hout (r, 0) ?_
        rw [← hW]
        rw [List.mem_append] at hr
        rcases hr with hr | hr
        · exact List.mem_append_left _ (List.mem_append_left _ (List.mem_append_left _ (List.mem_map.mpr ⟨r, hr, rfl⟩)))
        · exact List.mem_append_left _ (List.mem_append_left _ (List.mem_append_right _ (List.mem_map.mpr ⟨r, List.mem_reverse.mpr hr, rfl⟩)))
      · intro r hr
        rw [hsplit, List.mem_append] at hr
        rcases hr with hr | hr
        · refine ⟨1, hout (r, 1) (by rw [← hW]; simp [hr]), .inl ⟨rfl, e0, top, h0, htop, .inl (hlowlt r hr)⟩⟩
        · rw [← q2] at hr
          obtain ⟨w, hw, rfl⟩ := List.mem_map.mp hr
          exact ⟨w.2, hout w (by rw [← hW]; simp [hw]), q3 w hw⟩

end Riptide.Bins
