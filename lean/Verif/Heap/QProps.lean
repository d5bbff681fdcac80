import Verif.Heap.QWin
import Verif.Heap.QSpec
import Verif.Rolling.Props
/-! C31: the rolling quantile is the quantile of the window. -/
namespace Riptide.Heap
open Spec Rolling
open GroupBy.Spec (validVals)
open Rolling.Spec (groupVals window)
open Pack.Spec (rowsOf)

/-! ## Order statistics -/

theorem sort_pairwise (l : List Int) : l.mergeSort.Pairwise (· ≤ ·) := by
  have := List.pairwise_mergeSort (le := fun a b : Int => decide (a ≤ b)) (by simp; omega) (by simp; omega) l
  exact this.imp (by simp)

theorem sort_unique {l m : List Int} (hp : l.Perm m) (hs : m.Pairwise (· ≤ ·)) : l.mergeSort = m :=
  List.Perm.eq_of_pairwise (fun _ _ _ _ h1 h2 => Int.le_antisymm h1 h2) (sort_pairwise l) hs
    ((List.mergeSort_perm l _).trans hp)

theorem sort_split {A B l : List Int} (hp : l.Perm (A ++ B)) (h : ∀ a ∈ A, ∀ b ∈ B, a ≤ b) :
    l.mergeSort = A.mergeSort ++ B.mergeSort := by
  apply sort_unique
  · exact hp.trans ((List.mergeSort_perm A _).symm.append (List.mergeSort_perm B _).symm)
  · rw [List.pairwise_append]
    exact ⟨sort_pairwise A, sort_pairwise B, fun a ha b hb =>
      h a ((List.mergeSort_perm A _).mem_iff.1 ha) b ((List.mergeSort_perm B _).mem_iff.1 hb)⟩

theorem sort_last {A : List Int} {a : Int} (ha : a ∈ A) (h : ∀ x ∈ A, x ≤ a) :
    A.mergeSort[A.length - 1]? = some a := by
  have hl : A.mergeSort.length = A.length := List.length_mergeSort A
  have hpos := List.length_pos_of_mem ha
  obtain ⟨i, hi⟩ := List.mem_iff_getElem?.1 ((List.mergeSort_perm A _).mem_iff.2 ha)
  obtain ⟨hil, hix⟩ := List.getElem?_eq_some_iff.1 hi
  have hlt : A.length - 1 < A.mergeSort.length := by omega
  rw [List.getElem?_eq_getElem hlt]
  have h1 : A.mergeSort[A.length - 1] ≤ a := h _ ((List.mergeSort_perm A _).mem_iff.1 (List.getElem_mem hlt))
  have h2 : a ≤ A.mergeSort[A.length - 1] := by
    by_cases he : i = A.length - 1
    · subst he; rw [hix]; omega
    · rw [← hix]
      exact List.pairwise_iff_getElem.1 (sort_pairwise A) i (A.length - 1) hil hlt (by omega)
  congr 1
  omega

theorem sort_first {B : List Int} {b : Int} (hb : b ∈ B) (h : ∀ x ∈ B, b ≤ x) : B.mergeSort[0]? = some b := by
  have hl : B.mergeSort.length = B.length := List.length_mergeSort B
  have hpos := List.length_pos_of_mem hb
  obtain ⟨i, hi⟩ := List.mem_iff_getElem?.1 ((List.mergeSort_perm B _).mem_iff.2 hb)
  obtain ⟨hil, hix⟩ := List.getElem?_eq_some_iff.1 hi
  have hlt : 0 < B.mergeSort.length := by omega
  rw [List.getElem?_eq_getElem hlt]
  have h1 : b ≤ B.mergeSort[0] := h _ ((List.mergeSort_perm B _).mem_iff.1 (List.getElem_mem hlt))
  have h2 : B.mergeSort[0] ≤ b := by
    by_cases he : i = 0
    · subst he; rw [hix]; omega
    · rw [← hix]
      exact List.pairwise_iff_getElem.1 (sort_pairwise B) 0 i hlt hil (by omega)
  congr 1
  omega

/-! ## The value returned -/

theorem validVals_map {l : List Nat} {d : Nat → Option Int} (h : ∀ x ∈ l, (d x).isSome) :
    validVals (l.map d) = l.map (keyOf d) := by
  induction l with
  | nil => rfl
  | cons x l ih =>
    have hx := h x List.mem_cons_self
    obtain ⟨k, hk⟩ := Option.isSome_iff_exists.1 hx
    have ih' := ih fun y hy => h y (List.mem_cons_of_mem _ hy)
    unfold validVals at ih' ⊢
    rw [List.map_cons, List.map_cons, List.filterMap_cons_some (show id (d x) = some k from hk), ih']
    congr 1
    unfold keyOf
    rw [hk]; rfl

theorem validVals_none {l : List Nat} {d : Nat → Option Int} (h : ∀ x ∈ l, d x = none) :
    validVals (l.map d) = [] := by
  unfold validVals
  rw [List.filterMap_eq_nil_iff]
  intro a ha
  obtain ⟨x, hx, rfl⟩ := List.mem_map.1 ha
  exact h x hx

theorem quantile_code (q n : Nat) (v : List Int) (hn : v.length = n) (h0 : n ≠ 0) (vals : List (Option Int))
    (hv : ascending vals = v) :
    quantile 1000000 q vals = if quantIntegral q n then .one (v.getD (quantIndex q n) 0)
      else .two (v.getD (quantIndex q n) 0) (v.getD (quantIndex q n + 1) 0) := by
  unfold quantile
  rw [hv]
  dsimp only
  rw [hn]
  rw [if_neg h0, quantIndex_eq]
  unfold quantIntegral fracOf
  generalize (n - 1) * q = p
  by_cases h1 : p % 1000000000 < 1000000
  · have e : (p + 999999) / 1000000000 = p / 1000000000 := by omega
    rw [if_pos (.inr h1), if_pos (by simp [h1]), e]
  · by_cases h2 : 1000000000 - p % 1000000000 < 1000000
    · have e : (p + 999999) / 1000000000 = p / 1000000000 + 1 := by omega
      rw [if_neg (by omega), if_pos h2, if_pos (by simp; omega), e]
    · have e : (p + 999999) / 1000000000 = p / 1000000000 := by omega
      rw [if_neg (by omega), if_neg h2, if_neg (by simp; omega), e]

theorem getQuantile_run {c : Cfg} {s : RQ} {ids : List Nat} (hq : c.q ≤ 1000000000) (h : Win c s ids) :
    getQuantile c s = some (quantile 1000000 c.q (ids.map s.data)) := by
  have hperm : (validVals (ids.map s.data)).Perm (s.maxH.map (keyOf s.data) ++ s.minH.map (keyOf s.data)) := by
    have h1 : (ids.map s.data).Perm (s.all.map s.data) := (h.perm.map _).symm
    have h2 : (validVals (ids.map s.data)).Perm (validVals (s.all.map s.data)) := h1.filterMap _
    refine h2.trans (List.Perm.of_eq ?_)
    have e3 := validVals_none h.core.dnan
    have e1 := validVals_map (l := s.maxH) fun x hx => h.core.dval x (.inl hx)
    have e2 := validVals_map (l := s.minH) fun x hx => h.core.dval x (.inr hx)
    unfold RQ.all
    rw [List.map_append, List.map_append]
    unfold validVals at e1 e2 e3 ⊢
    rw [List.filterMap_append, List.filterMap_append, e1, e2, e3, List.append_nil]
  have hsplit : ∀ a ∈ s.maxH.map (keyOf s.data), ∀ b ∈ s.minH.map (keyOf s.data), a ≤ b := by
    intro a ha b hb
    obtain ⟨x, hx, rfl⟩ := List.mem_map.1 ha
    obtain ⟨y, hy, rfl⟩ := List.mem_map.1 hb
    exact h.core.split x hx y hy
  have hasc : ascending (ids.map s.data) = _ := sort_split hperm hsplit
  have hvd : s.valid = s.minH.length + s.maxH.length := rfl
  have hbal := h.core.bal
  unfold getQuantile
  by_cases h0 : s.valid = 0
  · rw [if_pos (by omega)]
    have e1 : s.maxH = [] := List.length_eq_zero_iff.1 (by omega)
    have e2 : s.minH = [] := List.length_eq_zero_iff.1 (by omega)
    unfold quantile
    rw [hasc, e1, e2]
    simp
  · rw [if_neg (by omega)]
    rw [if_neg h0] at hbal
    have hlen : (ascending (ids.map s.data)).length = s.valid := by
      rw [hasc, List.length_append, List.length_mergeSort, List.length_mergeSort, List.length_map,
        List.length_map]
      omega
    rw [quantile_code c.q s.valid _ hlen h0 _ rfl]
    have hx := List.getElem?_eq_getElem (show 0 < s.maxH.length by omega)
    generalize s.maxH[0]'(by omega) = x at hx
    have hxm : x ∈ s.maxH := List.mem_of_getElem? hx
    have e1 : (ascending (ids.map s.data)).getD (quantIndex c.q s.valid) 0 = keyOf s.data x := by
      rw [List.getD_eq_getElem?_getD, hasc]
      have hl : (s.maxH.map (keyOf s.data)).length - 1 = quantIndex c.q s.valid := by
        rw [List.length_map]; omega
      rw [List.getElem?_append_left (by rw [List.length_mergeSort, List.length_map]; omega), ← hl,
        sort_last (a := keyOf s.data x) (List.mem_map.2 ⟨x, hxm, rfl⟩)]
      · rfl
      · intro y hy
        obtain ⟨z, hz, rfl⟩ := List.mem_map.1 hy
        exact top_extreme (h := ⟨s.maxH, s.pos⟩) h.core.two.gmax.ordered hx z hz
    cases hi : quantIntegral c.q s.valid with
    | true =>
      rw [if_pos rfl, if_pos rfl, hx, e1]
      rfl
    | false =>
      have hlt := quantIndex_split hq hi
      have hy := List.getElem?_eq_getElem (show 0 < s.minH.length by omega)
      generalize s.minH[0]'(by omega) = y at hy
      have hym : y ∈ s.minH := List.mem_of_getElem? hy
      have e2 : (ascending (ids.map s.data)).getD (quantIndex c.q s.valid + 1) 0 = keyOf s.data y := by
        rw [List.getD_eq_getElem?_getD, hasc]
        rw [List.getElem?_append_right (by rw [List.length_mergeSort, List.length_map]; omega)]
        have : quantIndex c.q s.valid + 1 - (s.maxH.map (keyOf s.data)).mergeSort.length = 0 := by
          rw [List.length_mergeSort, List.length_map]; omega
        rw [this, sort_first (b := keyOf s.data y) (List.mem_map.2 ⟨y, hym, rfl⟩)]
        · rfl
        · intro z hz
          obtain ⟨u, hu, rfl⟩ := List.mem_map.1 hz
          have := top_extreme (h := ⟨s.minH, s.pos⟩) h.core.two.gmin.ordered hy u hu
          unfold minOrd at this
          omega
      rw [if_neg (by simp), if_neg (by simp), hx, hy, e1, e2]
      rfl

/-- One update: the structure holds the next window and returns its quantile. -/
theorem update_run {c : Cfg} {s : RQ} {ids : List Nat} (hq : c.q ≤ 1000000000) (hc2 : 2 ≤ c.w)
    (h : Win c s ids) (v : Option Int) :
    ∃ s' ids', Win c s' ids' ∧
      ids'.map s'.data = (if ids.length < c.w then ids.map s.data else (ids.map s.data).drop 1) ++ [v] ∧
      update c s v = some (s', quantile 1000000 c.q (ids'.map s'.data)) := by
  have ht := h.total
  unfold update
  rw [ht]
  by_cases hw : ids.length < c.w
  · obtain ⟨s', e, hW, hd, hv⟩ := updateNotFull_run hq h hw v
    refine ⟨s', ids ++ [ids.length], hW, ?_, ?_⟩
    · rw [if_pos hw, List.map_append]
      congr 1
      · exact List.map_congr_left hd
      · show [s'.data ids.length] = [v]; rw [hv]
    · rw [if_pos hw, e]
      show Option.map _ (getQuantile c s') = _
      rw [getQuantile_run hq hW]; rfl
  · have hwl : ids.length = c.w := by have := h.small; omega
    cases ids with
    | nil => simp at hwl; omega
    | cons x rest =>
      obtain ⟨s', e, hW, hd, hv⟩ := updateFull_run hq hc2 h hwl v
      refine ⟨s', rest ++ [x], hW, ?_, ?_⟩
      · rw [if_neg hw, List.map_append]
        congr 1
        · exact List.map_congr_left hd
        · show [s'.data x] = [v]; rw [hv]
      · rw [if_neg hw, e]
        show Option.map _ (getQuantile c s') = _
        rw [getQuantile_run hq hW]; rfl

theorem win_empty {c : Cfg} {s : RQ} (h1 : s.maxH = []) (h2 : s.minH = []) (h3 : s.nan = [])
    (h4 : s.oldest = none) (h5 : s.newest = none) : Win c s [] := by
  have hall : s.all = [] := by unfold RQ.all; rw [h1, h2, h3]; rfl
  have hno : ∀ {l : List Nat}, l = [] → ∀ x, x ∉ l := by rintro l rfl x hx; cases hx
  refine ⟨⟨⟨?_, ?_, ?_, ?_, ?_⟩, ?_, ?_, ?_, ?_, ?_, ?_⟩, ?_, Nat.zero_le _, fun _ => rfl, h4, h5, ?_⟩
  · rw [h1]; exact ⟨fun i _ hi => absurd hi (by simp), fun i x hi => by simp at hi⟩
  · rw [h2]; exact ⟨fun i _ hi => absurd hi (by simp), fun i x hi => by simp at hi⟩
  · intro x hx; exact absurd hx (hno h1 x)
  · intro x hx; exact absurd hx (hno h1 x)
  · intro x hx; exact absurd hx (hno h2 x)
  · intro x hx; exact absurd hx (hno h1 x)
  · unfold RQ.valid; rw [h1, h2]; rfl
  · rw [hall]; exact List.nodup_nil
  · intro x hx; exact absurd hx (hno h3 x)
  · intro x hx; exact absurd hx (hno h3 x)
  · rintro x (hx | hx)
    · exact absurd hx (hno h1 x)
    · exact absurd hx (hno h2 x)
  · rw [hall]
  · intro i a b ha; simp at ha

theorem clean_run (n : Nat) : ∀ h : HS, h.es.length ≤ n → ∃ h', clean n h = some h' ∧ h'.es = [] := by
  induction n with
  | zero => intro h hl; exact ⟨h, rfl, List.length_eq_zero_iff.1 (by omega)⟩
  | succ n ih =>
    intro h hl
    show ∃ h', (popBack h).bind (clean n) = some h' ∧ _
    unfold popBack
    cases hg : h.es.getLast? with
    | none =>
      rw [List.getLast?_eq_none_iff] at hg
      exact ih h (by rw [hg]; simp)
    | some x =>
      exact ih ⟨h.es.dropLast, setPos h.pos x none⟩ (by
        show h.es.dropLast.length ≤ n
        rw [List.length_dropLast]; omega)

theorem cleanAll_run (c : Cfg) (s : RQ) : ∃ s', cleanAll s = some s' ∧ Win c s' [] := by
  obtain ⟨h1, e1, hn1⟩ := clean_run s.maxH.length ⟨s.maxH, s.pos⟩ (Nat.le_refl _)
  obtain ⟨h2, e2, hn2⟩ := clean_run s.minH.length ⟨s.minH, h1.pos⟩ (Nat.le_refl _)
  refine ⟨{ s with maxH := h1.es, minH := h2.es, pos := h2.pos, nan := [], loc := fun y => if y ∈ s.nan then .out else s.loc y, oldest := none, newest := none },
    ?_, win_empty hn1 hn2 rfl rfl rfl⟩
  unfold cleanAll
  rw [e1]
  show Option.map _ (clean _ _) = _
  rw [e2]; rfl

/-! ## The kernel -/

theorem upTo_snoc (lo m : Nat) :
    upTo (lo : Int) ((lo + (m + 1) : Nat) : Int) = upTo (lo : Int) ((lo + m : Nat) : Int) ++ [((lo + m : Nat) : Int)] := by
  unfold upTo
  have e1 : (((lo + (m + 1) : Nat) : Int) - (lo : Int)).toNat = m + 1 := by omega
  have e2 : (((lo + m : Nat) : Int) - (lo : Int)).toNat = m := by omega
  rw [e1, e2, List.range_succ, List.map_append]
  rfl

/-- A kernel that hands a state from bin to bin. -/
theorem foldBins_run {S U : Type} {f : S × List (Int × U) → Int → Option (S × List (Int × U))} (J : S → Prop)
    {lo : Nat} {M : Nat → List (Int × U) → Prop} (m : Nat)
    (h : ∀ b s ws, lo ≤ b → b < lo + m → J s → ∃ s' l, f (s, ws) (b : Int) = some (s', ws ++ l) ∧ J s' ∧ M b l)
    (s : S) (hs : J s) (ws : List (Int × U)) :
    ∃ (s' : S) (L : Nat → List (Int × U)), (upTo (lo : Int) ((lo + m : Nat) : Int)).foldlM f (s, ws) =
        some (s', ws ++ ((upTo (lo : Int) ((lo + m : Nat) : Int)).map fun i => L i.toNat).flatten) ∧ J s' ∧
      ∀ b, lo ≤ b → b < lo + m → M b (L b) := by
  induction m with
  | zero =>
    refine ⟨s, fun _ => [], ?_, hs, fun b h1 h2 => by omega⟩
    rw [upTo_nil (by omega)]
    simp
  | succ m ih =>
    obtain ⟨s1, L, e, hJ, hL⟩ := ih fun b s ws h1 h2 => h b s ws h1 (by omega)
    obtain ⟨s2, l, e2, hJ2, hM⟩ := h (lo + m) s1
      (ws ++ ((upTo (lo : Int) ((lo + m : Nat) : Int)).map fun i => L i.toNat).flatten) (by omega) (by omega) hJ
    refine ⟨s2, fun b => if b = lo + m then l else L b, ?_, hJ2, fun b h1 h2 => ?_⟩
    · rw [upTo_snoc, List.foldlM_append, e]
      show List.foldlM f _ [((lo + m : Nat) : Int)] = _
      rw [List.foldlM_cons, e2]
      show some _ = some _
      rw [List.map_append, List.flatten_append, List.append_assoc]
      congr 4
      · refine congrArg List.flatten (List.map_congr_left fun i hi => ?_)
        unfold upTo at hi
        obtain ⟨k, hk, rfl⟩ := List.mem_map.1 hi
        have hk : k < (((lo + m : Nat) : Int) - (lo : Int)).toNat := by simpa using hk
        exact (if_neg (by omega)).symm
      · show l = List.flatten [if (((lo + m : Nat) : Int)).toNat = lo + m then l else _]
        rw [if_pos (Int.toNat_natCast _)]
        simp
    · show M b (if b = lo + m then l else L b)
      by_cases hb : b = lo + m
      · rw [if_pos hb, hb]; exact hM
      · rw [if_neg hb]; exact hL b h1 (by omega)

theorem window_next {T : Type} {vals : List T} {w k : Nat} {x : T} (hw : 0 < w) (hx : vals[k]? = some x) :
    window vals w k = (if k < w then (vals.take k).drop (k - w) else ((vals.take k).drop (k - w)).drop 1) ++ [x] := by
  by_cases hk : k < w
  · rw [if_pos hk]; exact (window_prime hk hx).2
  · rw [if_neg hk]
    obtain ⟨y, -, e, -⟩ := window_slide (w := w) (by omega) hx
    have := congrArg (List.drop 1) e
    rw [List.drop_append_of_le_length] at this
    · exact this.symm
    · have := (List.getElem?_eq_some_iff.1 hx).1
      rw [List.length_drop, List.length_take]
      omega

theorem window_one {T : Type} {vals : List T} {k : Nat} {x : T} (hx : vals[k]? = some x) :
    window vals 1 k = [x] := by
  have hl := (List.getElem?_eq_some_iff.1 hx).1
  unfold window
  rw [show k + 1 - 1 = k by omega, List.take_add_one, hx, List.drop_append_of_le_length (by
    rw [List.length_take]; omega)]
  rw [List.drop_eq_nil_of_le (by rw [List.length_take]; omega)]
  rfl

theorem quantile_one (tol q : Nat) (v : Option Int) :
    quantile tol q [v] = match v with | none => .inv | some k => .one k := by
  cases v with
  | none => simp [quantile, ascending, validVals]
  | some k => simp [quantile, ascending, validVals]

/-- The state after `k` rows of a group whose window is `w`. -/
def After (c : Cfg) (vals : List (Option Int)) (k : Nat) (s : RQ) : Prop :=
  ∃ ids, Win c s ids ∧ ids.map s.data = (vals.take k).drop (k - c.w)

theorem quantBin_run {c : Cfg} {keys : List Int} {src : List (Option Int)} {bins : Nat} {P : Packed}
    (hG : Grouped keys bins P 0) (hl : src.length = keys.length) (hq : c.q ≤ 1000000000) (hw : 1 ≤ c.w)
    {b : Nat} (hb : b < bins) (s : RQ) (hs : Win c s []) (ws : List (Int × Res)) :
    ∃ s' l, quantBin P (if (c.w : Int) = 1 then copyStep src else quantStep c src) (s, ws) (b : Int) =
        some (s', ws ++ l) ∧ Win c s' [] ∧
      BinWrites (rowsOf keys b) (fun k => quantile 1000000 c.q (window (groupVals keys src b) c.w k)) l := by
  obtain ⟨f, hB, -⟩ := grouped_fits hG hb
  obtain ⟨hlen, hval⟩ := groupVals_eq (src := src) hl b
  generalize hvals : groupVals keys src b = vals at *
  have hx : ∀ (k r : Nat), (rowsOf keys b)[k]? = some r → ∃ x, rdS src (r : Int) = some x ∧ vals[k]? = some x := by
    intro k r hr
    have hlt : r < src.length := by have := rowsOf_lt hr; omega
    refine ⟨src[r], ?_, ?_⟩
    · rw [rdS_nat, List.getElem?_eq_getElem hlt]
    · rw [hval k r hr, List.getElem?_eq_getElem hlt]
  have hloop : ∃ s' l, emitLoop P (if (c.w : Int) = 1 then copyStep src else quantStep c src)
      (upTo f (f + ((rowsOf keys b).length : Nat))) (s, ws) = some (s', ws ++ l) ∧
      BinWrites (rowsOf keys b) (fun k => quantile 1000000 c.q (window vals c.w k)) l := by
    have fin : ∀ (l : List (Int × Res)), (∀ x, x ∈ l ↔ ∃ k r, 0 ≤ k ∧ k < (rowsOf keys b).length ∧
        (rowsOf keys b)[k]? = some r ∧ x = ((r : Int), quantile 1000000 c.q (window vals c.w k))) →
        BinWrites (rowsOf keys b) (fun k => quantile 1000000 c.q (window vals c.w k)) l := by
      intro l hm x
      rw [hm]
      constructor
      · rintro ⟨k, r, _, _, hr, e⟩; exact ⟨k, r, hr, e⟩
      · rintro ⟨k, r, hr, e⟩
        exact ⟨k, r, by omega, (List.getElem?_eq_some_iff.1 hr).1, hr, e⟩
    have e0 : f + ((0 : Nat) : Int) = f := by omega
    by_cases h1 : c.w = 1
    · rw [if_pos (by omega)]
      obtain ⟨s1, l1, e1, _, m1⟩ := emitLoop_up (g := copyStep src) hB (fun _ _ => True)
        (fun k => quantile 1000000 c.q (window vals c.w k)) 0 (rowsOf keys b).length (by omega) (by omega)
        (fun k _ hk s r hr _ => by
          obtain ⟨x, hx1, hx2⟩ := hx k r hr
          refine ⟨s, ?_, trivial⟩
          unfold copyStep
          rw [hx1, h1, window_one hx2, quantile_one]
          rfl) s ws trivial
      rw [e0] at e1
      exact ⟨s1, l1, e1, fin l1 m1⟩
    · rw [if_neg (by omega)]
      obtain ⟨s1, l1, e1, _, m1⟩ := emitLoop_up (g := quantStep c src) hB (fun k s => After c vals k s)
        (fun k => quantile 1000000 c.q (window vals c.w k)) 0 (rowsOf keys b).length (by omega) (by omega)
        (fun k _ hk s r hr hA => by
          obtain ⟨x, hx1, hx2⟩ := hx k r hr
          obtain ⟨ids, hW, hids⟩ := hA
          obtain ⟨s', ids', hW', e1, e2⟩ := update_run hq (by omega) hW x
          have hkv := (List.getElem?_eq_some_iff.1 hx2).1
          have hil : ids.length = min k c.w := by
            have := congrArg List.length hids
            rw [List.length_map, List.length_drop, List.length_take] at this
            omega
          have hwin : ids'.map s'.data = window vals c.w k := by
            rw [e1, window_next (by omega) hx2, hids]
            by_cases hkw : k < c.w
            · rw [if_pos (by omega), if_pos hkw]
            · rw [if_neg (by omega), if_neg hkw]
          refine ⟨s', ?_, ids', hW', hwin⟩
          unfold quantStep
          rw [hx1]
          show update c s x = _
          rw [e2, hwin]) s ws ⟨[], hs, by simp⟩
      rw [e0] at e1
      exact ⟨s1, l1, e1, fin l1 m1⟩
  obtain ⟨s1, l, e, hm⟩ := hloop
  obtain ⟨s2, e2, hW2⟩ := cleanAll_run c s1
  refine ⟨s2, l, ?_, hW2, hm⟩
  unfold quantBin
  rw [hB.first, hB.count]
  simp only [Option.bind_some]
  rw [e]
  show Option.map _ (cleanAll s1) = _
  rw [e2]; rfl

/-- Every row of a group gets the quantile of the last `w` rows of the group, up to the tolerance of
1e-3 of a position; the rows of bin 0 are invalid.  Exact arithmetic in place of `long double`. -/
theorem accumQuantile_run {keys : List Int} {src : List (Option Int)} {bins : Nat} {P : Packed}
    (hG : Grouped keys bins P 0) (hl : src.length = keys.length) {q w : Nat} (hq : q ≤ 1000000000)
    (hw : 1 ≤ w) (s0 : RQ) :
    ∃ out, accumQuantile s0 src P ((q : Int) + w * 1000000001) 0 bins = some out ∧ out.length = keys.length ∧
      (∀ b k r, b < bins → (rowsOf keys b)[k]? = some r → out[r]? = some (some (if b = 0 then .inv else
        quantile 1000000 q (window (groupVals keys src b) w k)))) ∧
      ∀ r, r < keys.length → ∃ v, out[r]? = some (some v) := by
  have eq : (((q : Int) + w * 1000000001).tmod 1000000001).toNat = q := by
    rw [Int.tmod_eq_emod_of_nonneg (by omega)]; omega
  have ew : ((q : Int) + w * 1000000001).tdiv 1000000001 = w := by
    rw [Int.tdiv_eq_ediv_of_nonneg (by omega)]; omega
  obtain ⟨m, rfl⟩ : ∃ m, bins = 1 + m := ⟨bins - 1, by have := hG.pos; omega⟩
  obtain ⟨f0, hB0⟩ := binAt_of_slices hG.slices hG.pos
  obtain ⟨l0, e0, m0⟩ := zeroBin_run hB0 Res.inv
  obtain ⟨s', L, e, -, hL⟩ := foldBins_run (f := quantBin P (if (w : Int) = 1 then copyStep src else quantStep ⟨w, q⟩ src))
    (lo := 1) (fun s => Win ⟨w, q⟩ s [])
    (M := fun b l => BinWrites (rowsOf keys b) (fun k => quantile 1000000 q (window (groupVals keys src b) w k)) l) m
    (fun b s ws h1 h2 hs => quantBin_run (c := ⟨w, q⟩) hG hl hq hw h2 s hs ws)
    (fresh s0) (win_empty rfl rfl rfl rfl rfl) l0
  obtain ⟨ws, er, out, ho, h1, h2, h3⟩ := rolling_run hG.pos hG.slices hG.keysIn Res.inv (fun i => some (L i.toNat))
    (fun b k => quantile 1000000 q (window (groupVals keys src b) w k)) fun b hb1 hb2 =>
      ⟨L b, by rw [Int.toNat_natCast], hL b hb1 hb2⟩
  refine ⟨out, ?_, h1, h2, h3⟩
  unfold accumQuantile
  rw [eq, ew]
  simp only [if_pos]
  rw [e0]
  simp only [Option.bind_some]
  rw [if_neg (by omega), Int.toNat_natCast]
  have e' : List.foldlM (quantBin P (if (w : Int) = 1 then copyStep src else quantStep ⟨w, q⟩ src)) (fresh s0, l0)
      (upTo 1 ((1 + m : Nat) : Int)) = _ := e
  rw [e']
  have hws : ws = l0 ++ ((upTo (1 : Int) ((1 + m : Nat) : Int)).map fun i => L i.toNat).flatten := by
    unfold rolling at er
    rw [if_pos rfl, e0] at er
    simp only [Option.bind_some] at er
    unfold overBins at er
    rw [mapM_some (fun i : Int => some (L i.toNat)) (fun i : Int => L i.toNat) _ (fun _ _ => rfl)] at er
    exact (Option.some.inj er).symm
  show store src.length _ = _
  rw [hl]
  rw [hws] at ho
  exact ho

/-- C31 up to the tolerance: if no position `(n - 1) * q` with `n ≤ w` lies within 1e-3 of a whole one
without being whole, the result is the exact quantile of the window. -/
theorem accumQuantile_exact_partial {keys : List Int} {src : List (Option Int)} {bins : Nat} {P : Packed}
    (hG : Grouped keys bins P 0) (hl : src.length = keys.length) {q w : Nat} (hq : q ≤ 1000000000)
    (hw : 1 ≤ w) (s0 : RQ)
    (hfar : ∀ m, m < w → m * q % 1000000000 = 0 ∨
      (1000000 ≤ m * q % 1000000000 ∧ m * q % 1000000000 ≤ 999000000)) :
    ∃ out, accumQuantile s0 src P ((q : Int) + w * 1000000001) 0 bins = some out ∧ out.length = keys.length ∧
      ∀ b k r, b < bins → (rowsOf keys b)[k]? = some r → out[r]? = some (some (if b = 0 then .inv else
        quantile 0 q (window (groupVals keys src b) w k))) := by
  obtain ⟨out, e, h1, h2, -⟩ := accumQuantile_run hG hl hq hw s0
  refine ⟨out, e, h1, fun b k r hb hr => ?_⟩
  rw [h2 b k r hb hr]
  by_cases hb0 : b = 0
  · rw [if_pos hb0, if_pos hb0]
  · rw [if_neg hb0, if_neg hb0]
    congr 2
    have hlen : (ascending (window (groupVals keys src b) w k)).length ≤ w := by
      unfold ascending
      rw [List.length_mergeSort]
      refine Nat.le_trans (List.length_filterMap_le _ _) ?_
      unfold window
      rw [List.length_drop, List.length_take]
      omega
    unfold quantile
    dsimp only
    generalize ascending (window (groupVals keys src b) w k) = v at *
    by_cases hv : v.length = 0
    · rw [if_pos hv, if_pos hv]
    · rw [if_neg hv, if_neg hv]
      have hf := hfar (v.length - 1) (by omega)
      generalize (v.length - 1) * q = p at *
      by_cases hz : p % 1000000000 = 0
      · rw [if_pos (.inl hz), if_pos (.inl hz)]
      · rw [if_neg (by omega), if_neg (by omega), if_neg (by omega), if_neg (by omega)]

/-- A median and a quartile satisfy the hypothesis. -/
example : ∀ m, m < 1000 → m * 250000000 % 1000000000 = 0 ∨
    (1000000 ≤ m * 250000000 % 1000000000 ∧ m * 250000000 % 1000000000 ≤ 999000000) := by
  intro m _; omega

/-- The other hypotheses are met, and with them a result: window 2, median. -/
example (s0 : RQ) : ∃ out, accumQuantile s0 [some 5, none, some 1, some 9] exPacked
    (((500000000 : Nat) : Int) + (2 : Nat) * 1000000001) 0 (3 : Nat) = some out ∧ out.length = 4 := by
  have hG : Grouped [1, 2, 1, 1] 3 exPacked 0 :=
    ⟨exPacked_grouped.vt, exPacked_grouped.pos, exPacked_grouped.keysIn, exPacked_grouped.len,
      exPacked_grouped.slices, exPacked_grouped.starts, by decide⟩
  obtain ⟨out, e, h, _⟩ := accumQuantile_run (keys := [1, 2, 1, 1]) (src := [some 5, none, some 1, some 9]) hG rfl
    (q := 500000000) (w := 2) (by omega) (by omega) s0
  exact ⟨out, e, h⟩

/-- C31 is false as it stands: the 0.0005-quantile of 0 and 1000 is not 0. -/
theorem quantile_tolerance :
    quantile 1000000 500000 [some 0, some 1000] = .one 0 ∧
    quantile 0 500000 [some 0, some 1000] = .two 0 1000 := by
  have e : ascending [some 0, some 1000] = [0, 1000] :=
    sort_unique (.refl _) (by simp)
  unfold quantile
  rw [e]
  decide

/-- A window of 0 or less writes no row outside bin 0. -/
theorem accumQuantile_nonpositive (s0 : RQ) (src : List (Option Int)) (P : Packed) (param : Int)
    (h : param.tdiv 1000000001 ≤ 0) (lo hi : Int) (hlo : lo ≠ 0) :
    accumQuantile s0 src P param lo hi = store src.length [] := by
  unfold accumQuantile
  simp only [if_neg hlo, Option.bind_some, if_pos h]

/-! ## The midpoint of integer columns -/

/-- Twice the midpoint, when the sum fits the type. -/
theorem splitSum_partial (t : IT) (a b : Int) (hb : 0 < t.bits) (h : t.lo ≤ a + b ∧ a + b ≤ t.hi) :
    splitSum t a b = some (a + b) := by
  unfold splitSum
  split
  · rfl
  · by_cases hs : t.signed
    · rw [if_pos hs]
    · rw [if_neg hs, IT.wrap_of_inRange t hb h]

example : splitSum .i32 1000000000 1000000000 = some 2000000000 := by decide

/-- Types of at most 16 bits cannot overflow. -/
theorem splitSum_narrow (t : IT) (a b : Int) (h : t.bits < 32) : splitSum t a b = some (a + b) := if_pos h

/-- The midpoint of two int32 values is undefined behaviour when their sum overflows, and wrong for
uint32. -/
theorem splitSum_overflow : splitSum .i32 2000000000 2000000000 = none ∧
    splitSum .u32 3000000000 3000000000 = some 1705032704 := by decide

end Riptide.Heap
