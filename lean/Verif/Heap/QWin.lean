import Verif.Heap.QCore
import Verif.Rolling.Lemmas
/-! The structure holds the last elements, in order. -/
namespace Riptide.Heap

/-- The structure holds the elements `ids`, oldest first. -/
structure Win (c : Cfg) (s : RQ) (ids : List Nat) : Prop where
  core : Core c s.data s
  perm : s.all.Perm ids
  small : ids.length ≤ c.w
  range : ids.length < c.w → ids = List.range ids.length
  oldest : s.oldest = ids[0]?
  newest : s.newest = ids.getLast?
  chain : ∀ (i a b : Nat), ids[i]? = some a → ids[i + 1]? = some b → s.next a = some b

theorem Win.nodup {c : Cfg} {s : RQ} {ids : List Nat} (h : Win c s ids) : ids.Nodup :=
  h.perm.nodup_iff.1 h.core.nodup

theorem all_length (s : RQ) : s.all.length = s.total := by
  unfold RQ.all RQ.total RQ.valid
  rw [List.length_append, List.length_append]
  omega

theorem Win.total {c : Cfg} {s : RQ} {ids : List Nat} (h : Win c s ids) : s.total = ids.length := by
  rw [← all_length, h.perm.length_eq]

theorem getLast?_get {l : List Nat} {x : Nat} (h : l.getLast? = some x) : l[l.length - 1]? = some x := by
  rw [← h, List.getLast?_eq_getElem?]

/-- Reading does not depend on data outside the structure. -/
theorem Core.congr {c : Cfg} {d d' : Nat → Option Int} {s s' : RQ} (h : Core c d s)
    (hd : ∀ y ∈ s.all, d' y = d y) (hmax : s'.maxH = s.maxH) (hmin : s'.minH = s.minH) (hnan : s'.nan = s.nan)
    (hpos : ∀ y ∈ s.all, s'.pos y = s.pos y) (hloc : ∀ y ∈ s.all, s'.loc y = s.loc y) : Core c d' s' := by
  have hall : s'.all = s.all := by unfold RQ.all; rw [hmax, hmin, hnan]
  have hv : s'.valid = s.valid := by unfold RQ.valid; rw [hmax, hmin]
  have m1 : ∀ y ∈ s.maxH, y ∈ s.all := fun y hy => mem_all.2 (.inl hy)
  have m2 : ∀ y ∈ s.minH, y ∈ s.all := fun y hy => mem_all.2 (.inr (.inl hy))
  have m3 : ∀ y ∈ s.nan, y ∈ s.all := fun y hy => mem_all.2 (.inr (.inr hy))
  have ht := two_congr h.two (d' := d') fun y hy => hy.elim (fun hy => hd y (m1 y hy)) fun hy => hd y (m2 y hy)
  refine ⟨⟨?_, ?_, ?_, ?_, ?_⟩, ?_, ?_, ?_, ?_, ?_, ?_⟩
  · rw [hmax]; exact good_frame ht.gmax fun y hy => hpos y (m1 y hy)
  · rw [hmin]; exact good_frame ht.gmin fun y hy => hpos y (m2 y hy)
  · rw [hmax, hmin]; exact ht.disj
  · rw [hmax]; intro y hy; rw [hloc y (m1 y hy)]; exact ht.lmax y hy
  · rw [hmin]; intro y hy; rw [hloc y (m2 y hy)]; exact ht.lmin y hy
  · intro a ha b hb
    rw [hmax] at ha; rw [hmin] at hb
    unfold keyOf
    rw [hd a (m1 a ha), hd b (m2 b hb)]
    exact h.split a ha b hb
  · rw [hv, hmax]; exact h.bal
  · rw [hall]; exact h.nodup
  · rw [hnan]; intro y hy; rw [hloc y (m3 y hy)]; exact h.lnan y hy
  · rw [hnan]; intro y hy; rw [hd y (m3 y hy)]; exact h.dnan y hy
  · rw [hmax, hmin]; intro y hy
    rw [hd y (hy.elim (m1 y) (m2 y))]; exact h.dval y hy

theorem pushNan_core {c : Cfg} {s : RQ} {x : Nat} (h : Core c s.data s) (hx : x ∉ s.all)
    (hd : s.data x = none) : Core c s.data (pushNan x s) ∧ (pushNan x s).all.Perm (x :: s.all) := by
  have hp : (pushNan x s).all.Perm (x :: s.all) := by
    show (s.maxH ++ s.minH ++ (s.nan ++ [x])).Perm (x :: (s.maxH ++ s.minH ++ s.nan))
    rw [← List.append_assoc]
    exact List.perm_append_comm
  have hne : ∀ y ∈ s.all, (pushNan x s).loc y = s.loc y := fun y hy =>
    setLoc_ne (by rintro rfl; exact hx hy)
  refine ⟨⟨⟨h.two.gmax, h.two.gmin, h.two.disj, fun y hy => ?_, fun y hy => ?_⟩, h.split, h.bal,
    hp.nodup_iff.2 (List.nodup_cons.2 ⟨hx, h.nodup⟩), fun y hy => ?_, fun y hy => ?_, h.dval⟩, hp⟩
  · rw [hne y (mem_all.2 (.inl hy))]; exact h.two.lmax y hy
  · rw [hne y (mem_all.2 (.inr (.inl hy)))]; exact h.two.lmin y hy
  · replace hy : y ∈ s.nan ++ [x] := hy
    rw [List.mem_append, List.mem_singleton] at hy
    rcases hy with hy | rfl
    · rw [hne y (mem_all.2 (.inr (.inr hy)))]; exact h.lnan y hy
    · exact setLoc_eq
  · replace hy : y ∈ s.nan ++ [x] := hy
    rw [List.mem_append, List.mem_singleton] at hy
    rcases hy with hy | rfl
    · exact h.dnan y hy
    · exact hd

theorem updateNotFull_run {c : Cfg} {s : RQ} {ids : List Nat} (hq : c.q ≤ 1000000000) (h : Win c s ids)
    (hw : ids.length < c.w) (v : Option Int) :
    ∃ s', updateNotFull c s v = some s' ∧ Win c s' (ids ++ [ids.length]) ∧
      (∀ y ∈ ids, s'.data y = s.data y) ∧ s'.data ids.length = v := by
  have hr := h.range hw
  have ht := h.total
  have hxi : ids.length ∉ ids := by
    intro hh; rw [hr] at hh; simp at hh
  have hxa : ids.length ∉ s.all := fun hh => hxi (h.perm.mem_iff.1 hh)
  unfold updateNotFull
  rw [ht]
  generalize hm : ids.length = m at *
  let s1 : RQ := { freshAt s m v with
    oldest := if m = 0 then some m else s.oldest
    next := if m = 0 then setNext s.next m none else setNext (setNext s.next m none) (m - 1) (some m)
    newest := some m }
  have hlink : linkNew (freshAt s m v) (m == 0) m = some s1 := by
    unfold linkNew
    by_cases h0 : m = 0
    · subst h0
      rfl
    · rw [if_neg (by simpa using h0)]
      have hn : (freshAt s m v).newest = some (m - 1) := by
        show s.newest = _
        rw [h.newest, hr, List.getLast?_range, if_neg h0]
      rw [hn]
      show some _ = some s1
      simp only [s1, if_neg h0]
      rfl
  rw [hlink]
  have hsd : s1.data = fun y => if y = m then v else s.data y := rfl
  have hne : ∀ y ∈ s.all, y ≠ m := by rintro y hy rfl; exact hxa hy
  have hcore : Core c s1.data s1 := h.core.congr (fun y hy => if_neg (hne y hy)) rfl rfl rfl
    (fun y hy => if_neg (hne y hy)) (fun y hy => if_neg (hne y hy))
  have hx1 : m ∉ s1.all := hxa
  have hv1 : s1.data m = v := if_pos rfl
  have hvalid : s1.valid < c.w := by
    have : s.total = s.valid + s.nan.length := rfl
    show s.valid < c.w
    omega
  have hfin : ∃ s', (if v.isSome then pushCorrect c m s1 else some (pushNan m s1)) = some s' ∧
      Core c s1.data s' ∧ s'.all.Perm (m :: s.all) ∧ Ends s1 s' := by
    cases v with
    | none =>
      obtain ⟨h1, h2⟩ := pushNan_core hcore hx1 hv1
      exact ⟨_, rfl, h1, h2, rfl, rfl, rfl, rfl⟩
    | some k =>
      exact pushCorrect_run hq hcore hx1 (by rw [hv1]; rfl) hvalid
  obtain ⟨s', e, hc, hp, he⟩ := hfin
  refine ⟨s', e, ⟨he.data ▸ hc, ?_, ?_, fun _ => ?_, ?_, ?_, ?_⟩, ?_, ?_⟩
  · exact (hp.trans (List.Perm.cons m h.perm)).trans (List.perm_append_comm (l₁ := [m]))
  · rw [List.length_append, hm]; exact hw
  · rw [List.length_append, hm]
    show _ = List.range (m + 1)
    rw [List.range_succ, ← hr]
  · rw [he.oldest]
    show (if m = 0 then some m else s.oldest) = _
    by_cases h0 : m = 0
    · rw [if_pos h0]
      have : ids = [] := by rw [hr, h0]; rfl
      rw [this]; rfl
    · rw [if_neg h0, h.oldest, List.getElem?_append_left (by omega)]
  · rw [he.newest]
    show some m = _
    rw [List.getLast?_concat]
  · intro i a b ha hb
    rw [he.next]
    show (if m = 0 then setNext s.next m none else setNext (setNext s.next m none) (m - 1) (some m)) a = some b
    have hbl := (List.getElem?_eq_some_iff.1 hb).1
    rw [List.length_append, hm, List.length_singleton] at hbl
    have hids : ∀ i, i < m → ids[i]? = some i := fun i hi => by
      rw [hr, List.getElem?_range hi]
    rw [List.getElem?_append_left (by omega), hids i (by omega)] at ha
    cases ha
    rw [if_neg (by omega)]
    unfold setNext
    by_cases hi : i = m - 1
    · rw [if_pos hi]
      rw [List.getElem?_append_right (by omega), hm, show i + 1 - m = 0 by omega] at hb
      exact hb
    · rw [if_neg hi, if_neg (by omega)]
      rw [List.getElem?_append_left (by omega)] at hb
      exact h.chain i i b (hids i (by omega)) hb
  · intro y hy
    rw [he.data]
    exact if_neg (by rintro rfl; exact hxi hy)
  · rw [he.data]; exact hv1

theorem updateFull_run {c : Cfg} {s : RQ} {x : Nat} {rest : List Nat} (hq : c.q ≤ 1000000000)
    (hc2 : 2 ≤ c.w) (h : Win c s (x :: rest)) (hw : (x :: rest).length = c.w) (v : Option Int) :
    ∃ s', updateFull c s v = some s' ∧ Win c s' (rest ++ [x]) ∧
      (∀ y ∈ rest, s'.data y = s.data y) ∧ s'.data x = v := by
  have hnd := List.nodup_cons.1 h.nodup
  have hrl : 0 < rest.length := by rw [List.length_cons] at hw; omega
  have hold : s.oldest = some x := h.oldest
  obtain ⟨m, hm⟩ : ∃ m, rest.getLast? = some m := by
    cases hg : rest.getLast? with
    | none => rw [List.getLast?_eq_none_iff] at hg; rw [hg] at hrl; simp at hrl
    | some m => exact ⟨m, rfl⟩
  have hnew : s.newest = some m := by
    rw [h.newest, List.getLast?_cons, hm]; rfl
  have hmr : m ∈ rest := List.mem_of_getLast? hm
  have hmx : m ≠ x := by rintro rfl; exact hnd.1 hmr
  have hml : rest[rest.length - 1]? = some m := getLast?_get hm
  have hnext0 : s.next x = rest[0]? := by
    rw [List.getElem?_eq_getElem hrl]
    exact h.chain 0 x rest[0] rfl (by simp)
  let s1 : RQ := { s with
    data := fun y => if y = x then v else s.data y
    oldest := s.next x
    next := setNext s.next m (some x)
    newest := some x }
  have hrot : rotate s x v = some s1 := by
    unfold rotate; rw [hnew]; rfl
  unfold updateFull
  rw [hold]
  show ∃ s', ((rotate s x v).bind _) = some s' ∧ _
  rw [hrot]
  have hd : ∀ y, y ≠ x → s1.data y = s.data y := fun y hy => if_neg hy
  have hdx : s1.data x = v := if_pos rfl
  have hcore : Core c s.data s1 := h.core.congr (fun _ _ => rfl) rfl rfl rfl (fun _ _ => rfl) (fun _ _ => rfl)
  have hxa : x ∈ s.all := h.perm.mem_iff.2 List.mem_cons_self
  have htot : s.valid + s.nan.length = c.w := by
    have := h.total
    rw [hw] at this
    exact this
  have hfin : ∃ s', (if s.loc x ≠ .inNan then
        if v.isSome then (changeIn x s1).bind swapHeads
        else (eraseIn x s1).bind fun s2 => rebalance c (pushNan x s2)
      else if v.isSome then pushCorrect c x (eraseNan x s1)
      else some s1) = some s' ∧ Core c s1.data s' ∧ s'.all.Perm s.all ∧ Ends s1 s' := by
    rcases mem_all.1 hxa with hx | hx | hx
    · have hl : s.loc x = .inMax := h.core.two.lmax x hx
      rw [if_pos (by rw [hl]; decide)]
      cases v with
      | none => exact toNan_run hq hcore hd (.inl hx) hdx (by show s.valid ≤ c.w; omega)
      | some k => exact change_run hcore hd (.inl hx) (by rw [hdx]; rfl)
    · have hl : s.loc x = .inMin := h.core.two.lmin x hx
      rw [if_pos (by rw [hl]; decide)]
      cases v with
      | none => exact toNan_run hq hcore hd (.inr hx) hdx (by show s.valid ≤ c.w; omega)
      | some k => exact change_run hcore hd (.inr hx) (by rw [hdx]; rfl)
    · have hl : s.loc x = .inNan := h.core.lnan x hx
      rw [if_neg (by rw [hl]; decide)]
      have := List.length_pos_of_mem hx
      cases v with
      | none =>
        refine ⟨s1, rfl, ?_, .refl _, rfl, rfl, rfl, rfl⟩
        refine hcore.congr (fun y _ => ?_) rfl rfl rfl (fun _ _ => rfl) (fun _ _ => rfl)
        by_cases hy : y = x
        · subst hy
          rw [hdx]; exact (h.core.dnan _ hx).symm
        · exact hd y hy
      | some k => exact fromNan_run hq hcore hd hx (by rw [hdx]; rfl) (by show s.valid < c.w; omega)
  obtain ⟨s', e, hc, hp, he⟩ := hfin
  refine ⟨s', e, ⟨he.data ▸ hc, ?_, ?_, fun hh => ?_, ?_, ?_, ?_⟩, ?_, ?_⟩
  · exact (hp.trans h.perm).trans (List.perm_append_comm (l₁ := [x]))
  · rw [List.length_append, ← hw]; simp
  · rw [List.length_append, List.length_singleton] at hh
    rw [List.length_cons] at hw
    omega
  · rw [he.oldest, List.getElem?_append_left hrl]
    exact hnext0
  · rw [he.newest, List.getLast?_concat]
  · intro i a b ha hb
    rw [he.next]
    show setNext s.next m (some x) a = some b
    have hbl := (List.getElem?_eq_some_iff.1 hb).1
    rw [List.length_append, List.length_singleton] at hbl
    rw [List.getElem?_append_left (by omega)] at ha
    unfold setNext
    by_cases hi : i + 1 = rest.length
    · rw [List.getElem?_append_right (by omega), show i + 1 - rest.length = 0 by omega] at hb
      have : a = m := by
        rw [show rest.length - 1 = i by omega, ha] at hml
        exact Option.some.inj hml
      rw [if_pos this]
      exact hb
    · rw [List.getElem?_append_left (by omega)] at hb
      rw [if_neg]
      · exact h.chain (i + 1) a b (by simpa using ha) (by simpa using hb)
      · rintro rfl
        have := Rolling.nodup_pos hnd.2 ha hml
        omega
  · intro y hy
    rw [he.data]
    exact hd y (by rintro rfl; exact hnd.1 hy)
  · rw [he.data]; exact hdx

end Riptide.Heap
