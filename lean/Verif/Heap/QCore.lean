import Verif.Heap.QLemmas
/-! The operations of the rolling quantile keep its invariant. -/
namespace Riptide.Heap

/-- Every element in the structure. -/
def RQ.all (s : RQ) : List Nat := s.maxH ++ s.minH ++ s.nan

/-- The invariant, for the data `d`. -/
structure Core (c : Cfg) (d : Nat → Option Int) (s : RQ) : Prop where
  two : Two d s
  split : Split d s
  bal : s.maxH.length = if s.valid = 0 then 0 else quantIndex c.q s.valid + 1
  nodup : s.all.Nodup
  lnan : ∀ x ∈ s.nan, s.loc x = .inNan
  dnan : ∀ x ∈ s.nan, d x = none
  dval : ∀ x, x ∈ s.maxH ∨ x ∈ s.minH → (d x).isSome

/-- What the operations leave alone. -/
structure Ends (s s' : RQ) : Prop where
  data : s'.data = s.data
  next : s'.next = s.next
  oldest : s'.oldest = s.oldest
  newest : s'.newest = s.newest

theorem Same.ends {x : Nat} {s s' : RQ} (h : Same x s s') : Ends s s' :=
  ⟨h.data, h.next, h.oldest, h.newest⟩

theorem Ends.trans {a b c : RQ} (h : Ends a b) (h' : Ends b c) : Ends a c :=
  ⟨h'.data.trans h.data, h'.next.trans h.next, h'.oldest.trans h.oldest, h'.newest.trans h.newest⟩

theorem mem_all {s : RQ} {x : Nat} : x ∈ s.all ↔ x ∈ s.maxH ∨ x ∈ s.minH ∨ x ∈ s.nan := by
  unfold RQ.all
  rw [List.mem_append, List.mem_append, or_assoc]

theorem Core.nan_out {c : Cfg} {d : Nat → Option Int} {s : RQ} (h : Core c d s) {x : Nat} (hx : x ∈ s.nan) :
    x ∉ s.maxH ∧ x ∉ s.minH := by
  have := h.nodup
  unfold RQ.all at this
  obtain ⟨-, -, h3⟩ := List.nodup_append.1 this
  constructor
  · intro hh; exact h3 x (List.mem_append_left _ hh) x hx rfl
  · intro hh; exact h3 x (List.mem_append_right _ hh) x hx rfl

theorem valid_of_perm {s' : RQ} {l : List Nat} (h : (s'.maxH ++ s'.minH).Perm l) : s'.valid = l.length := by
  rw [← h.length_eq, List.length_append]
  unfold RQ.valid
  omega

theorem pushCorrect_run {c : Cfg} {s : RQ} {x : Nat} (hq : c.q ≤ 1000000000) (h : Core c s.data s)
    (hx : x ∉ s.all) (hd : (s.data x).isSome) (hw : s.valid < c.w) :
    ∃ s', pushCorrect c x s = some s' ∧ Core c s.data s' ∧ s'.all.Perm (x :: s.all) ∧ Ends s s' := by
  have hx1 : x ∉ s.maxH := fun hh => hx (mem_all.2 (.inl hh))
  have hx2 : x ∉ s.minH := fun hh => hx (mem_all.2 (.inr (.inl hh)))
  have hx3 : x ∉ s.nan := fun hh => hx (mem_all.2 (.inr (.inr hh)))
  have hbal := h.bal
  have hv : s.valid = s.minH.length + s.maxH.length := rfl
  have hsucc : 0 < s.valid → _ := fun h0 => quantIndex_succ hq h0
  have hmono := quantIndex_mono hq (n := s.valid + 1) (by omega) (c.w - (s.valid + 1))
  rw [show s.valid + 1 + (c.w - (s.valid + 1)) = c.w by omega] at hmono
  have hlt : 0 < s.valid → _ := fun h0 => quantIndex_lt hq (n := s.valid) h0
  have hlt' := quantIndex_lt hq (n := s.valid + 1) (by omega)
  have h1 := quantIndex_one c.q
  have hcmax : c.maxCap = quantIndex c.q c.w + 1 := rfl
  have hcmin : c.minCap = c.w - (quantIndex c.q c.w + 1) := rfl
  -- the push
  have hpush : ∃ s1, (if quantIndex c.q (s.valid + 1) < s.maxH.length then pushMin c x s else pushMax c x s) = some s1 ∧
      Two s.data s1 ∧ SplitBut x s1 ∧ Same x s s1 ∧ (s1.maxH ++ s1.minH).Perm (x :: (s.maxH ++ s.minH)) ∧
      s1.maxH.length = quantIndex c.q (s.valid + 1) + 1 := by
    by_cases hcase : quantIndex c.q (s.valid + 1) < s.maxH.length
    · rw [if_pos hcase]
      have h0 : 0 < s.valid := by omega
      rw [if_neg (by omega)] at hbal
      have := hsucc h0
      have := hlt h0
      obtain ⟨s1, e, ht, hs, hp, hm⟩ := pushMin_run (c := c) h.two hx1 hx2 (by omega)
      refine ⟨s1, e, ht, ?_, hs, ?_, by rw [hm]; omega⟩
      · intro a ha b hb hax hbx
        rw [hs.data]
        rw [hm] at ha
        have := hp.mem_iff.1 hb
        rw [List.mem_append, List.mem_singleton] at this
        exact h.split a ha b (this.resolve_right hbx)
      · rw [hm]
        refine (List.Perm.append_left _ hp).trans ?_
        rw [← List.append_assoc]
        exact List.perm_append_comm
    · rw [if_neg hcase]
      have hlen : s.maxH.length = quantIndex c.q (s.valid + 1) := by
        by_cases h0 : s.valid = 0
        · rw [h0, Nat.zero_add, h1] at hcase ⊢
          omega
        · rw [if_neg h0] at hbal
          have := hsucc (by omega)
          omega
      obtain ⟨s1, e, ht, hs, hp, hm⟩ := pushMax_run (c := c) h.two hx1 hx2 (by omega)
      refine ⟨s1, e, ht, ?_, hs, ?_, by rw [hp.length_eq]; simp; omega⟩
      · intro a ha b hb hax hbx
        rw [hs.data]
        rw [hm] at hb
        have := hp.mem_iff.1 ha
        rw [List.mem_append, List.mem_singleton] at this
        exact h.split a (this.resolve_right hax) b hb
      · rw [hm]
        refine (List.Perm.append_right _ hp).trans ?_
        rw [List.append_assoc]
        exact List.perm_middle
  obtain ⟨s1, e1, ht1, hs1, hsame1, hp1, hl1⟩ := hpush
  obtain ⟨s2, e2, ht2, hs2, hsame2, hp2, hl2⟩ := swapHeads_run (hsame1.data ▸ ht1) hs1
  rw [hsame1.data] at ht2 hs2
  have hpp := hp2.trans hp1
  have hval : s2.valid = s.valid + 1 := by
    rw [valid_of_perm hpp, hv]
    simp; omega
  have hnan : s2.nan = s.nan := hsame2.nan.trans hsame1.nan
  have hall : s2.all.Perm (x :: s.all) := by
    unfold RQ.all
    rw [hnan]
    exact hpp.append_right _
  refine ⟨s2, ?_, ⟨ht2, hs2, ?_, ?_, ?_, ?_, ?_⟩, hall, hsame1.ends.trans hsame2.ends⟩
  · unfold pushCorrect; rw [e1]; exact e2
  · rw [if_neg (by omega), hval]; omega
  · exact hall.nodup_iff.2 (List.nodup_cons.2 ⟨hx, h.nodup⟩)
  · intro y hy
    rw [hnan] at hy
    obtain ⟨ho1, ho2⟩ := h.nan_out hy
    have hyx : y ≠ x := by rintro rfl; exact hx3 hy
    have hny : y ∉ s1.maxH ++ s1.minH := by
      rw [hp1.mem_iff, List.mem_cons, List.mem_append]
      rintro (hh | hh | hh)
      · exact hyx hh
      · exact ho1 hh
      · exact ho2 hh
    rw [List.mem_append] at hny
    rw [hsame2.loc y hyx (fun hh => hny (.inl hh)) (fun hh => hny (.inr hh)), hsame1.loc y hyx ho1 ho2]
    exact h.lnan y hy
  · intro y hy
    rw [hnan] at hy
    exact h.dnan y hy
  · intro y hy
    have : y ∈ s2.maxH ++ s2.minH := List.mem_append.2 hy
    rw [hpp.mem_iff, List.mem_cons, List.mem_append] at this
    rcases this with rfl | hh
    · exact hd
    · exact h.dval y hh

theorem change_run {c : Cfg} {d : Nat → Option Int} {s : RQ} {x : Nat} (h : Core c d s)
    (hd : ∀ y, y ≠ x → s.data y = d y) (hx : x ∈ s.maxH ∨ x ∈ s.minH) (hv : (s.data x).isSome) :
    ∃ s', (changeIn x s).bind swapHeads = some s' ∧ Core c s.data s' ∧ s'.all.Perm s.all ∧ Ends s s' := by
  obtain ⟨s1, e1, ht1, hsame1, hpx1, hpn1⟩ := changeIn_run h.two hd hx
  have hs1 : SplitBut x s1 := by
    intro a ha b hb hax hbx
    rw [hsame1.data]
    unfold keyOf
    rw [hd a hax, hd b hbx]
    exact h.split a (hpx1.mem_iff.1 ha) b (hpn1.mem_iff.1 hb)
  obtain ⟨s2, e2, ht2, hs2, hsame2, hp2, hl2⟩ := swapHeads_run (hsame1.data ▸ ht1) hs1
  rw [hsame1.data] at ht2 hs2
  have hpp := hp2.trans (hpx1.append hpn1)
  have hval : s2.valid = s.valid := by
    rw [valid_of_perm hpp, List.length_append]
    unfold RQ.valid
    omega
  have hnan : s2.nan = s.nan := hsame2.nan.trans hsame1.nan
  have hall : s2.all.Perm s.all := by
    unfold RQ.all
    rw [hnan]
    exact hpp.append_right _
  have hne : ∀ y ∈ s.nan, y ≠ x := by
    rintro y hy rfl
    obtain ⟨ho1, ho2⟩ := h.nan_out hy
    rcases hx with hx | hx
    · exact ho1 hx
    · exact ho2 hx
  refine ⟨s2, by rw [e1]; exact e2, ⟨ht2, hs2, ?_, hall.nodup_iff.2 h.nodup, ?_, ?_, ?_⟩, hall,
    hsame1.ends.trans hsame2.ends⟩
  · rw [hval, hl2, hpx1.length_eq]; exact h.bal
  · intro y hy
    rw [hnan] at hy
    obtain ⟨ho1, ho2⟩ := h.nan_out hy
    rw [hsame2.loc y (hne y hy) (fun hh => ho1 (hpx1.mem_iff.1 hh)) (fun hh => ho2 (hpn1.mem_iff.1 hh)),
      hsame1.loc y (hne y hy) ho1 ho2]
    exact h.lnan y hy
  · intro y hy
    rw [hnan] at hy
    rw [hd y (hne y hy)]
    exact h.dnan y hy
  · intro y hy
    have : y ∈ s2.maxH ++ s2.minH := List.mem_append.2 hy
    rw [hpp.mem_iff, List.mem_append] at this
    by_cases hyx : y = x
    · subst hyx; exact hv
    · rw [hd y hyx]; exact h.dval y this

theorem rebalance_run {c : Cfg} {s : RQ} (hq : c.q ≤ 1000000000) (h : Two s.data s) (hs : Split s.data s)
    (hnd : s.all.Nodup) (hw : s.valid ≤ c.w) (hl1 : quantIndex c.q (s.valid + 1) ≤ s.maxH.length)
    (hl2 : s.maxH.length ≤ quantIndex c.q (s.valid + 1) + 1) (hln : ∀ x ∈ s.nan, s.loc x = .inNan)
    (hdn : ∀ x ∈ s.nan, s.data x = none) (hdv : ∀ x, x ∈ s.maxH ∨ x ∈ s.minH → (s.data x).isSome) :
    ∃ s', rebalance c s = some s' ∧ Core c s.data s' ∧ s'.all.Perm s.all ∧ Ends s s' := by
  have hnout : ∀ y ∈ s.nan, y ∉ s.maxH ∧ y ∉ s.minH := by
    intro y hy
    have := hnd
    unfold RQ.all at this
    obtain ⟨-, -, h3⟩ := List.nodup_append.1 this
    exact ⟨fun hh => h3 y (List.mem_append_left _ hh) y hy rfl,
      fun hh => h3 y (List.mem_append_right _ hh) y hy rfl⟩
  have hv : s.valid = s.minH.length + s.maxH.length := rfl
  have hcmax : c.maxCap = quantIndex c.q c.w + 1 := rfl
  have hcmin : c.minCap = c.w - (quantIndex c.q c.w + 1) := rfl
  unfold rebalance
  by_cases h0 : s.valid = 0
  · rw [if_pos h0]
    exact ⟨s, rfl, ⟨h, hs, by rw [if_pos h0]; omega, hnd, hln, hdn, hdv⟩, .refl _, rfl, rfl, rfl, rfl⟩
  · rw [if_neg h0]
    have hsucc := quantIndex_succ hq (n := s.valid) (by omega)
    have hlt := quantIndex_lt hq (n := s.valid) (by omega)
    have hmono := quantIndex_mono hq (n := s.valid) (by omega) (c.w - s.valid)
    rw [show s.valid + (c.w - s.valid) = c.w by omega] at hmono
    by_cases hbig : quantIndex c.q s.valid + 1 < s.maxH.length
    · rw [if_pos hbig]
      have hx := List.getElem?_eq_getElem (show 0 < s.maxH.length by omega)
      generalize s.maxH[0]'(by omega) = x at hx
      have hxm : x ∈ s.maxH := List.mem_of_getElem? hx
      have hxn : x ∉ s.minH := h.disj x hxm
      obtain ⟨s1, e1, ht1, hsame1, hp1, hm1⟩ := eraseIn_max h (fun _ _ => rfl) hxm
      have hndx : s.maxH.Nodup := good_nodup h.gmax.pos
      have hx1 : x ∉ s1.maxH := fun hh => hndx.not_mem_erase (hp1.mem_iff.1 hh)
      have hlen1 : s1.maxH.length = s.maxH.length - 1 := by
        rw [hp1.length_eq, List.length_erase_of_mem hxm]
      obtain ⟨s2, e2, ht2, hsame2, hp2, hm2⟩ := pushMin_run (c := c) (hsame1.data ▸ ht1) hx1
        (by rw [hm1]; exact hxn) (by rw [hm1]; omega)
      rw [hsame1.data] at ht2
      rw [hm1] at hp2
      have hmax2 : s2.maxH.Perm (s.maxH.erase x) := by rw [hm2]; exact hp1
      have hpp : (s2.maxH ++ s2.minH).Perm (s.maxH ++ s.minH) := by
        refine (hmax2.append hp2).trans ?_
        refine (List.Perm.append_left _ List.perm_append_comm).trans ?_
        refine (List.perm_middle (a := x)).trans ?_
        exact ((List.perm_cons_erase hxm).append_right s.minH).symm
      have hnan : s2.nan = s.nan := hsame2.nan.trans hsame1.nan
      have hall : s2.all.Perm s.all := by
        unfold RQ.all
        rw [hnan]
        exact hpp.append_right _
      have hval : s2.valid = s.valid := by
        rw [valid_of_perm hpp, List.length_append]; omega
      refine ⟨s2, ?_, ⟨ht2, ?_, ?_, hall.nodup_iff.2 hnd, ?_, ?_, ?_⟩, hall, hsame1.ends.trans hsame2.ends⟩
      · rw [hx]
        show (eraseIn x s).bind _ = _
        rw [e1]; exact e2
      · intro a ha b hb
        have ha' := hmax2.mem_iff.1 ha
        have ham := List.mem_of_mem_erase ha'
        have hb' := hp2.mem_iff.1 hb
        rw [List.mem_append, List.mem_singleton] at hb'
        rcases hb' with hb' | rfl
        · exact hs a ham b hb'
        · exact top_extreme (h := ⟨s.maxH, s.pos⟩) h.gmax.ordered hx a ham
      · rw [if_neg (by omega), hval, hm2]; omega
      · intro y hy
        rw [hnan] at hy
        obtain ⟨o1, o2⟩ := hnout y hy
        have hyx : y ≠ x := by rintro rfl; exact o1 hxm
        rw [hsame2.loc y hyx (fun hh => o1 (List.mem_of_mem_erase (hp1.mem_iff.1 hh))) (by rw [hm1]; exact o2),
          hsame1.loc y hyx o1 o2]
        exact hln y hy
      · intro y hy
        rw [hnan] at hy
        exact hdn y hy
      · intro y hy
        have : y ∈ s2.maxH ++ s2.minH := List.mem_append.2 hy
        rw [hpp.mem_iff, List.mem_append] at this
        exact hdv y this
    · rw [if_neg hbig]
      by_cases hsmall : s.maxH.length < quantIndex c.q s.valid + 1
      · rw [if_pos hsmall]
        have hx := List.getElem?_eq_getElem (show 0 < s.minH.length by omega)
        generalize s.minH[0]'(by omega) = x at hx
        have hxm : x ∈ s.minH := List.mem_of_getElem? hx
        have hxn : x ∉ s.maxH := fun hh => h.disj x hh hxm
        obtain ⟨s1, e1, ht1, hsame1, hp1, hm1⟩ := eraseIn_min h (fun _ _ => rfl) hxm
        have hndx : s.minH.Nodup := good_nodup h.gmin.pos
        have hx1 : x ∉ s1.minH := fun hh => hndx.not_mem_erase (hp1.mem_iff.1 hh)
        obtain ⟨s2, e2, ht2, hsame2, hp2, hm2⟩ := pushMax_run (c := c) (hsame1.data ▸ ht1)
          (by rw [hm1]; exact hxn) hx1 (by rw [hm1]; omega)
        rw [hsame1.data] at ht2
        rw [hm1] at hp2
        have hmin2 : s2.minH.Perm (s.minH.erase x) := by rw [hm2]; exact hp1
        have hpp : (s2.maxH ++ s2.minH).Perm (s.maxH ++ s.minH) := by
          refine (hp2.append hmin2).trans ?_
          rw [List.append_assoc]
          exact (List.perm_cons_erase hxm).symm.append_left s.maxH
        have hnan : s2.nan = s.nan := hsame2.nan.trans hsame1.nan
        have hall : s2.all.Perm s.all := by
          unfold RQ.all
          rw [hnan]
          exact hpp.append_right _
        have hval : s2.valid = s.valid := by
          rw [valid_of_perm hpp, List.length_append]; omega
        refine ⟨s2, ?_, ⟨ht2, ?_, ?_, hall.nodup_iff.2 hnd, ?_, ?_, ?_⟩, hall, hsame1.ends.trans hsame2.ends⟩
        · rw [hx]
          show (eraseIn x s).bind _ = _
          rw [e1]; exact e2
        · intro a ha b hb
          have hbm := List.mem_of_mem_erase (hmin2.mem_iff.1 hb)
          have ha' := hp2.mem_iff.1 ha
          rw [List.mem_append, List.mem_singleton] at ha'
          rcases ha' with ha' | rfl
          · exact hs a ha' b hbm
          · have := top_extreme (h := ⟨s.minH, s.pos⟩) h.gmin.ordered hx b hbm
            unfold minOrd at this
            omega
        · rw [if_neg (by omega), hval, hp2.length_eq]
          simp; omega
        · intro y hy
          rw [hnan] at hy
          obtain ⟨o1, o2⟩ := hnout y hy
          have hyx : y ≠ x := by rintro rfl; exact o2 hxm
          rw [hsame2.loc y hyx (by rw [hm1]; exact o1) (fun hh => o2 (List.mem_of_mem_erase (hp1.mem_iff.1 hh))),
            hsame1.loc y hyx o1 o2]
          exact hln y hy
        · intro y hy
          rw [hnan] at hy
          exact hdn y hy
        · intro y hy
          have : y ∈ s2.maxH ++ s2.minH := List.mem_append.2 hy
          rw [hpp.mem_iff, List.mem_append] at this
          exact hdv y this
      · rw [if_neg hsmall]
        exact ⟨s, rfl, ⟨h, hs, by rw [if_neg h0]; omega, hnd, hln, hdn, hdv⟩, .refl _, rfl, rfl, rfl, rfl⟩

/-- A valid element becomes invalid. -/
theorem toNan_run {c : Cfg} {d : Nat → Option Int} {s : RQ} {x : Nat} (hq : c.q ≤ 1000000000)
    (h : Core c d s) (hd : ∀ y, y ≠ x → s.data y = d y) (hx : x ∈ s.maxH ∨ x ∈ s.minH) (hv : s.data x = none)
    (hw : s.valid ≤ c.w) :
    ∃ s', ((eraseIn x s).bind fun s2 => rebalance c (pushNan x s2)) = some s' ∧ Core c s.data s' ∧
      s'.all.Perm s.all ∧ Ends s s' := by
  have hvd : s.valid = s.minH.length + s.maxH.length := rfl
  have h0 : 0 < s.valid := by
    rcases hx with hx | hx <;> have := List.length_pos_of_mem hx <;> omega
  have hbal := h.bal
  rw [if_neg (by omega)] at hbal
  have hndx : s.maxH.Nodup := good_nodup h.two.gmax.pos
  have hndn : s.minH.Nodup := good_nodup h.two.gmin.pos
  have hkey : ∀ y, y ≠ x → keyOf s.data y = keyOf d y := fun y hy => by unfold keyOf; rw [hd y hy]
  -- the erasure
  have her : ∃ s1, eraseIn x s = some s1 ∧ Two s.data s1 ∧ Same x s s1 ∧
      (x :: (s1.maxH ++ s1.minH)).Perm (s.maxH ++ s.minH) ∧ Split s.data s1 ∧
      quantIndex c.q s.valid ≤ s1.maxH.length ∧ s1.maxH.length ≤ quantIndex c.q s.valid + 1 := by
    rcases hx with hxm | hxm
    · obtain ⟨s1, e1, ht1, hsame1, hp1, hm1⟩ := eraseIn_max h.two hd hxm
      have hlen1 : s1.maxH.length = s.maxH.length - 1 := by
        rw [hp1.length_eq, List.length_erase_of_mem hxm]
      refine ⟨s1, e1, ht1, hsame1, ?_, ?_, by omega, by omega⟩
      · rw [hm1]
        exact ((List.Perm.cons x hp1).trans (List.perm_cons_erase hxm).symm).append_right s.minH
      · intro a ha b hb
        have ha' := hp1.mem_iff.1 ha
        rw [hm1] at hb
        rw [hkey a (by rintro rfl; exact hndx.not_mem_erase ha'),
          hkey b (by rintro rfl; exact h.two.disj _ hxm hb)]
        exact h.split a (List.mem_of_mem_erase ha') b hb
    · obtain ⟨s1, e1, ht1, hsame1, hp1, hm1⟩ := eraseIn_min h.two hd hxm
      refine ⟨s1, e1, ht1, hsame1, ?_, ?_, by rw [hm1]; omega, by rw [hm1]; omega⟩
      · rw [hm1]
        refine (List.perm_middle (a := x)).symm.trans ?_
        exact ((List.Perm.cons x hp1).trans (List.perm_cons_erase hxm).symm).append_left s.maxH
      · intro a ha b hb
        have hb' := hp1.mem_iff.1 hb
        rw [hm1] at ha
        rw [hkey b (by rintro rfl; exact hndn.not_mem_erase hb'),
          hkey a (by rintro rfl; exact h.two.disj _ ha hxm)]
        exact h.split a ha b (List.mem_of_mem_erase hb')
  obtain ⟨s1, e1, ht1, hsame1, hp1, hs1, hl1, hl2⟩ := her
  have hval1 : s1.valid + 1 = s.valid := by
    have := hp1.length_eq
    rw [List.length_cons, List.length_append, List.length_append] at this
    unfold RQ.valid
    omega
  have hxnan : x ∉ s.nan := fun hh => by
    obtain ⟨o1, o2⟩ := h.nan_out hh
    rcases hx with hx | hx
    · exact o1 hx
    · exact o2 hx
  have hnd12 : (x :: (s1.maxH ++ s1.minH)).Nodup := by
    refine hp1.nodup_iff.2 ?_
    exact (List.nodup_append.1 h.nodup).1
  have hx1 : x ∉ s1.maxH ++ s1.minH := (List.nodup_cons.1 hnd12).1
  have hall : (pushNan x s1).all.Perm s.all := by
    show ((s1.maxH ++ s1.minH) ++ (s1.nan ++ [x])).Perm ((s.maxH ++ s.minH) ++ s.nan)
    rw [hsame1.nan]
    refine (List.Perm.append_left _ List.perm_append_comm).trans ?_
    refine (List.perm_middle (a := x)).trans ?_
    exact hp1.append_right s.nan
  have hloc : ∀ y, y ≠ x → (pushNan x s1).loc y = s1.loc y := fun y hy => setLoc_ne hy
  have hin : ∀ y, y ∈ s1.maxH ∨ y ∈ s1.minH → y ≠ x := by
    rintro y hy rfl; exact hx1 (List.mem_append.2 hy)
  obtain ⟨s2, e2, hc2, hp2, he2⟩ := rebalance_run (c := c) (s := pushNan x s1) hq
    (by
      show Two s1.data _
      rw [hsame1.data]
      exact ⟨ht1.gmax, ht1.gmin, ht1.disj,
        fun y hy => by rw [hloc y (hin y (.inl hy))]; exact ht1.lmax y hy,
        fun y hy => by rw [hloc y (hin y (.inr hy))]; exact ht1.lmin y hy⟩)
    (by show Split s1.data _; rw [hsame1.data]; exact hs1)
    (hall.nodup_iff.2 h.nodup)
    (by show s1.valid ≤ _; omega)
    (by show quantIndex c.q (s1.valid + 1) ≤ s1.maxH.length; rw [hval1]; exact hl1)
    (by show s1.maxH.length ≤ quantIndex c.q (s1.valid + 1) + 1; rw [hval1]; exact hl2)
    (by
      intro y hy
      replace hy : y ∈ s1.nan ++ [x] := hy
      rw [hsame1.nan, List.mem_append, List.mem_singleton] at hy
      rcases hy with hy | rfl
      · have hyx : y ≠ x := by rintro rfl; exact hxnan hy
        obtain ⟨o1, o2⟩ := h.nan_out hy
        rw [hloc y hyx, hsame1.loc y hyx o1 o2]
        exact h.lnan y hy
      · exact setLoc_eq)
    (by
      intro y hy
      show s1.data y = none
      rw [hsame1.data]
      replace hy : y ∈ s1.nan ++ [x] := hy
      rw [hsame1.nan, List.mem_append, List.mem_singleton] at hy
      rcases hy with hy | rfl
      · rw [hd y (by rintro rfl; exact hxnan hy)]
        exact h.dnan y hy
      · exact hv)
    (by
      intro y hy
      show (s1.data y).isSome
      replace hy : y ∈ s1.maxH ∨ y ∈ s1.minH := hy
      rw [hsame1.data, hd y (hin y hy)]
      have : y ∈ s.maxH ++ s.minH := hp1.mem_iff.1 (List.mem_cons_of_mem _ (List.mem_append.2 hy))
      exact h.dval y (List.mem_append.1 this))
  have hdata : (pushNan x s1).data = s.data := hsame1.data
  rw [hdata] at hc2
  refine ⟨s2, by rw [e1]; exact e2, hc2, hp2.trans hall, ?_⟩
  exact hsame1.ends.trans ⟨he2.data, he2.next, he2.oldest, he2.newest⟩

/-- An invalid element becomes valid. -/
theorem fromNan_run {c : Cfg} {d : Nat → Option Int} {s : RQ} {x : Nat} (hq : c.q ≤ 1000000000)
    (h : Core c d s) (hd : ∀ y, y ≠ x → s.data y = d y) (hx : x ∈ s.nan) (hv : (s.data x).isSome)
    (hw : s.valid < c.w) :
    ∃ s', pushCorrect c x (eraseNan x s) = some s' ∧ Core c s.data s' ∧ s'.all.Perm s.all ∧ Ends s s' := by
  obtain ⟨o1, o2⟩ := h.nan_out hx
  have hin : ∀ y, y ∈ s.maxH ∨ y ∈ s.minH → y ≠ x := by
    rintro y hy rfl
    rcases hy with hy | hy
    · exact o1 hy
    · exact o2 hy
  have hndn : s.nan.Nodup := (List.nodup_append.1 h.nodup).2.1
  have hall : (x :: (eraseNan x s).all).Perm s.all := by
    show (x :: ((s.maxH ++ s.minH) ++ s.nan.erase x)).Perm ((s.maxH ++ s.minH) ++ s.nan)
    refine (List.perm_middle (a := x)).symm.trans ?_
    exact (List.perm_cons_erase hx).symm.append_left _
  have hnd2 := hall.nodup_iff.2 h.nodup
  have hcore : Core c (eraseNan x s).data (eraseNan x s) := by
    have ht : Two s.data s := two_congr h.two fun y hy => hd y (hin y hy)
    refine ⟨⟨ht.gmax, ht.gmin, ht.disj, fun y hy => ?_, fun y hy => ?_⟩, ?_, h.bal,
      (List.nodup_cons.1 hnd2).2, fun y hy => ?_, fun y hy => ?_, fun y hy => ?_⟩
    · rw [show (eraseNan x s).loc y = s.loc y from setLoc_ne (hin y (.inl hy))]; exact ht.lmax y hy
    · rw [show (eraseNan x s).loc y = s.loc y from setLoc_ne (hin y (.inr hy))]; exact ht.lmin y hy
    · intro a ha b hb
      show keyOf s.data a ≤ keyOf s.data b
      unfold keyOf
      rw [hd a (hin a (.inl ha)), hd b (hin b (.inr hb))]
      exact h.split a ha b hb
    · replace hy : y ∈ s.nan.erase x := hy
      have hyx : y ≠ x := by rintro rfl; exact hndn.not_mem_erase hy
      rw [show (eraseNan x s).loc y = s.loc y from setLoc_ne hyx]
      exact h.lnan y (List.mem_of_mem_erase hy)
    · replace hy : y ∈ s.nan.erase x := hy
      have hyx : y ≠ x := by rintro rfl; exact hndn.not_mem_erase hy
      show s.data y = none
      rw [hd y hyx]
      exact h.dnan y (List.mem_of_mem_erase hy)
    · show (s.data y).isSome
      rw [hd y (hin y hy)]
      exact h.dval y hy
  obtain ⟨s', e, hc, hp, he⟩ := pushCorrect_run (x := x) hq hcore (List.nodup_cons.1 hnd2).1 hv hw
  exact ⟨s', e, hc, hp.trans hall, he.data, he.next, he.oldest, he.newest⟩

end Riptide.Heap
