import Verif.Heap.Lemmas
import Verif.Heap.QModel
/-! Lemmas about the two heaps of the rolling quantile. -/
namespace Riptide.Heap

/-! ## The index -/

theorem quantIndex_eq (q n : Nat) : quantIndex q n = ((n - 1) * q + 999999) / 1000000000 := by
  unfold quantIndex fracOf
  generalize (n - 1) * q = a
  split <;> omega

theorem quantIndex_one (q : Nat) : quantIndex q 1 = 0 := by
  rw [quantIndex_eq]
  simp

theorem quantIndex_succ {q n : Nat} (hq : q ≤ 1000000000) (hn : 0 < n) :
    quantIndex q n ≤ quantIndex q (n + 1) ∧ quantIndex q (n + 1) ≤ quantIndex q n + 1 := by
  rw [quantIndex_eq, quantIndex_eq]
  have : (n + 1 - 1) * q = (n - 1) * q + q := by
    obtain ⟨m, rfl⟩ : ∃ m, n = m + 1 := ⟨n - 1, by omega⟩
    simp [Nat.succ_mul]
  rw [this]
  generalize (n - 1) * q = a
  omega

theorem quantIndex_mono {q n : Nat} (hq : q ≤ 1000000000) (hn : 0 < n) (k : Nat) :
    quantIndex q n ≤ quantIndex q (n + k) ∧ quantIndex q (n + k) ≤ quantIndex q n + k := by
  induction k with
  | zero => exact ⟨Nat.le_refl _, Nat.le_refl _⟩
  | succ k ih =>
    have := quantIndex_succ hq (n := n + k) (by omega)
    rw [show n + (k + 1) = n + k + 1 from rfl]
    omega

theorem quantIndex_lt {q n : Nat} (hq : q ≤ 1000000000) (hn : 0 < n) : quantIndex q n < n := by
  have := quantIndex_mono hq (n := 1) (by omega) (n - 1)
  rw [quantIndex_one, show 1 + (n - 1) = n by omega] at this
  omega

theorem quantIndex_split {q n : Nat} (hq : q ≤ 1000000000) (h : quantIntegral q n = false) :
    quantIndex q n + 1 < n := by
  rw [quantIndex_eq]
  unfold quantIntegral fracOf at h
  have h' := of_decide_eq_false h
  have hb : (n - 1) * q ≤ (n - 1) * 1000000000 := Nat.mul_le_mul_left _ hq
  generalize (n - 1) * q = a at *
  omega

/-! ## The two heaps -/

/-- What both heaps keep, for the keys `d`. -/
structure Two (d : Nat → Option Int) (s : RQ) : Prop where
  gmax : Good (maxOrd d) ⟨s.maxH, s.pos⟩
  gmin : Good (minOrd d) ⟨s.minH, s.pos⟩
  disj : ∀ x, x ∈ s.maxH → x ∉ s.minH
  lmax : ∀ x ∈ s.maxH, s.loc x = .inMax
  lmin : ∀ x ∈ s.minH, s.loc x = .inMin

/-- Everything in the max heap is at most everything in the min heap, `x` aside. -/
def SplitBut (x : Nat) (s : RQ) : Prop :=
  ∀ a ∈ s.maxH, ∀ b ∈ s.minH, a ≠ x → b ≠ x → keyOf s.data a ≤ keyOf s.data b

/-- Everything in the max heap is at most everything in the min heap. -/
def Split (d : Nat → Option Int) (s : RQ) : Prop :=
  ∀ a ∈ s.maxH, ∀ b ∈ s.minH, keyOf d a ≤ keyOf d b

/-- What operations on the heaps leave alone. -/
structure Same (x : Nat) (s s' : RQ) : Prop where
  nan : s'.nan = s.nan
  data : s'.data = s.data
  next : s'.next = s.next
  oldest : s'.oldest = s.oldest
  newest : s'.newest = s.newest
  loc : ∀ y, y ≠ x → y ∉ s.maxH → y ∉ s.minH → s'.loc y = s.loc y

theorem good_frame {ord : Nat → Int} {l : List Nat} {p p' : Nat → Option Nat} (h : Good ord ⟨l, p⟩)
    (hp : ∀ x ∈ l, p' x = p x) : Good ord ⟨l, p'⟩ :=
  ⟨h.ordered, fun i x hi => by
    show p' x = some i
    rw [hp x (List.mem_of_getElem? hi)]
    exact h.pos i x hi⟩

theorem good_congr {ord ord' : Nat → Int} {h : HS} (hg : Good ord h) (hk : ∀ x ∈ h.es, ord' x = ord x) :
    Good ord' h := ⟨by rw [val_congr hk]; exact hg.ordered, hg.pos⟩

theorem setLoc_ne {s : RQ} {x y : Nat} {l : Loc} (h : y ≠ x) : (s.setLoc x l).loc y = s.loc y := if_neg h
theorem setLoc_eq {s : RQ} {x : Nat} {l : Loc} : (s.setLoc x l).loc x = l := if_pos rfl

theorem pushMax_run {c : Cfg} {s : RQ} {x : Nat} (h : Two s.data s) (h1 : x ∉ s.maxH) (h2 : x ∉ s.minH)
    (hc : s.maxH.length < c.maxCap) :
    ∃ s', pushMax c x s = some s' ∧ Two s.data s' ∧ Same x s s' ∧ s'.maxH.Perm (s.maxH ++ [x]) ∧
      s'.minH = s.minH := by
  obtain ⟨h', e, hg, hp, ho⟩ := push_run (max := c.maxCap) (x := x) h.gmax h1 hc
  have hm : ∀ y, y ∈ h'.es ↔ y ∈ s.maxH ∨ y = x := fun y => by
    rw [hp.mem_iff, List.mem_append, List.mem_singleton]
  refine ⟨({ s with maxH := h'.es, pos := h'.pos } : RQ).setLoc x .inMax, ?_,
    ⟨hg, good_frame h.gmin fun y hy => ?_, ?_, ?_, ?_⟩, ⟨rfl, rfl, rfl, rfl, rfl, fun y hy _ _ => setLoc_ne hy⟩,
    hp, rfl⟩
  · unfold pushMax; rw [e]; rfl
  · exact ho y (fun hy' => h.disj y hy' hy) (by rintro rfl; exact h2 hy)
  · intro y hy hy'
    rcases (hm y).1 hy with hy | rfl
    · exact h.disj y hy hy'
    · exact h2 hy'
  · intro y hy
    by_cases hyx : y = x
    · subst hyx; exact setLoc_eq
    · rw [setLoc_ne hyx]; exact h.lmax y (((hm y).1 hy).resolve_right hyx)
  · intro y hy
    rw [setLoc_ne (by rintro rfl; exact h2 hy)]
    exact h.lmin y hy

theorem pushMin_run {c : Cfg} {s : RQ} {x : Nat} (h : Two s.data s) (h1 : x ∉ s.maxH) (h2 : x ∉ s.minH)
    (hc : s.minH.length < c.minCap) :
    ∃ s', pushMin c x s = some s' ∧ Two s.data s' ∧ Same x s s' ∧ s'.minH.Perm (s.minH ++ [x]) ∧
      s'.maxH = s.maxH := by
  obtain ⟨h', e, hg, hp, ho⟩ := push_run (max := c.minCap) (x := x) h.gmin h2 hc
  have hm : ∀ y, y ∈ h'.es ↔ y ∈ s.minH ∨ y = x := fun y => by
    rw [hp.mem_iff, List.mem_append, List.mem_singleton]
  refine ⟨({ s with minH := h'.es, pos := h'.pos } : RQ).setLoc x .inMin, ?_,
    ⟨good_frame h.gmax fun y hy => ?_, hg, ?_, ?_, ?_⟩, ⟨rfl, rfl, rfl, rfl, rfl, fun y hy _ _ => setLoc_ne hy⟩,
    hp, rfl⟩
  · unfold pushMin; rw [e]; rfl
  · exact ho y (fun hy' => h.disj y hy hy') (by rintro rfl; exact h1 hy)
  · intro y hy hy'
    rcases (hm y).1 hy' with hy' | rfl
    · exact h.disj y hy hy'
    · exact h1 hy
  · intro y hy
    rw [setLoc_ne (by rintro rfl; exact h1 hy)]
    exact h.lmax y hy
  · intro y hy
    by_cases hyx : y = x
    · subst hyx; exact setLoc_eq
    · rw [setLoc_ne hyx]; exact h.lmin y (((hm y).1 hy).resolve_right hyx)

theorem ord_of_key {d d' : Nat → Option Int} {x : Nat} (hd : ∀ y, y ≠ x → d' y = d y) (l : List Nat) :
    (∀ y ∈ l, y ≠ x → maxOrd d' y = maxOrd d y) ∧ (∀ y ∈ l, y ≠ x → minOrd d' y = minOrd d y) := by
  constructor <;> intro y _ hy
  · unfold maxOrd keyOf; rw [hd y hy]
  · unfold minOrd keyOf; rw [hd y hy]

theorem two_congr {d d' : Nat → Option Int} {s : RQ} (h : Two d s)
    (hd : ∀ y, y ∈ s.maxH ∨ y ∈ s.minH → d' y = d y) : Two d' s :=
  ⟨good_congr h.gmax fun y hy => by unfold maxOrd keyOf; rw [hd y (.inl hy)],
   good_congr h.gmin fun y hy => by unfold minOrd keyOf; rw [hd y (.inr hy)], h.disj, h.lmax, h.lmin⟩

theorem eraseIn_max {d : Nat → Option Int} {s : RQ} {x : Nat} (h : Two d s)
    (hd : ∀ y, y ≠ x → s.data y = d y) (hx : x ∈ s.maxH) :
    ∃ s', eraseIn x s = some s' ∧ Two s.data s' ∧ Same x s s' ∧ s'.maxH.Perm (s.maxH.erase x) ∧
      s'.minH = s.minH := by
  obtain ⟨i, hi⟩ := List.mem_iff_getElem?.1 hx
  obtain ⟨h', e, hg, hp, -, ho⟩ := erase_run (ord' := maxOrd s.data) h.gmax hi (ord_of_key hd _).1
  have hxp : s.pos x = some i := h.gmax.pos i x hi
  have hnd : s.maxH.Nodup := good_nodup h.gmax.pos
  have hm : ∀ y, y ∈ h'.es → y ∈ s.maxH ∧ y ≠ x := fun y hy => by
    have := hp.mem_iff.1 hy
    exact ⟨List.mem_of_mem_erase this, by rintro rfl; exact hnd.not_mem_erase this⟩
  refine ⟨({ s with maxH := h'.es, pos := h'.pos } : RQ).setLoc x .out, ?_,
    ⟨hg, ?_, ?_, ?_, ?_⟩, ⟨rfl, rfl, rfl, rfl, rfl, fun y hy _ _ => setLoc_ne hy⟩, hp, rfl⟩
  · unfold eraseIn
    rw [h.lmax x hx, hxp]
    show Option.map _ (erase _ _ _) = _
    rw [e]; rfl
  · refine good_congr (good_frame h.gmin fun y hy => ho y fun hy' => h.disj y hy' hy) fun y hy => ?_
    exact (ord_of_key hd s.minH).2 y hy (by rintro rfl; exact h.disj _ hx hy)
  · intro y hy
    exact h.disj y (hm y hy).1
  · intro y hy
    rw [setLoc_ne (hm y hy).2]
    exact h.lmax y (hm y hy).1
  · intro y hy
    rw [setLoc_ne (by rintro rfl; exact h.disj _ hx hy)]
    exact h.lmin y hy

theorem eraseIn_min {d : Nat → Option Int} {s : RQ} {x : Nat} (h : Two d s)
    (hd : ∀ y, y ≠ x → s.data y = d y) (hx : x ∈ s.minH) :
    ∃ s', eraseIn x s = some s' ∧ Two s.data s' ∧ Same x s s' ∧ s'.minH.Perm (s.minH.erase x) ∧
      s'.maxH = s.maxH := by
  obtain ⟨i, hi⟩ := List.mem_iff_getElem?.1 hx
  obtain ⟨h', e, hg, hp, -, ho⟩ := erase_run (ord' := minOrd s.data) h.gmin hi (ord_of_key hd _).2
  have hxp : s.pos x = some i := h.gmin.pos i x hi
  have hnd : s.minH.Nodup := good_nodup h.gmin.pos
  have hm : ∀ y, y ∈ h'.es → y ∈ s.minH ∧ y ≠ x := fun y hy => by
    have := hp.mem_iff.1 hy
    exact ⟨List.mem_of_mem_erase this, by rintro rfl; exact hnd.not_mem_erase this⟩
  refine ⟨({ s with minH := h'.es, pos := h'.pos } : RQ).setLoc x .out, ?_,
    ⟨?_, hg, ?_, ?_, ?_⟩, ⟨rfl, rfl, rfl, rfl, rfl, fun y hy _ _ => setLoc_ne hy⟩, hp, rfl⟩
  · unfold eraseIn
    rw [h.lmin x hx, hxp]
    show Option.map _ (erase _ _ _) = _
    rw [e]; rfl
  · refine good_congr (good_frame h.gmax fun y hy => ho y fun hy' => h.disj y hy hy') fun y hy => ?_
    exact (ord_of_key hd s.maxH).1 y hy (by rintro rfl; exact h.disj _ hy hx)
  · intro y hy hy'
    exact h.disj y hy (hm y hy').1
  · intro y hy
    rw [setLoc_ne (by rintro rfl; exact h.disj _ hy hx)]
    exact h.lmax y hy
  · intro y hy
    rw [setLoc_ne (hm y hy).2]
    exact h.lmin y (hm y hy).1

theorem changeIn_run {d : Nat → Option Int} {s : RQ} {x : Nat} (h : Two d s)
    (hd : ∀ y, y ≠ x → s.data y = d y) (hx : x ∈ s.maxH ∨ x ∈ s.minH) :
    ∃ s', changeIn x s = some s' ∧ Two s.data s' ∧ Same x s s' ∧ s'.maxH.Perm s.maxH ∧
      s'.minH.Perm s.minH := by
  rcases hx with hx | hx
  · obtain ⟨i, hi⟩ := List.mem_iff_getElem?.1 hx
    obtain ⟨h', e, hg, hp, ho⟩ := applyChange_run (ord' := maxOrd s.data) h.gmax hi (ord_of_key hd _).1
    have hxp : s.pos x = some i := h.gmax.pos i x hi
    refine ⟨{ s with maxH := h'.es, pos := h'.pos }, ?_, ⟨hg, ?_, ?_, ?_, h.lmin⟩,
      ⟨rfl, rfl, rfl, rfl, rfl, fun _ _ _ _ => rfl⟩, hp, .refl _⟩
    · unfold changeIn
      rw [h.lmax x hx, hxp]
      show Option.map _ (applyChange _ _ _) = _
      rw [e]; rfl
    · refine good_congr (good_frame h.gmin fun y hy => ho y fun hy' => h.disj y hy' hy) fun y hy => ?_
      exact (ord_of_key hd s.minH).2 y hy (by rintro rfl; exact h.disj _ hx hy)
    · intro y hy; exact h.disj y (hp.mem_iff.1 hy)
    · intro y hy; exact h.lmax y (hp.mem_iff.1 hy)
  · obtain ⟨i, hi⟩ := List.mem_iff_getElem?.1 hx
    obtain ⟨h', e, hg, hp, ho⟩ := applyChange_run (ord' := minOrd s.data) h.gmin hi (ord_of_key hd _).2
    have hxp : s.pos x = some i := h.gmin.pos i x hi
    refine ⟨{ s with minH := h'.es, pos := h'.pos }, ?_, ⟨?_, hg, ?_, h.lmax, ?_⟩,
      ⟨rfl, rfl, rfl, rfl, rfl, fun _ _ _ _ => rfl⟩, .refl _, hp⟩
    · unfold changeIn
      rw [h.lmin x hx, hxp]
      show Option.map _ (applyChange _ _ _) = _
      rw [e]; rfl
    · refine good_congr (good_frame h.gmax fun y hy => ho y fun hy' => h.disj y hy hy') fun y hy => ?_
      exact (ord_of_key hd s.maxH).1 y hy (by rintro rfl; exact h.disj _ hy hx)
    · intro y hy hy'; exact h.disj y hy (hp.mem_iff.1 hy')
    · intro y hy; exact h.lmin y (hp.mem_iff.1 hy)

/-! ## Exchanging the heads -/

theorem set_head {l : List Nat} {a b : Nat} (h : l[0]? = some a) : l = a :: l.tail ∧ l.set 0 b = b :: l.tail := by
  cases l with
  | nil => simp at h
  | cons x t =>
    have : x = a := by simpa using h
    subst this
    exact ⟨rfl, rfl⟩

/-- Replacing the first element by one recorded at position 0. -/
theorem replaceTop {ord : Nat → Int} {l : List Nat} {p : Nat → Option Nat} {a b : Nat}
    (hg : Ordered (val ord l) l.length) (hpos : ∀ (i y : Nat), 0 < i → l[i]? = some y → p y = some i)
    (ha : l[0]? = some a) (hb : p b = some 0) :
    ∃ h', applyChange ord (some 0) ⟨l.set 0 b, p⟩ = some h' ∧ Good ord h' ∧ h'.es.Perm (b :: l.tail) ∧
      ∀ y, y ∉ b :: l.tail → h'.pos y = p y := by
  obtain ⟨e1, e2⟩ := set_head (b := b) ha
  have hl : 0 < l.length := by rw [e1]; simp
  have hval : ∀ k, 0 < k → val ord (l.set 0 b) k = val ord l k := by
    intro k hk
    unfold val
    rw [List.getElem?_set_ne (by omega)]
  obtain ⟨h', e, hm, ho⟩ := sift_run ord (h := ⟨l.set 0 b, p⟩) (p := 0) (by simpa using hl) (by
    refine ⟨fun k h1 h2 h3 h4 => ?_, fun h0 => absurd h0 (by omega)⟩
    show val ord (l.set 0 b) k ≤ val ord (l.set 0 b) _
    rw [hval k h1, hval _ (by omega)]
    exact hg k h1 (by simpa using h2))
  have hp0 : PosOk ⟨l.set 0 b, p⟩ := by
    intro i y hi
    replace hi : (l.set 0 b)[i]? = some y := hi
    show p y = some i
    by_cases h0 : i = 0
    · subst h0
      rw [e2] at hi
      have : b = y := by simpa using hi
      subst this; exact hb
    · rw [List.getElem?_set_ne (by omega)] at hi
      exact hpos i y (by omega) hi
  refine ⟨h', e, ⟨ho, hm.posOk hp0⟩, ?_, fun y hy => hm.out y ?_⟩
  · have := hm.perm
    rw [show (HS.mk (l.set 0 b) p).es = l.set 0 b from rfl, e2] at this
    exact this
  · show y ∉ l.set 0 b
    rw [e2]
    exact hy

theorem swapHeads_run {s : RQ} {x : Nat} (h : Two s.data s) (hs : SplitBut x s) :
    ∃ s', swapHeads s = some s' ∧ Two s.data s' ∧ Split s.data s' ∧ Same x s s' ∧
      (s'.maxH ++ s'.minH).Perm (s.maxH ++ s.minH) ∧ s'.maxH.length = s.maxH.length := by
  have triv : Split s.data s → ∃ s', some s = some s' ∧ Two s.data s' ∧ Split s.data s' ∧ Same x s s' ∧
      (s'.maxH ++ s'.minH).Perm (s.maxH ++ s.minH) ∧ s'.maxH.length = s.maxH.length :=
    fun hsp => ⟨s, rfl, h, hsp, ⟨rfl, rfl, rfl, rfl, rfl, fun _ _ _ _ => rfl⟩, .refl _, rfl⟩
  unfold swapHeads
  cases ha : s.minH[0]? with
  | none =>
    refine triv fun u _ b hb => ?_
    have : s.minH = [] := by simpa using ha
    rw [this] at hb; cases hb
  | some a =>
    cases hb : s.maxH[0]? with
    | none =>
      refine triv fun u hu b _ => ?_
      have : s.maxH = [] := by simpa using hb
      rw [this] at hu; cases hu
    | some b =>
      show ∃ s', (if keyOf s.data a < keyOf s.data b then exchange s a b else some s) = some s' ∧ _
      have hbm : b ∈ s.maxH := List.mem_of_getElem? hb
      have ham : a ∈ s.minH := List.mem_of_getElem? ha
      have hmaxb : ∀ y ∈ s.maxH, keyOf s.data y ≤ keyOf s.data b :=
        top_extreme (h := ⟨s.maxH, s.pos⟩) h.gmax.ordered hb
      have hmina : ∀ y ∈ s.minH, keyOf s.data a ≤ keyOf s.data y := fun y hy => by
        have := top_extreme (h := ⟨s.minH, s.pos⟩) h.gmin.ordered ha y hy
        unfold minOrd at this
        omega
      by_cases hlt : keyOf s.data a < keyOf s.data b
      · rw [if_pos hlt]
        have hab : a ≠ b := by rintro rfl; omega
        have hpa : s.pos a = some 0 := h.gmin.pos 0 a ha
        have hpb : s.pos b = some 0 := h.gmax.pos 0 b hb
        obtain ⟨emin, -⟩ := set_head (b := b) ha
        obtain ⟨emax, -⟩ := set_head (b := a) hb
        have hndx : s.maxH.Nodup := good_nodup h.gmax.pos
        have hndn : s.minH.Nodup := good_nodup h.gmin.pos
        have hbt : b ∉ s.maxH.tail := by
          rw [emax] at hndx; exact (List.nodup_cons.1 hndx).1
        have hat : a ∉ s.minH.tail := by
          rw [emin] at hndn; exact (List.nodup_cons.1 hndn).1
        have hxt : ∀ y ∈ s.maxH.tail, y ∈ s.maxH := fun y hy => List.mem_of_mem_tail hy
        have hnt : ∀ y ∈ s.minH.tail, y ∈ s.minH := fun y hy => List.mem_of_mem_tail hy
        have hxc : ∀ y ∈ s.maxH, y = b ∨ y ∈ s.maxH.tail := fun y hy => by
          rw [emax] at hy; exact List.mem_cons.1 hy
        have hnc : ∀ y ∈ s.minH, y = a ∨ y ∈ s.minH.tail := fun y hy => by
          rw [emin] at hy; exact List.mem_cons.1 hy
        obtain ⟨h1, e1, hg1, hp1, ho1⟩ := replaceTop h.gmin.ordered (fun i y _ hi => h.gmin.pos i y hi) ha hpb
        have hout1 : ∀ y, y ≠ b → y ∉ s.minH.tail → h1.pos y = s.pos y := fun y h1 h2 => ho1 y (by
          rw [List.mem_cons]; rintro (h | h)
          · exact h1 h
          · exact h2 h)
        obtain ⟨h2, e2, hg2, hp2, ho2⟩ := replaceTop (l := s.maxH) (p := h1.pos) (b := a) h.gmax.ordered
          (fun i y h0 hi => by
            have hy : y ∈ s.maxH := List.mem_of_getElem? hi
            rw [hout1 y ?_ fun hy' => h.disj y hy (hnt y hy')]
            · exact h.gmax.pos i y hi
            · rintro rfl
              have := posOk_nodup h.gmax.pos (i := 0) (j := i) hb hi
              omega) hb (by rw [hout1 a hab hat]; exact hpa)
        have hm1 : ∀ y, y ∈ h1.es ↔ y = b ∨ y ∈ s.minH.tail := fun y => by
          rw [hp1.mem_iff, List.mem_cons]
        have hm2 : ∀ y, y ∈ h2.es ↔ y = a ∨ y ∈ s.maxH.tail := fun y => by
          rw [hp2.mem_iff, List.mem_cons]
        have hbx : b ∉ s.minH := h.disj b hbm
        have hax : a ∉ s.maxH := fun hh => h.disj a hh ham
        have hd : ∀ y, y ∈ h2.es → y ∉ h1.es := by
          intro y h3 h4
          rcases (hm2 y).1 h3 with rfl | h3
          · rcases (hm1 _).1 h4 with h4 | h4
            · exact hab h4
            · exact hat h4
          · rcases (hm1 _).1 h4 with rfl | h4
            · exact hbt h3
            · exact h.disj y (hxt y h3) (hnt y h4)
        refine ⟨(({ s with minH := h1.es, maxH := h2.es, pos := h2.pos } : RQ).setLoc b .inMin).setLoc a .inMax,
          ?_, ⟨hg2, good_frame (p := h1.pos) hg1 fun y hy => ho2 y ?_, hd, ?_, ?_⟩, ?_,
          ⟨rfl, rfl, rfl, rfl, rfl, ?_⟩, ?_, ?_⟩
        · unfold exchange
          rw [e1]
          show Option.map _ (applyChange _ _ _) = _
          rw [e2]; rfl
        · intro hy'
          exact hd y ((hm2 y).2 (List.mem_cons.1 hy')) hy
        · intro y hy
          by_cases hya : y = a
          · subst hya; exact setLoc_eq
          · have hy' := ((hm2 y).1 hy).resolve_left hya
            rw [setLoc_ne hya, setLoc_ne (by rintro rfl; exact hbt hy')]
            exact h.lmax y (hxt y hy')
        · intro y hy
          have hya : y ≠ a := by
            rintro rfl; exact hd _ ((hm2 _).2 (.inl rfl)) hy
          rw [setLoc_ne hya]
          by_cases hyb : y = b
          · subst hyb; exact setLoc_eq
          · rw [setLoc_ne hyb]
            exact h.lmin y (hnt y (((hm1 y).1 hy).resolve_left hyb))
        · intro u hu v hv
          replace hu := (hm2 u).1 hu
          replace hv := (hm1 v).1 hv
          have hcase : b = x ∨ a = x := by
            by_cases h3 : b = x
            · exact .inl h3
            · by_cases h4 : a = x
              · exact .inr h4
              · have := hs b hbm a ham h3 h4
                omega
          have key1 : ∀ u ∈ s.maxH.tail, ∀ v ∈ s.minH.tail, keyOf s.data u ≤ keyOf s.data v := by
            intro u' hu' v' hv'
            rcases hcase with hc | hc
            · exact hs u' (hxt u' hu') v' (hnt v' hv') (fun e => hbt (by rw [hc, ← e]; exact hu'))
                (fun e => hbx (by rw [hc, ← e]; exact hnt v' hv'))
            · exact hs u' (hxt u' hu') v' (hnt v' hv') (fun e => hax (by rw [hc, ← e]; exact hxt u' hu'))
                (fun e => hat (by rw [hc, ← e]; exact hv'))
          have kb : ∀ v ∈ s.minH.tail, keyOf s.data a ≤ keyOf s.data v := fun v hv => hmina v (hnt v hv)
          have ka : ∀ u ∈ s.maxH.tail, keyOf s.data u ≤ keyOf s.data b := fun u hu => hmaxb u (hxt u hu)
          rcases hu with rfl | hu
          · rcases hv with rfl | hv
            · omega
            · exact kb v hv
          · rcases hv with rfl | hv
            · exact ka u hu
            · exact key1 u hu v hv
        · intro y _ h3 h4
          rw [setLoc_ne (by rintro rfl; exact h4 ham), setLoc_ne (by rintro rfl; exact h3 hbm)]
        · show (h2.es ++ h1.es).Perm _
          refine (hp2.append hp1).trans ?_
          rw [emax, emin]
          show (a :: (s.maxH.tail ++ (b :: s.minH.tail))).Perm (b :: (s.maxH.tail ++ (a :: s.minH.tail)))
          refine (List.Perm.cons a List.perm_middle).trans ?_
          refine (List.Perm.swap b a _).trans ?_
          exact List.Perm.cons b List.perm_middle.symm
        · have := hp2.length_eq
          show h2.es.length = s.maxH.length
          rw [this, emax]
          rfl
      · rw [if_neg hlt]
        refine triv fun u hu v hv => ?_
        have := hmaxb u hu
        have := hmina v hv
        omega

end Riptide.Heap
