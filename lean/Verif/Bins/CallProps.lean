import Verif.Bins.CallLemmas
import Verif.Unary.StridedProps
import Verif.Stack.ConvertProps
/-! # What `BinsToCutsBSearch` answers (C139) -/
namespace Riptide.Bins.Call
open Riptide.Work Riptide.Binary Riptide.Unary
open Riptide.Convert.Call (Arr)
open Riptide.Convert.Call.Spec (At)
open Riptide.Bins.Call.Spec (Ext point Right Ordered Proper Packed Answers Item Has number whole shape)

theorem out_flat {a : Lay} {s : Nat} (h : a.dims.length ≤ 1) {idx : List Nat} (hb : InBounds idx a.dims) :
    offs idx (newOut a s).strides = (cPos idx a.dims : Int) * s ∧ fPos idx a.dims = cPos idx a.dims := by
  have e : (newOut a s).strides = [(s : Int)] := by unfold newOut; rw [if_pos h]
  rw [e]
  revert hb h
  generalize a.dims = dims
  intro h hb
  match dims, idx, h, hb with
  | [], [], _, _ => simp [offs, cPos, fPos]
  | [d], [i], _, _ => simp [offs, cPos, fPos, prod]

/-- The values and the results are in the same order, without gaps. -/
theorem layout {a : Arr} (h : Packed a) (s : Nat) :
    ∃ pos : List Nat → Nat, (∀ idx, InBounds idx a.lay.dims → offs idx a.lay.strides = (pos idx : Int) * a.lay.item ∧
        offs idx (newOut a.lay s).strides = (pos idx : Int) * s ∧ pos idx < a.lay.len) ∧
      ∀ k, k < a.lay.len → ∃ idx, InBounds idx a.lay.dims ∧ pos idx = k := by
  by_cases hc : a.lay.cContig = true
  · refine ⟨fun idx => cPos idx a.lay.dims, fun idx hb => ⟨offs_cContig a.lay hc idx hb, ?_, cPos_lt idx _ hb⟩, cPos_surj _⟩
    by_cases hd : a.lay.dims.length ≤ 1
    · exact (out_flat hd hb).1
    · have e : (newOut a.lay s).strides = cStrides s a.lay.dims := by unfold newOut; rw [if_neg hd, if_pos hc]
      rw [e]
      exact offs_c s idx _ hb
  · have hf := h.order.resolve_left hc
    refine ⟨fun idx => fPos idx a.lay.dims, fun idx hb => ⟨offs_fContig a.lay hf idx hb, ?_, fPos_lt idx _ hb⟩, fPos_surj _⟩
    by_cases hd : a.lay.dims.length ≤ 1
    · rw [(out_flat (s := s) hd hb).1]
      show _ = ((fPos idx a.lay.dims : Nat) : Int) * _
      rw [(out_flat (s := s) hd hb).2]
    · have e : (newOut a.lay s).strides = fStrides s a.lay.dims := by unfold newOut; rw [if_neg hd, if_neg hc, if_pos hf]
      rw [e]
      exact offs_f s idx _ hb

theorem out_dims (a : Arr) (s : Nat) : (newOut a.lay s).dims = shape a ∧ (newOut a.lay s).item = s := by
  unfold newOut shape Lay.len
  by_cases h : a.lay.dims.length ≤ 1
  · rw [if_pos h]
    refine ⟨?_, rfl⟩
    show [prod a.lay.dims] = _
    revert h
    generalize a.lay.dims = dims
    intro h
    match dims, h with
    | [], _ => rfl
    | [d], _ => simp [prod]
  · rw [if_neg h]
    have hd : ¬ a.lay.dims = [] := by
      intro h'
      rw [h'] at h
      simp at h
    exact ⟨(if_neg hd).symm, rfl⟩

/-- The number of bytes of a result: 1 up to 100 bins, 2 up to 30000, 4 up to two thousand millions. -/
def outSize (n : Nat) : Nat := if n ≤ 100 then 1 else if n ≤ 30000 then 2 else if n ≤ 2000000000 then 4 else 8

theorem out_size (n : Nat) : (outType n).bits / 8 = outSize n ∧ whole (outNum n) = some ⟨8 * outSize n, true⟩ ∧ 0 < outSize n := by
  unfold outType outNum outSize
  by_cases h1 : n ≤ 100
  · simp [h1, show ¬ n > 100 by omega]; decide
  · by_cases h2 : n ≤ 30000
    · simp [h1, h2, show n > 100 by omega, show ¬ n > 30000 by omega]; decide
    · by_cases h3 : n ≤ 2000000000
      · simp [h1, h2, h3, show n > 100 by omega, show n > 30000 by omega, show ¬ n > 2000000000 by omega]; decide
      · simp [h1, h2, h3, show n > 100 by omega, show n > 30000 by omega, show n > 2000000000 by omega]; decide

/-- The ends: the first and the last bin. -/
structure Ends (qs : List Ext) (f l : Ext) : Prop where
  first : qs.head? = some f
  last : qs.getLast? = some l

/-- The whole call, when the casts do no harm. -/
theorem run_right {m : Int} {mode : Mode} (hm : modeOf m = some mode) {T B : Num} {a b : Arr} (hT : Is a.ty T) (hB : Is b.ty B)
    (ha : Packed a) {qs : List Ext} (hb : Spec.Bins b qs) (hs : Ordered m qs) {f l : Ext} (he : Ends qs f l) (hn : SizeOk qs.length)
    (hbool : m = 0 → a.ty ≠ 0) {f' l' : Ext}
    (c1 : ∀ c, Item b.ty c → number b.ty c = some f → ∃ x, castNum B T c = some x ∧ number a.ty x = some f')
    (c2 : ∀ c, Item b.ty c → number b.ty c = some l → ∃ x, castNum B T c = some x ∧ number a.ty x = some l')
    (hk : ∀ idx v q, InBounds idx a.lay.dims → At a idx = some v → Item a.ty v → number a.ty v = some q → EndsOk m f' l' f l q ∧
      (q.lt f = false → l.lt q = false → ∃ y, castNum T B v = some y ∧ number b.ty y = some q))
    {workers : Nat} {nt : Bool} {par : Option (List Nat)} (h : ChunkSched workers a.lay.len nt par) :
    Answers a (outSize qs.length) (Right m a.ty qs) (run mode T B a b par) := by
  have h0 := head_pos he.first
  have hlen : b.lay.len = qs.length := by unfold Lay.len; rw [hb.shape.1]; simp [prod]
  have hat : ∀ (i : Nat) (q : Ext), qs[i]? = some q → ∃ c, cell b i = some c ∧ Item b.ty c ∧ number b.ty c = some q := by
    intro i q hq
    obtain ⟨x, x1, x2, x3⟩ := hb.items i q hq
    refine ⟨x, ?_, x2, x3⟩
    unfold At at x1
    rw [hb.shape.2] at x1
    simpa [cell, offs] using x1
  obtain ⟨fi, f1, f2, f3⟩ := hat 0 f (by rw [← List.head?_eq_getElem?]; exact he.first)
  obtain ⟨li, l1, l2, l3⟩ := hat (qs.length - 1) l (by rw [← List.getLast?_eq_getElem?]; exact he.last)
  obtain ⟨fx, f4, f5⟩ := c1 fi f2 f3
  obtain ⟨lx, l4, l5⟩ := c2 li l2 l3
  have hends : ends T B ⟨qs.length, cell b⟩ = some (fx, lx) := by
    unfold ends
    simp only
    have e : ((qs.length : Nat) : Int) - 1 = ((qs.length - 1 : Nat) : Int) := by omega
    rw [e, l1]
    simp only
    rw [l4]
    simp only
    have f1' : cell b 0 = some fi := f1
    rw [f1']
    simp only
    rw [f4]
    rfl
  have hholds : Holds b.ty ⟨qs.length, cell b⟩ qs := ⟨rfl, fun i q hq => by
    obtain ⟨c, h1, _, h2⟩ := hat i q hq
    exact ⟨c, h1, h2⟩⟩
  obtain ⟨pos, p1, p2⟩ := layout ha (outSize qs.length)
  have hov := noOverflow_outType hn
  have hrow : ∀ i, i < a.lay.len → ∃ r, ∀ idx, InBounds idx a.lay.dims → pos idx = i → ∃ v, At a idx = some v ∧
      (cell a i).bind (oneValue mode (outType qs.length) T B a.ty ⟨qs.length, cell b⟩ (fx, lx)) = some r ∧ Right m a.ty qs v r := by
    intro i hi
    obtain ⟨idx, i1, i2⟩ := p2 i hi
    obtain ⟨v, v1, v2⟩ := ha.items idx i1
    have hcell : cell a i = some v := by
      unfold At at v1
      rw [(p1 idx i1).1, i2] at v1
      exact v1
    obtain ⟨r, r1, r2⟩ := one_value hm hT hB hholds hov hs (e := (fx, lx)) f5 l5 he.first he.last hbool v
      fun q hq => hk idx v q i1 v1 v2 hq
    refine ⟨r, fun jdx j1 j2 => ⟨v, ?_, ?_, r2⟩⟩
    · unfold At
      rw [(p1 jdx j1).1, j2]
      exact hcell
    · rw [hcell]
      exact r1
  let g : Nat → Int := fun i => ((cell a i).bind (oneValue mode (outType qs.length) T B a.ty ⟨qs.length, cell b⟩ (fx, lx))).getD 0
  have hg : ∀ i, i < a.lay.len → (cell a i).bind (oneValue mode (outType qs.length) T B a.ty ⟨qs.length, cell b⟩ (fx, lx)) = some (g i) := by
    intro i hi
    obtain ⟨r, hr⟩ := hrow i hi
    obtain ⟨idx, i1, i2⟩ := p2 i hi
    obtain ⟨v, _, e, _⟩ := hr idx i1 i2
    show _ = some (Option.getD _ 0)
    rw [e]
    rfl
  have hrun : run mode T B a b par = .done (outNum qs.length) (newOut a.lay (outSize qs.length)) (((List.range a.lay.len).map g).map some) := by
    unfold run
    simp only [hlen]
    rw [hends]
    simp only
    rw [elemWork_exact (fun i : Nat => (cell a i).bind (oneValue mode (outType qs.length) T B a.ty ⟨qs.length, cell b⟩ (fx, lx))) g hg h]
    simp only
    rw [(out_size _).1]
  rw [hrun]
  have ho := out_size qs.length
  refine ⟨ho.2.1, (out_dims a _).1, (out_dims a _).2, by simp, ?_⟩
  intro idx hb
  obtain ⟨q1, q2, q3⟩ := p1 idx hb
  obtain ⟨r, hr⟩ := hrow (pos idx) q3
  obtain ⟨v, v1, v2, v3⟩ := hr idx hb rfl
  refine ⟨v, r, v1, ?_, v3⟩
  rw [q2, (out_dims a _).2]
  have e : ((pos idx : Int) * ((outSize qs.length : Nat) : Int)).toNat / outSize qs.length = pos idx := by
    have : ((pos idx : Int) * ((outSize qs.length : Nat) : Int)) = ((pos idx * outSize qs.length : Nat) : Int) := by push_cast; rfl
    rw [this, Int.toNat_natCast, Nat.mul_div_cancel _ ho.2.2]
  rw [e]
  have hgr : g (pos idx) = r := by
    have := hg (pos idx) q3
    rw [v2] at this
    exact (Option.some.inj this).symm
  simp [q3, hgr]

theorem data_type {n : Nat} (h : n ≤ 13) : ∃ T, dataType n = some T := by
  rcases (show n = 0 ∨ n = 1 ∨ n = 2 ∨ n = 3 ∨ n = 4 ∨ n = 5 ∨ n = 6 ∨ n = 7 ∨ n = 8 ∨ n = 9 ∨ n = 10 ∨ n = 11 ∨ n = 12 ∨ n = 13 by omega) with
    h | h | h | h | h | h | h | h | h | h | h | h | h | h <;> subst h <;> exact ⟨_, rfl⟩

/-- The types which bins can have: the signed integers, the unsigned ones of 64 bits, `float` and `double`. -/
def binTypes : List Nat := [1, 3, 5, 7, 8, 9, 10, 11, 12]

theorem bin_type {n : Nat} (h : n ∈ binTypes) : ∃ T, binType n = some T := by
  simp only [binTypes, List.mem_cons, List.not_mem_nil, or_false] at h
  rcases h with h | h | h | h | h | h | h | h | h <;> subst h <;> exact ⟨_, rfl⟩

theorem mode_of {m : Int} (h : m = 0 ∨ m = 1 ∨ m = 2) : ∃ mode, modeOf m = some mode := by
  rcases h with h | h | h <;> subst h <;> exact ⟨_, rfl⟩

theorem call_run {m : Int} {a b : Arr} {par : Option (List Nat)} (ha : a.ty ≤ 13) {mode : Mode} {T B : Num} (h1 : modeOf m = some mode)
    (h2 : dataType a.ty = some T) (h3 : binType b.ty = some B) : call m a b par = run mode T B a b par := by
  unfold call
  rw [if_neg (by omega), h1, h2, h3]

theorem ends_exist {qs : List Ext} (h : qs ≠ []) : ∃ f l, Ends qs f l := by
  refine ⟨qs.head h, qs.getLast h, ?_, ?_⟩
  · exact List.head?_eq_some_head h
  · exact List.getLast?_eq_some_getLast h

/-- The array of bins is one the call can search: at least one, in order, and not so many that the sum of two positions overflows. -/
structure Sorted (m : Int) (b : Arr) (qs : List Ext) : Prop where
  bins : Spec.Bins b qs
  some_ : qs ≠ []
  order : Ordered m qs
  size : SizeOk qs.length

/-- The first and the last bin are numbers of the type. -/
def EndsIn (ty : Nat) (qs : List Ext) : Prop := (∀ q, qs.head? = some q → Has ty q) ∧ ∀ q, qs.getLast? = some q → Has ty q

/-- **C139.** The call for any of the types it takes, for values in an array of any shape without gaps and any split over threads: every value gets its
bin, or its insertion point, when the first and the last bin are numbers of the type of the values, and every value between them is a number of the
type of the bins.  Cuts of `bool` are left out: `False` counts as invalid. -/
theorem search_partial {m : Int} (hm : m = 0 ∨ m = 1 ∨ m = 2) {a b : Arr} (hta : a.ty ≤ 13) (htb : b.ty ∈ binTypes) (hbool : m = 0 → a.ty ≠ 0)
    (ha : Packed a) {qs : List Ext} (hb : Sorted m b qs) (he : EndsIn a.ty qs)
    (hv : ∀ idx v q, InBounds idx a.lay.dims → At a idx = some v → number a.ty v = some q →
      (∀ f, qs.head? = some f → q.lt f = false) → (∀ l, qs.getLast? = some l → l.lt q = false) → Has b.ty q)
    {workers : Nat} {nt : Bool} {par : Option (List Nat)} (h : ChunkSched workers a.lay.len nt par) :
    Answers a (outSize qs.length) (Right m a.ty qs) (call m a b par) := by
  obtain ⟨mode, h1⟩ := mode_of hm
  obtain ⟨T, h2⟩ := data_type hta
  obtain ⟨B, h3⟩ := bin_type htb
  obtain ⟨f, l, hfl⟩ := ends_exist hb.some_
  rw [call_run hta h1 h2 h3]
  have iT := is_data h2
  have iB := is_bin h3
  refine run_right h1 iT iB ha hb.bins hb.order hfl hb.size hbool (f' := f) (l' := l) ?_ ?_ ?_ h
  · intro c _ hc
    exact cast_keeps iB iT hc (he.1 f hfl.first)
  · intro c _ hc
    exact cast_keeps iB iT hc (he.2 l hfl.last)
  · intro idx v q hi hat _ hq
    refine ⟨⟨fun _ => ⟨rfl, rfl⟩, fun _ => ⟨rfl, rfl⟩, fun _ => ⟨rfl, rfl⟩⟩, fun k1 k2 => ?_⟩
    refine cast_keeps iT iB hq (hv idx v q hi hat hq ?_ ?_)
    · intro f' hf'
      have := hfl.first
      rw [hf'] at this
      cases this
      exact k1
    · intro l' hl'
      have := hfl.last
      rw [hl'] at this
      cases this
      exact k2

theorem item_at {a : Arr} (ha : Packed a) {idx : List Nat} {v : Int} (hi : InBounds idx a.lay.dims) (h : At a idx = some v) : Item a.ty v := by
  obtain ⟨x, h1, h2⟩ := ha.items idx hi
  rw [h] at h1
  cases h1
  exact h2

/-- **C139.** Values and bins of one type: every answer is right, infinities and NaNs among the values included. -/
theorem search_same_partial {m : Int} (hm : m = 0 ∨ m = 1 ∨ m = 2) {a b : Arr} (hty : a.ty = b.ty) (htb : b.ty ∈ binTypes)
    (ha : Packed a) {qs : List Ext} (hb : Sorted m b qs)
    {workers : Nat} {nt : Bool} {par : Option (List Nat)} (h : ChunkSched workers a.lay.len nt par) :
    Answers a (outSize qs.length) (Right m a.ty qs) (call m a b par) := by
  have hty' : a.ty ≤ 13 ∧ a.ty ≠ 0 := by
    rw [hty]
    simp only [binTypes, List.mem_cons, List.not_mem_nil, or_false] at htb
    omega
  have hin : ∀ (i : Nat) (q : Ext), qs[i]? = some q → Has a.ty q := by
    intro i q hq
    obtain ⟨x, _, h1, h2⟩ := hb.bins.items i q hq
    rw [← hty] at h1 h2
    exact ⟨x, h1, h2⟩
  refine search_partial hm hty'.1 htb (fun _ => hty'.2) ha hb ⟨?_, ?_⟩ ?_ h
  · intro q hq
    rw [List.head?_eq_getElem?] at hq
    exact hin _ q hq
  · intro q hq
    rw [List.getLast?_eq_getElem?] at hq
    exact hin _ q hq
  · intro idx v q hi hat hq _ _
    rw [← hty]
    exact ⟨v, item_at ha hi hat, hq⟩

/-- **C139.** Two integer types: the answers are right when the first and the last bin fit the type of the values. -/
theorem search_whole_partial {m : Int} (hm : m = 0 ∨ m = 1 ∨ m = 2) {a b : Arr} (hta : a.ty ≤ 10) (htb : b.ty ∈ binTypes) (hint : b.ty ≤ 10)
    (hbool : m = 0 → a.ty ≠ 0) (ha : Packed a) {qs : List Ext} (hb : Sorted m b qs) (he : EndsIn a.ty qs)
    {workers : Nat} {nt : Bool} {par : Option (List Nat)} (h : ChunkSched workers a.lay.len nt par) :
    Answers a (outSize qs.length) (Right m a.ty qs) (call m a b par) := by
  refine search_partial hm (by omega) htb hbool ha hb he ?_ h
  intro idx v q hi hat hq c1 c2
  obtain ⟨f, l, hfl⟩ := ends_exist hb.some_
  have c1 := c1 f hfl.first
  have c2 := c2 l hfl.last
  obtain ⟨t, ht⟩ : ∃ t, whole a.ty = some t := by unfold whole; rw [if_pos hta]; exact ⟨_, rfl⟩
  obtain ⟨u, hu⟩ : ∃ u, whole b.ty = some u := by unfold whole; rw [if_pos hint]; exact ⟨_, rfl⟩
  have nA : ∀ x, number a.ty x = some (.fin x) := fun x => by unfold number; rw [ht]
  have nB : ∀ x, number b.ty x = some (.fin x) := fun x => by unfold number; rw [hu]
  have iB : ∀ x, Item b.ty x ↔ u.InRange x := fun x => by unfold Item; rw [hu]
  obtain ⟨x, _, x1, x2⟩ := hb.bins.items 0 f (by rw [← List.head?_eq_getElem?]; exact hfl.first)
  obtain ⟨y, _, y1, y2⟩ := hb.bins.items (qs.length - 1) l (by rw [← List.getLast?_eq_getElem?]; exact hfl.last)
  rw [nA] at hq
  rw [nB] at x2 y2
  cases hq
  cases x2
  cases y2
  have z1 : x ≤ v := by
    simp only [Ext.lt, decide_eq_false_iff_not] at c1
    have := mt Rat.intCast_lt_intCast.2 c1
    omega
  have z2 : v ≤ y := by
    simp only [Ext.lt, decide_eq_false_iff_not] at c2
    have := mt Rat.intCast_lt_intCast.2 c2
    omega
  refine ⟨v, (iB v).2 ?_, nB v⟩
  have hx := (iB x).1 x1
  have hy := (iB y).1 y1
  unfold IT.InRange at *
  omega

theorem scaledMag_norm (f : FT) {e q : Nat} (h1 : 2 ^ f.mb ≤ q) (h2 : q < 2 * 2 ^ f.mb) : f.scaledMag (e * 2 ^ f.mb + q) = q * 2 ^ e := by
  have hp := Convert.two_pow_pos f.mb
  have e1 : (e * 2 ^ f.mb + q) / 2 ^ f.mb = e + 1 := by
    rw [Nat.div_eq_iff (by omega), Nat.succ_mul]
    omega
  have e2 : (e * 2 ^ f.mb + q) % 2 ^ f.mb = q - 2 ^ f.mb := by
    have := Nat.div_add_mod (e * 2 ^ f.mb + q) (2 ^ f.mb)
    rw [e1, Nat.mul_succ, Nat.mul_comm] at this
    omega
  unfold FT.scaledMag
  rw [e1, e2, if_neg (by omega), Nat.add_sub_cancel]
  congr 1
  omega

/-- Every finite number of a format is one of a format which is wide enough. -/
theorem widen {f g : FT} (hm : f.mb ≤ g.mb) (hu : f.unit + g.mb ≤ g.unit) (h3 : 3 ≤ 2 ^ f.eb)
    (he : 2 ^ f.eb + f.mb + g.unit ≤ 2 ^ g.eb + g.mb + f.unit) {k : Nat}
    (hk : k < f.infMag) : ∃ y, y < g.infMag ∧ g.scaledMag y = f.scaledMag k * 2 ^ (g.unit - f.unit) := by
  have hp := Convert.two_pow_pos f.mb
  obtain ⟨s, e, hs, hsz, hee⟩ : ∃ s e, f.scaledMag k = s * 2 ^ e ∧ s < 2 * 2 ^ f.mb ∧ e + 3 ≤ 2 ^ f.eb := by
    rcases scaledMag_cases f k with ⟨h1, h2⟩ | ⟨q, e, h1, h2, h4, h5⟩
    · exact ⟨k, 0, by rw [h2]; simp, by omega, by omega⟩
    · refine ⟨q, e, h5, h4, ?_⟩
      unfold FT.infMag at hk
      have : (e + 1) * 2 ^ f.mb < (2 ^ f.eb - 1) * 2 ^ f.mb := by rw [Nat.succ_mul]; omega
      have := Nat.lt_of_mul_lt_mul_right this
      omega
  rw [hs]
  have hpg := Convert.two_pow_pos g.mb
  have hinf : 0 < g.infMag := by
    unfold FT.infMag
    exact Nat.mul_pos (by omega) hpg
  by_cases h0 : s = 0
  · refine ⟨0, hinf, ?_⟩
    rw [h0]
    unfold FT.scaledMag
    simp
  · have l1 := Nat.log2_self_le h0
    have l2 : s < 2 ^ (s.log2 + 1) := Nat.lt_log2_self
    have l3 : s.log2 ≤ f.mb := by
      have : 2 ^ s.log2 < 2 ^ (f.mb + 1) := by rw [Nat.pow_succ']; omega
      have := (Nat.pow_lt_pow_iff_right (by decide : 1 < 2)).1 this
      omega
    have q1 : 2 ^ g.mb ≤ s * 2 ^ (g.mb - s.log2) := by
      have : 2 ^ g.mb = 2 ^ s.log2 * 2 ^ (g.mb - s.log2) := by rw [← Nat.pow_add]; congr 1; omega
      rw [this]
      exact Nat.mul_le_mul_right _ l1
    have q2 : s * 2 ^ (g.mb - s.log2) < 2 * 2 ^ g.mb := by
      have : 2 * 2 ^ g.mb = 2 ^ (s.log2 + 1) * 2 ^ (g.mb - s.log2) := by rw [← Nat.pow_add, ← Nat.pow_succ']; congr 1; omega
      rw [this]
      exact Nat.mul_lt_mul_of_pos_right l2 (Convert.two_pow_pos _)
    refine ⟨(e + (g.unit - f.unit) + s.log2 - g.mb) * 2 ^ g.mb + s * 2 ^ (g.mb - s.log2), ?_, ?_⟩
    · unfold FT.infMag
      have e1 : e + (g.unit - f.unit) + s.log2 - g.mb + 2 ≤ 2 ^ g.eb - 1 := by omega
      have e2 := Nat.mul_le_mul_right (2 ^ g.mb) e1
      rw [Nat.add_mul] at e2
      omega
    · rw [scaledMag_norm g q1 q2, Nat.mul_assoc, Nat.mul_assoc, ← Nat.pow_add, ← Nat.pow_add]
      congr 2
      omega

/-- The widening keeps the number. -/
theorem has_wider {f g : FT} (hm : f.mb ≤ g.mb) (hu : f.unit + g.mb ≤ g.unit) (h3 : 3 ≤ 2 ^ f.eb)
    (he : 2 ^ f.eb + f.mb + g.unit ≤ 2 ^ g.eb + g.mb + f.unit) {x : Nat} {q : Ext} (h : Spec.floatVal f x = some q) :
    ∃ y, y < 2 ^ (1 + g.eb + g.mb) ∧ Spec.floatVal g y = some q := by
  have h2 : 2 ^ (1 + g.eb + g.mb) = 2 ^ (g.eb + g.mb) + 2 ^ (g.eb + g.mb) := by
    rw [← Nat.two_mul, ← Nat.pow_succ']; congr 1; omega
  have hi := Stack.infMag_lt (g := g)
  cases hn : f.isNan x with
  | true => unfold Spec.floatVal at h; rw [hn] at h; cases h
  | false =>
    cases hf : f.isFinite x with
    | false =>
      obtain ⟨s1, s2⟩ := Stack.sign_mag (g := g) (f.neg x) hi
      refine ⟨(if f.neg x = true then 2 ^ (g.eb + g.mb) else 0) + g.infMag, ?_, ?_⟩
      · split <;> omega
      · unfold Spec.floatVal at h ⊢
        rw [hn, hf] at h
        unfold FT.isNan FT.isFinite
        rw [s1, s2]
        simpa using h
    | true =>
      have hq := fin_of_scaled hf
      rw [h] at hq
      have hq := Option.some.inj hq
      subst hq
      obtain ⟨y, y1, y2⟩ := widen hm hu h3 he (k := f.mag x) (by unfold FT.isFinite at hf; simpa using hf)
      obtain ⟨s1, s2⟩ := Stack.sign_mag (g := g) (f.neg x) (Nat.lt_trans y1 hi)
      refine ⟨(if f.neg x = true then 2 ^ (g.eb + g.mb) else 0) + y, ?_, ?_⟩
      · split <;> omega
      · rw [fin_of_scaled (by unfold FT.isFinite; rw [s1]; simpa using y1)]
        congr 2
        apply div_of_eq
        unfold FT.scaled
        rw [s1, s2]
        have hz : ((g.scaledMag y : Nat) : Int) * (2 ^ f.unit : Nat) = ((f.scaledMag (f.mag x) : Nat) : Int) * (2 ^ g.unit : Nat) := by
          rw [y2]
          have : 2 ^ g.unit = 2 ^ (g.unit - f.unit) * 2 ^ f.unit := by rw [← Nat.pow_add]; congr 1; omega
          rw [this]
          push_cast
          rw [Int.mul_assoc]
        cases f.neg x with
        | true => simp only [if_true]; rw [Int.neg_mul, Int.neg_mul, hz]
        | false => simp only [if_neg Bool.false_ne_true]; exact hz

theorem f32_f64 {q : Ext} (h : Has 11 q) : Has 12 q := by
  obtain ⟨x, _, h2⟩ := h
  have h2 : Spec.floatVal .f32 x.toNat = some q := h2
  obtain ⟨y, y1, y2⟩ := has_wider (g := .f64) (by decide) (by decide) (by decide) (by decide +kernel) h2
  refine ⟨y, ?_, ?_⟩
  · show 0 ≤ (y : Int) ∧ (y : Int) < (2 ^ (1 + 11 + 52) : Nat)
    have : y < 2 ^ (1 + 11 + 52) := y1
    omega
  · show Spec.floatVal .f64 ((y : Int).toNat) = some q
    rw [Int.toNat_natCast]
    exact y2

/-- **C139.** Values of type `float`, bins of type `double`: the answers are right when the first and the last bin are numbers of type `float`. -/
theorem search_float_partial {m : Int} (hm : m = 0 ∨ m = 1 ∨ m = 2) {a b : Arr} (hta : a.ty = 11) (htb : b.ty = 12)
    (ha : Packed a) {qs : List Ext} (hb : Sorted m b qs) (he : EndsIn 11 qs)
    {workers : Nat} {nt : Bool} {par : Option (List Nat)} (h : ChunkSched workers a.lay.len nt par) :
    Answers a (outSize qs.length) (Right m a.ty qs) (call m a b par) := by
  refine search_partial hm (by omega) (by rw [htb]; decide) (fun _ => by omega) ha hb (by rw [hta]; exact he) ?_ h
  intro idx v q hi hat hq _ _
  rw [htb]
  exact f32_f64 (by rw [← hta]; exact ⟨v, item_at ha hi hat, hq⟩)

/-! ### Integers in floating point bins -/

/-- Rounding towards zero. -/
def chop (p : Rat) : Int := if 0 ≤ p then p.floor else p.ceil

theorem chop_of_nonneg {p : Rat} (h : 0 ≤ p) (v : Int) : chop p < v ↔ p < v := by
  unfold chop
  rw [if_pos h]
  exact Rat.floor_lt_iff

theorem chop_of_nonpos {p : Rat} (h : p ≤ 0) (v : Int) : v < chop p ↔ (v : Rat) < p := by
  unfold chop
  by_cases h0 : 0 ≤ p
  · have : p = ((0 : Int) : Rat) := Rat.le_antisymm h h0
    rw [if_pos h0, this, Rat.floor_intCast]
    exact Rat.intCast_lt_intCast.symm
  · rw [if_neg h0]
    exact Rat.lt_ceil_iff

theorem chop_int (z : Int) : chop z = z := by
  unfold chop
  rw [Rat.floor_intCast, Rat.ceil_intCast]
  split <;> rfl

/-- The cast to integers rounds towards zero. -/
theorem trunc_chop {f : FT} {x : Nat} {p : Rat} (h : Spec.floatVal f x = some (.fin p)) : f.isFinite x = true ∧ f.trunc x = chop p := by
  obtain ⟨h1, _, h2⟩ := scaled_of_fin h
  refine ⟨h1, ?_⟩
  unfold FT.trunc
  have hp := Convert.two_pow_pos f.unit
  generalize hc : 2 ^ f.unit = c at *
  have hcr : (0 : Rat) < (c : Rat) := by exact_mod_cast hp
  have hmul : p * (c : Rat) = ((f.scaled x : Int) : Rat) := by
    rw [h2]
    have : (c : Rat) ≠ 0 := by grind
    generalize (c : Rat) = d at *
    grind
  have hci : ((c : Int) : Rat) = (c : Rat) := Rat.intCast_natCast c
  generalize f.scaled x = s at *
  have key : ∀ z : Int, ((z : Rat) ≤ p ↔ z * (c : Int) ≤ s) := by
    intro z
    have : ((z : Rat) ≤ p ↔ (z : Rat) * (c : Rat) ≤ p * (c : Rat)) := by
      have := Rat.mul_lt_mul_right (a := p) (b := (z : Rat)) hcr
      rw [← Rat.not_lt, ← Rat.not_lt, this]
    rw [this, hmul, ← hci, ← Rat.intCast_mul]
    exact Rat.intCast_le_intCast
  have key' : ∀ z : Int, (p ≤ (z : Rat) ↔ s ≤ z * (c : Int)) := by
    intro z
    have : (p ≤ (z : Rat) ↔ p * (c : Rat) ≤ (z : Rat) * (c : Rat)) := by
      have := Rat.mul_lt_mul_right (a := (z : Rat)) (b := p) hcr
      rw [← Rat.not_lt, ← Rat.not_lt, this]
    rw [this, hmul, ← hci, ← Rat.intCast_mul]
    exact Rat.intCast_le_intCast
  unfold chop
  by_cases h0 : 0 ≤ p
  · rw [if_pos h0]
    have hs : 0 ≤ s := by
      have := (key 0).1 (by simpa using h0)
      omega
    rw [Int.tdiv_eq_ediv_of_nonneg hs]
    apply Int.le_antisymm
    · rw [Rat.le_floor_iff, key]
      exact Int.ediv_mul_le _ (by omega)
    · rw [Int.le_ediv_iff_mul_le (by omega), ← key]
      exact Rat.floor_le p
  · rw [if_neg h0]
    have hs : s ≤ 0 := by
      have := (key' 0).1 (by simpa using (by grind : p ≤ 0))
      omega
    have e : s = -(-s) := by omega
    rw [e, Int.neg_tdiv, Int.tdiv_eq_ediv_of_nonneg (by omega), Rat.ceil_eq_neg_floor_neg]
    congr 1
    apply Int.le_antisymm
    · rw [Rat.le_floor_iff]
      have := Int.ediv_mul_le (-s) (b := c) (by omega)
      have h3 := (key' (-((-s) / (c : Int)))).2 (by rw [Int.neg_mul]; omega)
      rw [Rat.intCast_neg] at h3
      grind
    · rw [Int.le_ediv_iff_mul_le (by omega)]
      have h3 := Rat.floor_le (-p)
      have h4 := (key' (-((-p).floor))).1 (by rw [Rat.intCast_neg]; grind)
      rw [Int.neg_mul] at h4
      omega

/-- Small integers are numbers of a floating point type. -/
theorem has_int {g : FT} (hg : Convert.Spec.Good g) {ty : Nat} (h : Is ty (.flt g)) {v : Int} (hv : v.natAbs < 2 ^ (g.mb + 1)) : Has ty (.fin v) := by
  have h1 := Convert.ofInt_exact g hg hv
  have h2 := Stack.roundMag_le hg hv
  refine ⟨(g.ofInt v : Int), (number_flt h _).2.2 ⟨by omega, by exact_mod_cast h2⟩, ?_⟩
  rw [(number_flt h _).1, Int.toNat_natCast, fin_of_scaled h1.1, h1.2, int_div]

/-- The rounding of the ends towards zero moves no integer across them, as far as the mode compares it. -/
def Harmless (m : Int) (p r : Rat) : Prop :=
  (m = 0 → (p ≤ 0 ∨ ∃ z : Int, p = z) ∧ (0 ≤ r ∨ ∃ z : Int, r = z)) ∧
  (m = 1 → (0 ≤ p ∨ ∃ z : Int, p = z) ∧ (0 ≤ r ∨ ∃ z : Int, r = z)) ∧
  (m = 2 → (p ≤ 0 ∨ ∃ z : Int, p = z) ∧ (r ≤ 0 ∨ ∃ z : Int, r = z))

theorem chop_above {p : Rat} (h : 0 ≤ p ∨ ∃ z : Int, p = z) (v : Int) : (Ext.fin (chop p : Int)).lt (.fin v) = (Ext.fin p).lt (.fin v) := by
  simp only [Ext.lt, decide_eq_decide]
  rw [Rat.intCast_lt_intCast]
  rcases h with h | ⟨z, rfl⟩
  · exact chop_of_nonneg h v
  · rw [chop_int]; exact Rat.intCast_lt_intCast.symm

theorem chop_below {p : Rat} (h : p ≤ 0 ∨ ∃ z : Int, p = z) (v : Int) : (Ext.fin v).lt (.fin (chop p : Int)) = (Ext.fin v).lt (.fin p) := by
  simp only [Ext.lt, decide_eq_decide]
  rw [Rat.intCast_lt_intCast]
  rcases h with h | ⟨z, rfl⟩
  · exact chop_of_nonpos h v
  · rw [chop_int]; exact Rat.intCast_lt_intCast.symm

/-- The integers below which every one is a number of the type. -/
def exactUpTo (ty : Nat) : Nat := if ty = 11 then 2 ^ 24 else 2 ^ 53

/-- **C139.** Integer values in bins of type `float` or `double`, with any numbers as bins: the answers are right when the ends are finite, fit the
type of the values once they are rounded towards zero, are on the harmless side of zero or integers, and the values between them are below 2²⁴ or 2⁵³. -/
theorem search_rounded_partial {m : Int} (hm : m = 0 ∨ m = 1 ∨ m = 2) {a b : Arr} (hta : a.ty ≤ 10) (htb : b.ty = 11 ∨ b.ty = 12)
    (hbool : m = 0 → a.ty ≠ 0) (ha : Packed a) {qs : List Ext} (hb : Sorted m b qs) {p r : Rat} (hp : qs.head? = some (.fin p))
    (hr : qs.getLast? = some (.fin r)) (hpf : Item a.ty (chop p)) (hrf : Item a.ty (chop r)) (hh : Harmless m p r)
    (hv : ∀ (idx : List Nat) (v : Int), InBounds idx a.lay.dims → At a idx = some v → p ≤ v → (v : Rat) ≤ r → v.natAbs < exactUpTo b.ty)
    {workers : Nat} {nt : Bool} {par : Option (List Nat)} (h : ChunkSched workers a.lay.len nt par) :
    Answers a (outSize qs.length) (Right m a.ty qs) (call m a b par) := by
  obtain ⟨mode, h1⟩ := mode_of hm
  obtain ⟨T, h2⟩ := data_type (n := a.ty) (by omega)
  obtain ⟨B, h3⟩ := bin_type (n := b.ty) (by rcases htb with h | h <;> rw [h] <;> decide)
  rw [call_run (by omega) h1 h2 h3]
  have iT := is_data h2
  have iB := is_bin h3
  obtain ⟨t, ht⟩ : ∃ t, whole a.ty = some t := by unfold whole; rw [if_pos hta]; exact ⟨_, rfl⟩
  obtain ⟨g, rfl, hge⟩ : ∃ g, B = .flt g ∧ exactUpTo b.ty = 2 ^ (g.mb + 1) := by
    rcases htb with h | h <;> rw [h] at h3 ⊢ <;> cases h3 <;> exact ⟨_, rfl, rfl⟩
  have eT : T = .int t := by
    cases T with
    | int u => rw [iT.1] at ht; cases ht; rfl
    | flt f => rw [iT.1] at ht; cases ht
  subst eT
  have hcast : ∀ (c : Int) (p : Rat), Item a.ty (chop p) → number b.ty c = some (.fin p) →
      ∃ x, castNum (.flt g) (.int t) c = some x ∧ number a.ty x = some (.fin (chop p : Int)) := by
    intro c p hi hc
    rw [(number_flt iB c).1] at hc
    obtain ⟨k1, k2⟩ := trunc_chop hc
    refine ⟨chop p, ?_, (number_int iT _).1⟩
    show g.toInt t c.toNat = _
    unfold FT.toInt
    rw [k2, if_pos ⟨k1, (number_int iT _).2.1 hi⟩]
  refine run_right h1 iT iB ha hb.bins hb.order ⟨hp, hr⟩ hb.size hbool (fun c _ hc => hcast c p hpf hc) (fun c _ hc => hcast c r hrf hc) ?_ h
  intro idx v q hi hat _ hq
  rw [(number_int iT v).1] at hq
  cases hq
  refine ⟨⟨fun e => ?_, fun e => ?_, fun e => ?_⟩, fun k1 k2 => ?_⟩
  · exact ⟨chop_above (hh.2.1 e).1 v, chop_above (hh.2.1 e).2 v⟩
  · exact ⟨chop_below (hh.2.2 e).1 v, chop_below (hh.2.2 e).2 v⟩
  · exact ⟨chop_below (hh.1 e).1 v, chop_above (hh.1 e).2 v⟩
  · refine cast_keeps iT iB (number_int iT v).1 (has_int iB.2.2 iB ?_)
    rw [← hge]
    simp only [Ext.lt, decide_eq_false_iff_not] at k1 k2
    exact hv idx v hi hat (by grind) (by grind)

end Riptide.Bins.Call
