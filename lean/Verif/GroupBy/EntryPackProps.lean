import Verif.GroupBy.EntryCallProps
/-! # The call `GroupByAllPack32`: types and sizes of the results -/
namespace Riptide.GroupBy.Entry

/-- The items written by the function of a column fit into the result which is made for it. -/
def Roomy (func : Int) (c : Col) (x : XFun) (o : Out) : Prop := x.width c.item = o.item ∧ (200 ≤ func → o.items = c.len)

theorem inside_roomy {func : Int} {item : Nat} {x : XFun} {o : Out} {lo hi : Int} (hw : x.width item = o.item)
    (h : func < 200 → 0 ≤ lo ∧ lo ≤ hi ∧ hi ≤ o.items) : XJob.inside ⟨x, item, lo, hi, o⟩ func = true := by
  rw [XJob.inside]
  split
  · simp [hw]
  · rename_i hf
    obtain ⟨h0, h1, h2⟩ := h (by omega)
    simp only [hw]
    have a : 0 ≤ lo * (o.item : Int) := Int.mul_nonneg h0 (by omega)
    have b : hi * (o.item : Int) ≤ o.items * (o.item : Int) := Int.mul_le_mul_of_nonneg_right h2 (by omega)
    simp [a, b]

theorem plain_out : ∀ func ∈ groupFuncs, ∀ ty < 14, func ≠ 105 → func ≠ 106 → (xFunc func ty).all (fun x => x.out == ty) = true := by
  decide +kernel

/-- Whether the size of an item is kept: void columns keep it only for the shift of rows, and items of one byte always do. -/
def keepsSize (func : Int) (c : Col) : Bool := c.ty != 20 || func == 203 || c.item == 1

theorem flexible_funcs : ∀ func ∈ groupFuncs ++ rowFuncs, ∀ ty ∈ [18, 19, 20],
    (xFunc func ty).isSome = true → func = 203 ∨ func ∈ ([100, 101, 102, 103] : List Int) := by decide +kernel

/-- What is known of a prepared column. -/
def XJobOk (r : Req) (i : Nat) (c : Col) (j : XJob) : Prop :=
  xFunc (funcOf (r.funcs.getD i 0)) c.ty = some j.x ∧ j.item = c.item ∧ r.lows[i]? = some j.lo ∧ r.highs[i]? = some j.hi ∧
    j.x.width c.item = j.out.item ∧ j.out.ty = j.x.out ∧
    j.out.items = (if 200 ≤ funcOf (r.funcs.getD i 0) then (c.len : Int) else r.uniq + 1)

theorem freshItem_flexible {ty : Nat} (h : flexible ty = true) : freshItem ty = 1 := by
  rw [flexible_iff] at h
  rcases h with h | h | h <;> subst h <;> rfl

theorem xPrepare_ok {r : Req} {i : Nat} {c : Col} {lo hi : Int} {x : XFun} (hl : r.lows[i]? = some lo) (hh : r.highs[i]? = some hi)
    (h0 : 0 ≤ lo) (h1 : lo ≤ hi) (h2 : hi ≤ r.uniq + 1) (hn : r.uniq + 1 < 2 ^ 63) (hc : c.len = r.keyLen) (hnone : c.isNone = false)
    (hx : xFunc (funcOf (r.funcs.getD i 0)) c.ty = some x) (hk : keepsSize (funcOf (r.funcs.getD i 0)) c = true) :
    ∃ j, xPrepare r (r.uniq + 1) i c = .ok j ∧ XJobOk r i c j := by
  have hg : r.lows.getD i 0 = lo := by simp [List.getD, hl]
  have hd := x_domain hx
  have hfacts := x_facts hx
  rw [xPrepare, hh]
  simp only [hx, hg, asI64_id h0 (by omega : lo < 2 ^ 63), asI64_id (by omega : 0 ≤ hi) (by omega : hi < 2 ^ 63)]
  generalize hfn : funcOf (r.funcs.getD i 0) = func at *
  have hn0 : ¬ (r.uniq + 1 < 0) := by omega
  by_cases hflex : flexible c.ty = true
  · rw [if_pos hflex] at hfacts
    obtain ⟨hu, _, ho⟩ := hfacts
    have hw : ∀ item, x.width item = item := fun item => by rw [XFun.width, if_pos hu]
    have hty : c.ty ∈ [18, 19, 20] := by
      rw [flexible_iff] at hflex; simp; exact hflex
    rcases flexible_funcs func hd.1 c.ty hty (by rw [hx]; rfl) with hf | hf
    · subst hf
      rw [if_neg (by decide), if_pos (by decide), if_neg (by omega), if_neg (by simp [hnone])]
      refine ⟨_, rfl, by rw [hfn]; exact hx, rfl, hl, hh, ?_, rfl, by rw [hfn]; rfl⟩
      simp only [hw, sameItem, ho, hflex, if_true]
    · have h105 : ¬ (func = 105 ∨ func = 106) := by
        intro h; rcases h with h | h <;> subst h <;> revert hf <;> decide
      have h200 : ¬ (200 ≤ func) := by
        simp at hf; omega
      rw [if_neg h105, if_neg h200, if_neg (by simp [hnone]), if_neg hn0]
      refine ⟨_, rfl, by rw [hfn]; exact hx, rfl, hl, hh, ?_, ho.symm, by rw [hfn, if_neg h200]⟩
      simp only [hw, likeItem]
      split
      · rfl
      · rename_i hb
        have h20 : c.ty = 20 := by
          simp at hty; omega
        have h203 : func ≠ 203 := by intro h; subst h; revert hf; decide
        simp [keepsSize, h20, h203] at hk
        rw [freshItem_flexible hflex, hk]
  · rw [if_neg hflex] at hfacts
    obtain ⟨_, hu, hraw, hs, ho, _⟩ := hfacts
    have hw : ∀ item, x.width item = freshItem x.out := fun item => by rw [XFun.width, if_neg hraw, hs]
    have hnf : flexible x.out = false := by
      cases h : flexible x.out with
      | false => rfl
      | true => rw [flexible_iff] at h; omega
    by_cases h105 : func = 105 ∨ func = 106
    · rw [if_pos h105, if_neg hn0]
      have h200 : ¬ (200 ≤ func) := by omega
      exact ⟨_, rfl, by rw [hfn]; exact hx, rfl, hl, hh, hw _, rfl, by rw [hfn, if_neg h200]⟩
    · rw [if_neg h105]
      by_cases h200 : 200 ≤ func
      · rw [if_pos h200, if_neg (by omega), if_neg (by simp [hnone])]
        refine ⟨_, rfl, by rw [hfn]; exact hx, rfl, hl, hh, ?_, rfl, by rw [hfn, if_pos h200]⟩
        simp only [hw, sameItem, hnf, Bool.false_eq_true, if_false]
      · rw [if_neg h200, if_neg (by simp [hnone]), if_neg hn0]
        have hgf : func ∈ groupFuncs := by
          have := hd.1
          simp [groupFuncs, rowFuncs] at this ⊢
          omega
        have hty : c.ty < 14 := by
          have := hd.2
          simp at this
          rcases this with h | h
          · exact h
          · exact absurd ((flexible_iff _).mpr (by omega)) hflex
        have hout : x.out = c.ty := by
          have := plain_out func hgf c.ty hty (by omega) (by omega)
          rw [hx] at this
          simpa using this
        refine ⟨_, rfl, by rw [hfn]; exact hx, rfl, hl, hh, ?_, hout.symm, by rw [hfn, if_neg h200]⟩
        simp only [hw, likeItem]
        rw [if_neg (by omega), hout]

theorem xPrepareAll_ok {r : Req} (hn : r.uniq + 1 < 2 ^ 63) : ∀ (cs : List Col) (i : Nat),
    (∀ (k : Nat) (c : Col), cs[k]? = some c → (xFunc (funcOf (r.funcs.getD (i + k) 0)) c.ty).isSome = true ∧
      keepsSize (funcOf (r.funcs.getD (i + k) 0)) c = true ∧ c.len = r.keyLen ∧ c.isNone = false ∧
      ∃ lo hi, r.lows[i + k]? = some lo ∧ r.highs[i + k]? = some hi ∧ 0 ≤ lo ∧ lo ≤ hi ∧ hi ≤ r.uniq + 1) →
    ∃ jobs, xPrepareAll r (r.uniq + 1) i cs = .ok jobs ∧ jobs.length = cs.length ∧
      ∀ (k : Nat) (c : Col) (j : XJob × Int), cs[k]? = some c → jobs[k]? = some j →
        XJobOk r (i + k) c j.1 ∧ j.2 = funcOf (r.funcs.getD (i + k) 0)
  | [], i, _ => ⟨[], rfl, rfl, fun k c j h => by simp at h⟩
  | c :: cs, i, h => by
    obtain ⟨hx, hks, hlen, hnone, lo, hi, hl, hh, h0, h1, h2⟩ := h 0 c rfl
    obtain ⟨x, hx⟩ := Option.isSome_iff_exists.mp hx
    obtain ⟨j0, e0, hj0⟩ := xPrepare_ok (i := i) hl hh h0 h1 h2 hn hlen hnone hx hks
    obtain ⟨jobs, e, hjl, hjobs⟩ := xPrepareAll_ok hn cs (i + 1) (fun k d hd => by
      have := h (k + 1) d (by simpa using hd)
      rw [show i + (k + 1) = i + 1 + k by omega] at this
      exact this)
    refine ⟨(j0, funcOf (r.funcs.getD i 0)) :: jobs, ?_, by simp [hjl], ?_⟩
    · rw [xPrepareAll, e0]
      simp only [e]
    · intro k d j hd hj
      cases k with
      | zero =>
        simp only [List.getElem?_cons_zero, Option.some.injEq] at hd hj
        subst hd; subst hj
        exact ⟨hj0, rfl⟩
      | succ k =>
        simp only [List.getElem?_cons_succ] at hd hj
        have := hjobs k d j hd hj
        rw [show i + 1 + k = i + (k + 1) by omega] at this
        exact this

/-- The result array of a column: for numeric columns of the type of the documentation; for other columns of the same type and size
of items; one item for each bin, or for each row for the functions of rows. -/
def GroupResultOf (r : Req) (i : Nat) (c : Col) (o : Out) : Prop :=
  (if flexible c.ty then o.ty = c.ty ∧ o.item = c.item
    else npy o.ty = groupResult (funcOf (r.funcs.getD i 0)) c.ty ∧ (npy o.ty).map (·.2) = some o.item) ∧
  o.items = if 200 ≤ funcOf (r.funcs.getD i 0) then (r.keyLen : Int) else r.uniq + 1

theorem groupResultOf {r : Req} {i : Nat} {c : Col} {o : Out} {x : XFun} (hx : xFunc (funcOf (r.funcs.getD i 0)) c.ty = some x)
    (hc : c.len = r.keyLen) (hw : x.width c.item = o.item) (ht : o.ty = x.out)
    (hi : o.items = (if 200 ≤ funcOf (r.funcs.getD i 0) then (c.len : Int) else r.uniq + 1)) : GroupResultOf r i c o := by
  refine ⟨?_, by rw [hi, hc]⟩
  have hfacts := x_facts hx
  by_cases hflex : flexible c.ty = true
  · rw [if_pos hflex] at hfacts ⊢
    rw [XFun.width, if_pos hfacts.1] at hw
    exact ⟨ht.trans hfacts.2.2, hw.symm⟩
  · rw [if_neg hflex] at hfacts ⊢
    rw [XFun.width, if_neg hfacts.2.2.1] at hw
    refine ⟨by rw [ht]; exact hfacts.2.2.2.2.2, ?_⟩
    rw [ht, fits_size hfacts.2.1, hw]

theorem plainX_ok {r : Req} (h : Fit r) (hno : ∀ c ∈ r.cols, c.isNone = false)
    (hf : ∀ (i : Nat) (c : Col), r.cols[i]? = some c → (xFunc (funcOf (r.funcs.getD i 0)) c.ty).isSome = true ∧
      keepsSize (funcOf (r.funcs.getD i 0)) c = true) :
    ∃ outs, plainX r (r.uniq + 1) = .done outs ∧ outs.length = r.cols.length ∧
      ∀ (k : Nat) (c : Col) (o : Out), r.cols[k]? = some c → outs[k]? = some o → GroupResultOf r k c o := by
  obtain ⟨jobs, e, hlen, hj⟩ := xPrepareAll_ok (r := r) h.small.2 r.cols 0 (fun k c hc => by
    have hk : k < r.cols.length := by rw [List.getElem?_eq_some_iff] at hc; exact hc.1
    have hm : c ∈ r.cols := List.mem_of_getElem? hc
    obtain ⟨lo, hi, a, b, c1, c2, c3, _⟩ := h.range k hk
    simp only [Nat.zero_add]
    exact ⟨(hf k c hc).1, (hf k c hc).2, h.len c hm, hno c hm, lo, hi, a, b, c1, c2, c3⟩)
  simp only [Nat.zero_add] at hj
  refine ⟨jobs.map fun j => j.1.out, ?_, by simp [hlen], ?_⟩
  · rw [plainX, e]
    simp only
    rw [if_pos]
    rw [List.all_eq_true]
    intro j hjm
    obtain ⟨k, hk⟩ := List.getElem?_of_mem hjm
    have hkl : k < r.cols.length := by rw [← hlen]; rw [List.getElem?_eq_some_iff] at hk; exact hk.1
    obtain ⟨⟨_, hit, hlo, hhi, hw, _, hitems⟩, hfn⟩ := hj k _ j (List.getElem?_eq_getElem hkl) hk
    obtain ⟨a, b, c, _⟩ := h.bins.2 k _ _ hlo hhi
    have := inside_roomy (func := j.2) (item := j.1.item) (x := j.1.x) (o := j.1.out) (lo := j.1.lo) (hi := j.1.hi)
      (by rw [hit]; exact hw) (fun hf => ⟨a, b, by rw [hitems, if_neg (by rw [← hfn]; omega)]; exact c⟩)
    exact this
  · intro k c o hc ho
    rw [List.getElem?_map] at ho
    cases hjk : jobs[k]? with
    | none => rw [hjk] at ho; cases ho
    | some j =>
      rw [hjk] at ho
      simp only [Option.map_some, Option.some.injEq] at ho
      subst ho
      obtain ⟨⟨hx, hit, _, _, hw, ht, hitems⟩, _⟩ := hj k c j hc hjk
      exact groupResultOf hx (h.len c (List.mem_of_getElem? hc)) hw ht hitems

theorem pack32_cases {r : Req} (h : Fit r) (work : Bool) {gt : Nat} (hg : gt = 5 ∨ gt = 7 ∨ gt = 9) (c : Col) (cs : List Col)
    (hc : r.cols = c :: cs) :
    pack32 work (gt, gt, gt) r = plainX r (r.uniq + 1) ∨
      (cs = [] ∧ 65536 < r.keyLen ∧ work = true ∧ ∃ x, xFunc (funcOf (r.funcs.getD 0 0)) c.ty = some x ∧
        bandable (funcOf (r.funcs.getD 0 0)) = true ∧ pack32 work (gt, gt, gt) r = bandRun (r.uniq + 1) c x) := by
  have hlen : c.len = r.keyLen := h.len c (by rw [hc]; simp)
  have hall : cs.all (fun d => d.len == r.keyLen) = true := by
    rw [List.all_eq_true]; intro d hd
    rw [h.len d (by rw [hc]; simp [hd])]; simp
  obtain ⟨lo, hi, hl, hh, _⟩ := h.range 0 (List.length_pos_iff.mpr h.ne)
  have hfl : ¬ (r.cols.length ≠ r.funcs.length) := by rw [h.funcs]; simp
  have hll : ¬ (r.cols.length ≠ r.lows.length) := by rw [h.lows]; simp
  have e : pack32 work (gt, gt, gt) r = if cs = [] ∧ 65536 < r.keyLen then
        match r.highs[0]? with
        | none => .undef
        | some h =>
          match xFunc (funcOf (r.funcs.getD 0 0)) c.ty with
          | none => plainX r (r.uniq + 1)
          | some x =>
            if bandable (funcOf (r.funcs.getD 0 0)) && work && decide (0 < asI64 h - asI64 (r.lows.getD 0 0)) then
              bandRun (r.uniq + 1) c x
            else plainX r (r.uniq + 1)
      else plainX r (r.uniq + 1) := by
    rw [pack32, if_neg (by simp), if_neg (by show ¬ (gt ≠ 5 ∧ gt ≠ 7 ∧ gt ≠ 9); omega)]
    rw [hc] at hfl hll ⊢
    simp only [hlen, hall, Bool.not_true, Bool.false_eq_true, if_false, if_neg hfl, if_neg hll, ne_eq, not_true_eq_false]
    rfl
  rw [e]
  split
  · rename_i hcond
    rw [hh]
    simp only
    cases hx : xFunc (funcOf (r.funcs.getD 0 0)) c.ty with
    | none => exact Or.inl rfl
    | some x =>
      simp only
      split
      · rename_i hs
        simp only [Bool.and_eq_true] at hs
        exact Or.inr ⟨hcond.1, hcond.2, hs.1.2, x, rfl, hs.1.1, rfl⟩
      · exact Or.inl rfl
  · exact Or.inl rfl

theorem bandable_range {f : Int} (h : bandable f = true) : 103 ≤ f ∧ f ≤ 106 := by
  simp [bandable] at h
  rcases h with h | h <;> omega

theorem bandRun_ok {n : Int} {c : Col} {x : XFun} (hn : 0 ≤ n) (hw : x.width c.item = freshItem x.out) :
    bandRun n c x = .done [⟨x.out, freshItem x.out, n⟩] := by
  rw [bandRun, if_neg (by omega), if_pos]
  exact inside_roomy hw (fun _ => ⟨Int.le_refl _, hn, Int.le_refl _⟩)

/-- The one-column calls in which the result of a text or bytes median is made with items of one byte. -/
def InBands (work : Bool) (r : Req) (c : Col) : Prop :=
  work = true ∧ r.cols = [c] ∧ 65536 < r.keyLen ∧ funcOf (r.funcs.getD 0 0) = 103 ∧ flexible c.ty = true ∧ c.item ≠ 1

/-- A request which passes the checks, with a function for each column, gives a result for each column, of the type and size of the
documentation, except for void columns and for medians of text calculated by threads. -/
theorem groups_are_calculated_partial (r : Req) (h : Fit r) (work : Bool) (gt : Nat) (hg : gt = 5 ∨ gt = 7 ∨ gt = 9)
    (hno : ∀ c ∈ r.cols, c.isNone = false)
    (hf : ∀ (i : Nat) (c : Col), r.cols[i]? = some c → (xFunc (funcOf (r.funcs.getD i 0)) c.ty).isSome = true ∧
      keepsSize (funcOf (r.funcs.getD i 0)) c = true)
    (hb : ∀ c ∈ r.cols, ¬ InBands work r c) :
    ∃ outs, pack32 work (gt, gt, gt) r = .done outs ∧ outs.length = r.cols.length ∧
      ∀ (i : Nat) (c : Col) (o : Out), r.cols[i]? = some c → outs[i]? = some o → GroupResultOf r i c o := by
  cases hc : r.cols with
  | nil => exact absurd hc h.ne
  | cons c cs =>
    rcases pack32_cases h work hg c cs hc with hp | ⟨hcs, hk, hw, x, hx, hba, hp⟩
    · rw [hp, ← hc]; exact plainX_ok h hno hf
    · subst hcs
      have hfacts := x_facts hx
      have hb1 : funcOf (r.funcs.getD 0 0) < 200 := by
        have := bandable_range hba; omega
      have hcm : c ∈ r.cols := by rw [hc]; simp
      have hwid : x.width c.item = freshItem x.out := by
        by_cases hflex : flexible c.ty = true
        · rw [if_pos hflex] at hfacts
          rw [XFun.width, if_pos hfacts.1, hfacts.2.2, freshItem_flexible hflex]
          have hd := x_domain hx
          have hty : c.ty ∈ [18, 19, 20] := by rw [flexible_iff] at hflex; simp; exact hflex
          rcases flexible_funcs _ hd.1 c.ty hty (by rw [hx]; rfl) with h1 | h1
          · omega
          · by_cases hi : c.item = 1
            · exact hi
            · have h103 : funcOf (r.funcs.getD 0 0) = 103 := by
                have := bandable_range hba; simp only [List.mem_cons, List.not_mem_nil, or_false] at h1; omega
              exact absurd ⟨hw, hc, hk, h103, hflex, hi⟩ (hb c hcm)
        · rw [if_neg hflex] at hfacts
          rw [XFun.width, if_neg hfacts.2.2.1, hfacts.2.2.2.1]
      refine ⟨[⟨x.out, freshItem x.out, r.uniq + 1⟩], by rw [hp]; exact bandRun_ok h.small.1 hwid, rfl, ?_⟩
      intro i d o hd ho
      cases i with
      | zero =>
        simp only [List.getElem?_cons_zero, Option.some.injEq] at hd ho
        subst hd; subst ho
        exact groupResultOf hx (h.len c hcm) hwid rfl (by rw [if_neg (by omega)])
      | succ i => simp at hd

/-- The median of text or bytes of more than 65536 rows, calculated by threads: the result has items of one byte, but a whole item
is cleared for each bin. -/
theorem median_of_text_in_bands (r : Req) (h : Fit r) (gt : Nat) (hg : gt = 5 ∨ gt = 7 ∨ gt = 9) (c : Col) (hc : r.cols = [c])
    (hk : 65536 < r.keyLen) (hf : r.funcs = [103]) (lo hi : Int) (hl : r.lows = [lo]) (hh : r.highs = [hi]) (hbin : lo < hi)
    (ht : c.ty = 18 ∨ c.ty = 19) (hitem : 1 < c.item) (hu : 0 ≤ r.uniq) : pack32 true (gt, gt, gt) r = .undef := by
  obtain ⟨h0, h1, h2, h3⟩ := h.bins.2 0 lo hi (by rw [hl]; rfl) (by rw [hh]; rfl)
  have hlen : c.len = r.keyLen := h.len c (by rw [hc]; simp)
  have hfn : funcOf (r.funcs.getD 0 0) = 103 := by rw [hf]; decide
  have hx : xFunc 103 c.ty = some ⟨.medianStr, .raw, .raw, c.ty⟩ := by
    rcases ht with ht | ht <;> rw [ht] <;> rfl
  have hfl : ¬ (r.cols.length ≠ r.funcs.length) := by rw [hc, hf]; simp
  have hll : ¬ (r.cols.length ≠ r.lows.length) := by rw [hc, hl]; simp
  rw [pack32, if_neg (by simp), if_neg (by show ¬ (gt ≠ 5 ∧ gt ≠ 7 ∧ gt ≠ 9); omega)]
  rw [hc] at hfl hll ⊢
  simp only [List.all_nil, Bool.not_true, Bool.false_eq_true, if_false, if_neg hfl, if_neg hll, hlen, ne_eq, not_true_eq_false, hk,
    and_self, if_true, hfn, hx]
  have hgl : r.lows.getD 0 0 = lo := by rw [hl]; rfl
  rw [hh, hgl]
  simp only [List.getElem?_cons_zero, asI64_id h0 (by omega : lo < 2 ^ 63), asI64_id (by omega : 0 ≤ hi) (by omega : hi < 2 ^ 63)]
  rw [if_pos (by simp [bandable]; omega), bandRun, if_neg (by omega), if_neg]
  have hfr : freshItem c.ty = 1 := freshItem_flexible ((flexible_iff _).mpr (by omega))
  rw [XJob.inside, if_neg (by decide)]
  simp only [XFun.width, if_true, hfr, Bool.or_eq_true, Bool.and_eq_true, decide_eq_true_eq, not_or, not_and]
  refine ⟨by omega, fun _ => ?_⟩
  have : (r.uniq + 1) * 2 ≤ (r.uniq + 1) * (c.item : Int) := Int.mul_le_mul_of_nonneg_left (by omega) (by omega)
  omega

/-- 70000 rows of text of 8 characters, two bins besides bin 0. -/
def textReq : Req where
  cols := [⟨18, 8, 70000, false⟩]
  keyTy := 5
  keyLen := 70000
  keys := List.replicate 70000 1
  uniq := 2
  funcs := [103]
  lows := [1]
  highs := [3]

theorem textReq_fit : Fit textReq where
  dim := rfl
  key := Or.inr (Or.inr (Or.inl rfl))
  ne := by simp [textReq, -List.reduceReplicate]
  len := by simp [textReq, -List.reduceReplicate]
  funcs := rfl
  lows := rfl
  bins := by
    refine ⟨rfl, fun i lo hi h1 h2 => ?_⟩
    match i with
    | 0 => simp [textReq, -List.reduceReplicate] at h1 h2; subst h1; subst h2; decide
    | k + 1 => simp [textReq, -List.reduceReplicate] at h1
  keys := by simp [textReq, -List.reduceReplicate]

example : pack32 true (5, 5, 5) textReq = .undef :=
  median_of_text_in_bands textReq textReq_fit 5 (Or.inl rfl) ⟨18, 8, 70000, false⟩ rfl (by decide) rfl 1 3 rfl rfl (by decide)
    (Or.inl rfl) (by decide) (by decide)

example : ∃ outs, pack32 false (5, 5, 5) textReq = .done outs ∧ outs.length = textReq.cols.length ∧
    ∀ (i : Nat) (c : Col) (o : Out), textReq.cols[i]? = some c → outs[i]? = some o → GroupResultOf textReq i c o :=
  groups_are_calculated_partial textReq textReq_fit false 5 (Or.inl rfl) (by simp [textReq, -List.reduceReplicate])
    (fun i c hc => by
      match i with
      | 0 => simp [textReq, -List.reduceReplicate] at hc; subst hc; decide
      | k + 1 => simp [textReq, -List.reduceReplicate] at hc)
    (fun c _ h => absurd h.1 (by decide))

/-- The first item of each group of a void column: the result has items of one byte, but whole items are written. -/
theorem first_of_void (work : Bool) :
    pack32 work (5, 5, 5) { exampleReq with cols := [⟨20, 16, 4, false⟩], funcs := [100], lows := [1], highs := [3] } = .undef ∧
    pack32 work (5, 5, 5) { exampleReq with cols := [⟨18, 16, 4, false⟩], funcs := [100], lows := [1], highs := [3] } =
      .done [⟨18, 16, 3⟩] := by cases work <;> decide +kernel

/-- `None` for a column: a sum of it is an array of zeros if there are no rows, but the first item of its groups is taken from no
array. -/
theorem none_for_a_column (work : Bool) :
    all32 work { exampleReq with cols := [⟨0, 0, 0, true⟩], funcs := [0], lows := [1], highs := [3], keyLen := 0, keys := [] } =
      .done [⟨7, 8, 3⟩] ∧
    pack32 work (5, 5, 5) { exampleReq with cols := [⟨0, 0, 0, true⟩], funcs := [100], lows := [1], highs := [3], keyLen := 0,
                                            keys := [] } = .undef := by cases work <;> decide +kernel

/-- Requests which do not fit are refused before any array is made: keys of a wrong number of dimensions or type, columns of
different lengths, a wrong number of functions or lower bins, keys of another length. -/
theorem unfitting_requests_are_refused (work : Bool) (r : Req) (c : Col) (cs : List Col) (hc : r.cols = c :: cs) :
    (r.keyDim ≠ 1 → all32 work r = .err .keyDim 0) ∧
    (r.keyDim = 1 → ¬ r.keyTy ∈ [1, 3, 5, 7, 9] → all32 work r = .err .keyType 0) ∧
    (r.keyDim = 1 → r.keyTy ∈ [1, 3, 5, 7, 9] →
      ((∃ d ∈ cs, d.len ≠ c.len) → all32 work r = .err .rows 0) ∧
      ((∀ d ∈ cs, d.len = c.len) →
        (r.funcs.length ≠ cs.length + 1 → all32 work r = .err .funcs 0) ∧
        (r.funcs.length = cs.length + 1 → r.lows.length ≠ cs.length + 1 → all32 work r = .err .bins 0) ∧
        (r.funcs.length = cs.length + 1 → r.lows.length = cs.length + 1 → c.len ≠ r.keyLen → all32 work r = .err .keyLength 0))) := by
  refine ⟨fun h => by rw [all32, if_pos h], fun h h' => ?_, fun h h' => ?_⟩
  · simp only [List.mem_cons, List.not_mem_nil, or_false, not_or] at h'
    rw [all32, if_neg (by simp [h]), if_pos h']
  · simp only [List.mem_cons, List.not_mem_nil, or_false] at h'
    have e0 : ¬ (r.keyTy ≠ 1 ∧ r.keyTy ≠ 3 ∧ r.keyTy ≠ 5 ∧ r.keyTy ≠ 7 ∧ r.keyTy ≠ 9) := by omega
    rw [all32, if_neg (by simp [h]), if_neg e0, hc]
    simp only
    refine ⟨fun ⟨d, hd, hne⟩ => ?_, fun hall => ?_⟩
    · rw [if_pos]
      simp only [Bool.not_eq_true', List.all_eq_false]
      exact ⟨d, hd, by simpa using hne⟩
    · rw [if_neg (by simpa using hall)]
      refine ⟨fun hf => by rw [if_pos]; simpa using fun e => hf e.symm, fun hf hl => ?_, fun hf hl hk => ?_⟩
      · rw [if_neg (by simp [hf]), if_pos]; simpa using fun e => hl e.symm
      · rw [if_neg (by simp [hf]), if_neg (by simp [hl]), if_pos hk]

/-- The same for the groups: the three arrays which describe the groups have one type, a 32 or 64-bit integer. -/
theorem unfitting_groups_are_refused (work : Bool) (g : Nat × Nat × Nat) (r : Req) (c : Col) (cs : List Col) (hc : r.cols = c :: cs) :
    (¬ (∃ t ∈ [5, 7, 9], g = (t, t, t)) → pack32 work g r = .err .groupType 0) ∧
    ((∃ t ∈ [5, 7, 9], g = (t, t, t)) →
      ((∃ d ∈ cs, d.len ≠ c.len) → pack32 work g r = .err .rows 0) ∧
      ((∀ d ∈ cs, d.len = c.len) →
        (r.funcs.length ≠ cs.length + 1 → pack32 work g r = .err .funcs 0) ∧
        (r.funcs.length = cs.length + 1 → r.lows.length ≠ cs.length + 1 → pack32 work g r = .err .bins 0) ∧
        (r.funcs.length = cs.length + 1 → r.lows.length = cs.length + 1 → c.len ≠ r.keyLen → pack32 work g r = .err .keyLength 0))) := by
  obtain ⟨g1, g2, g3⟩ := g
  refine ⟨fun h => ?_, fun ⟨t, ht, e⟩ => ?_⟩
  · rw [pack32]
    by_cases h1 : g1 ≠ g2 ∨ g1 ≠ g3
    · rw [if_pos h1]
    · rw [if_neg h1]
      by_cases h2 : g1 ≠ 5 ∧ g1 ≠ 7 ∧ g1 ≠ 9
      · rw [if_pos h2]
      · exfalso
        apply h
        refine ⟨g1, by simp only [List.mem_cons, List.not_mem_nil, or_false]; omega, ?_⟩
        have : g1 = g2 ∧ g1 = g3 := by omega
        rw [← this.1, ← this.2]
  · simp only [Prod.mk.injEq] at e
    obtain ⟨rfl, rfl, rfl⟩ := e
    simp only [List.mem_cons, List.not_mem_nil, or_false] at ht
    rw [pack32, if_neg (by simp), if_neg (by show ¬ (_ ≠ 5 ∧ _ ≠ 7 ∧ _ ≠ 9); omega), hc]
    simp only
    refine ⟨fun ⟨d, hd, hne⟩ => ?_, fun hall => ?_⟩
    · rw [if_pos]
      simp only [Bool.not_eq_true', List.all_eq_false]
      exact ⟨d, hd, by simpa using hne⟩
    · rw [if_neg (by simpa using hall)]
      refine ⟨fun hf => by rw [if_pos]; simpa using fun e => hf e.symm, fun hf hl => ?_, fun hf hl hk => ?_⟩
      · rw [if_neg (by simp [hf]), if_pos]; simpa using fun e => hl e.symm
      · rw [if_neg (by simp [hf]), if_neg (by simp [hl]), if_pos hk]

example := unfitting_requests_are_refused true exampleReq _ _ rfl
example := unfitting_groups_are_refused true (5, 7, 5) exampleReq _ _ rfl

/-- If column `k` is the first one without a function an exception is raised, and the results of the columns before are lost. -/
theorem xPrepareAll_err {r : Req} (hn : r.uniq + 1 < 2 ^ 63) (d : Col) (ds : List Col) (hi' : Int) : ∀ (cs : List Col) (i : Nat),
    (∀ (k : Nat) (c : Col), cs[k]? = some c → (xFunc (funcOf (r.funcs.getD (i + k) 0)) c.ty).isSome = true ∧
      keepsSize (funcOf (r.funcs.getD (i + k) 0)) c = true ∧ c.len = r.keyLen ∧ c.isNone = false ∧
      ∃ lo hi, r.lows[i + k]? = some lo ∧ r.highs[i + k]? = some hi ∧ 0 ≤ lo ∧ lo ≤ hi ∧ hi ≤ r.uniq + 1) →
    r.highs[i + cs.length]? = some hi' → xFunc (funcOf (r.funcs.getD (i + cs.length) 0)) d.ty = none →
    xPrepareAll r (r.uniq + 1) i (cs ++ d :: ds) = .error (.err .noFunction (i + cs.length))
  | [], i, _, hh, hx => by
    simp only [List.length_nil, Nat.add_zero] at hh hx
    rw [List.nil_append, xPrepareAll, xPrepare, hh]
    simp only [hx, List.length_nil, Nat.add_zero]
  | c :: cs, i, h, hh, hx => by
    obtain ⟨hx0, hks, hlen, hnone, lo, hi, hl, hh0, h0, h1, h2⟩ := h 0 c rfl
    obtain ⟨x, hx0⟩ := Option.isSome_iff_exists.mp hx0
    obtain ⟨j0, e0, _⟩ := xPrepare_ok (i := i) hl hh0 h0 h1 h2 hn hlen hnone hx0 hks
    rw [List.length_cons, show i + (cs.length + 1) = i + 1 + cs.length by omega] at hh hx ⊢
    have ih := xPrepareAll_err hn d ds hi' cs (i + 1) (fun k d hd => by
      have := h (k + 1) d (by simpa using hd)
      rw [show i + (k + 1) = i + 1 + k by omega] at this
      exact this) hh hx
    rw [List.cons_append, xPrepareAll, e0]
    simp only [ih]

end Riptide.GroupBy.Entry
