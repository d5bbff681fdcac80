import Verif.Ema.EntryCum
/-! C134: the values which `EmaAll32` returns. -/
namespace Riptide.Ema.Entry
open Riptide.Ema.Entry.Spec

section
variable {r : Req} {a : Arr} {uniq : Nat} {func number : Int} {time inc rst : Obj}

/-- C134, sums (300): for a column of whole numbers the result is an array of 64-bit integers, unsigned for unsigned columns; a
row with a group holds the sum of the values which count at this row, modulo 2^64; other rows the invalid number.  Missing: see
`call_shape_partial`. -/
theorem call_cumSum_partial (fa : Arith) (h : Sound r a uniq 300 number time inc rst) (hn : a.vals.length < 2 ^ 31) {workers : Nat}
    {nt : Bool} {calls : List Nat} (hs : ColSched workers (entries r.cols).length nt calls) :
    ∃ outs : List Ret, emaAll fa calls r = .done outs ∧ outs.length = (entries r.cols).length ∧
      ∀ (i : Nat) (o : Obj), (entries r.cols)[i]? = some o → ∀ t, whole (tyOf o) = some t →
        ∃ items : List (Option Int), outs[i]? = some (Ret.array (sumTy t) items) ∧ items.length = a.vals.length ∧
          ∀ row, row < a.vals.length → items[row]? = some (some (if 1 ≤ K a row then
            (if t.signed then IT.i64 else IT.u64).wrap (counted a inc rst o row).sum
            else (if t.signed then IT.i64 else IT.u64).inv)) := by
  obtain ⟨_, hok, hinc, hrst⟩ := sound_job h
  obtain ⟨outs, h1, h2, h3⟩ := call_values fa h (by omega) (by rintro (hx | hx | ⟨hx, _⟩) <;> omega) (by omega) hn hs
    (fun o k items => ∀ t, whole (tyOf o) = some t → ∀ row, row < a.vals.length → items[row]? = some (some (if 1 ≤ K a row then
            (if t.signed then IT.i64 else IT.u64).wrap (counted a inc rst o row).sum
            else (if t.signed then IT.i64 else IT.u64).inv))) (by
    intro o ho k items hk hrun t ht row hrow
    obtain ⟨c, _, e2, e3, _⟩ := whole_it _ t ht
    rw [kernOf, if_pos rfl, e3] at hk
    cases hk
    simp only [runKern, e2] at hrun
    obtain ⟨out, f1, _, f3⟩ := cumSum_spec t _ a.vals ((elems o).take a.vals.length) uniq a.vals.length hok (take_long h o ho)
    rw [f1] at hrun
    cases hrun
    rw [f3 row hrow, hinc, hrst, counted_take a inc rst o row hrow, wide_of]
    rfl)
  refine ⟨outs, h1, h2, fun i o ho t ht => ?_⟩
  obtain ⟨c, _, e2, e3, _⟩ := whole_it _ t ht
  obtain ⟨items, g1, g2, g3⟩ := h3 i o ho _ (by rw [kernOf, if_pos rfl, e3])
  exact ⟨items, g1, g2, g3 t ht⟩

/-- C134, products (302), as `call_cumSum_partial`. -/
theorem call_cumProd_partial (fa : Arith) (h : Sound r a uniq 302 number time inc rst) (hn : a.vals.length < 2 ^ 31) {workers : Nat}
    {nt : Bool} {calls : List Nat} (hs : ColSched workers (entries r.cols).length nt calls) :
    ∃ outs : List Ret, emaAll fa calls r = .done outs ∧ outs.length = (entries r.cols).length ∧
      ∀ (i : Nat) (o : Obj), (entries r.cols)[i]? = some o → ∀ t, whole (tyOf o) = some t →
        ∃ items : List (Option Int), outs[i]? = some (Ret.array (sumTy t) items) ∧ items.length = a.vals.length ∧
          ∀ row, row < a.vals.length → items[row]? = some (some (if 1 ≤ K a row then
            (if t.signed then IT.i64 else IT.u64).wrap ((counted a inc rst o row).foldr (· * ·) 1)
            else (if t.signed then IT.i64 else IT.u64).inv)) := by
  obtain ⟨_, hok, hinc, hrst⟩ := sound_job h
  obtain ⟨outs, h1, h2, h3⟩ := call_values fa h (by omega) (by rintro (hx | hx | ⟨hx, _⟩) <;> omega) (by omega) hn hs
    (fun o k items => ∀ t, whole (tyOf o) = some t → ∀ row, row < a.vals.length → items[row]? = some (some (if 1 ≤ K a row then
            (if t.signed then IT.i64 else IT.u64).wrap ((counted a inc rst o row).foldr (· * ·) 1)
            else (if t.signed then IT.i64 else IT.u64).inv))) (by
    intro o ho k items hk hrun t ht row hrow
    obtain ⟨c, _, e2, e3, _⟩ := whole_it _ t ht
    rw [show kernOf 302 (tyOf o) (timeType time) = sumKern .cumProd (tyOf o) from rfl, e3] at hk
    cases hk
    simp only [runKern, e2] at hrun
    obtain ⟨out, f1, _, f3⟩ := cumProd_spec t _ a.vals ((elems o).take a.vals.length) uniq a.vals.length hok (take_long h o ho)
    rw [f1] at hrun
    cases hrun
    rw [f3 row hrow, hinc, hrst, counted_take a inc rst o row hrow, wide_of]
    rfl)
  refine ⟨outs, h1, h2, fun i o ho t ht => ?_⟩
  obtain ⟨c, _, e2, e3, _⟩ := whole_it _ t ht
  obtain ⟨items, g1, g2, g3⟩ := h3 i o ho _
    ((show kernOf 302 (tyOf o) (timeType time) = sumKern .cumProd (tyOf o) from rfl).trans (e3 _))
  exact ⟨items, g1, g2, g3 t ht⟩

/-- C134, counts (303): for a column of any type the result is an array of 32-bit integers; an included row with a group holds
the number of included rows of the group up to this row, other rows 0.  The reset mask does not matter.  Missing: see
`call_shape_partial`. -/
theorem call_findNth_partial (fa : Arith) (h : Sound r a uniq 303 number time inc rst) (hn : a.vals.length < 2 ^ 31) {workers : Nat}
    {nt : Bool} {calls : List Nat} (hs : ColSched workers (entries r.cols).length nt calls) :
    ∃ outs : List Ret, emaAll fa calls r = .done outs ∧ outs.length = (entries r.cols).length ∧
      ∀ (i : Nat) (o : Obj), (entries r.cols)[i]? = some o →
        ∃ items : List (Option Int), outs[i]? = some (Ret.array 5 items) ∧ items.length = a.vals.length ∧
          ∀ row, row < a.vals.length → items[row]? = some (some (if 1 ≤ K a row ∧ flag true inc row = true then
            ((Riptide.Ema.Spec.upTo (K a) (flag true inc) row).length : Int) else 0)) := by
  obtain ⟨_, hok, hinc, hrst⟩ := sound_job h
  obtain ⟨outs, h1, h2, h3⟩ := call_values fa h (by omega) (by rintro (hx | hx | ⟨hx, _⟩) <;> omega) (by omega) hn hs
    (fun o k items => ∀ row, row < a.vals.length → items[row]? = some (some (if 1 ≤ K a row ∧ flag true inc row = true then
            ((Riptide.Ema.Spec.upTo (K a) (flag true inc) row).length : Int) else 0))) (by
    intro o ho k items hk hrun row hrow
    cases hk
    simp only [runKern] at hrun
    obtain ⟨out, f1, _, f3⟩ := findNth_spec _ a.vals uniq a.vals.length (nth_ok hok) hn
    rw [f1] at hrun
    cases hrun
    rw [f3 row hrow, ← hinc]
    rfl)
  refine ⟨outs, h1, h2, fun i o ho => ?_⟩
  exact h3 i o ho _ rfl

/-- The comparisons of a type are those of its order. -/
theorem kind_order (fa : Arith) (ty : Nat) (v : Int → Bool) (lt : Int → Int → Bool) (h : order ty = some (v, lt)) :
    ∃ c, GroupBy.Entry.inOf ty = some c ∧ (∀ n, extKern n ty = some ⟨n, c, c, none, ty⟩) ∧
      ((kindOf fa c false).valid = v ∧ (kindOf fa c false).better = lt ∧ ∃ ord, (kindOf fa c false).Lawful ord) ∧
      ((kindOf fa c true).valid = v ∧ (kindOf fa c true).better = (fun x y => lt y x) ∧ ∃ ord, (kindOf fa c true).Lawful ord) := by
  unfold order at h
  cases hw : whole ty with
  | some t =>
    rw [hw] at h
    cases h
    obtain ⟨c, e1, e2, _, e4⟩ := whole_it ty t hw
    have k1 : kindOf fa c false = intMin t := by unfold kindOf; rw [e2]; rfl
    have k2 : kindOf fa c true = intMax t := by unfold kindOf; rw [e2]; rfl
    refine ⟨c, e1, e4, ?_⟩
    rw [k1, k2]
    exact ⟨⟨rfl, rfl, _, intMin_lawful t⟩, ⟨rfl, rfl, _, intMax_lawful t⟩⟩
  | none =>
    rw [hw] at h
    cases hr : real ty with
    | none => rw [hr] at h; cases h
    | some f =>
      rw [hr] at h
      cases h
      have key : ∀ (nan : Int), f.isNan nan.toNat = true →
          (fltKind f nan false).Lawful (fun x => f.key x.toNat) ∧ (fltKind f nan true).Lawful (fun x => -f.key x.toNat) := by
        intro nan hnan
        constructor
        · refine ⟨by simp [fltKind, hnan], fun x y hx hy => ?_⟩
          exact (floatMin_lawful f nan.toNat hnan).better x.toNat y.toNat hx hy
        · refine ⟨by simp [fltKind, hnan], fun x y hx hy => ?_⟩
          exact (floatMax_lawful f nan.toNat hnan).better x.toNat y.toNat hx hy
      unfold real at hr
      by_cases h11 : ty = 11
      · subst h11
        cases hr
        exact ⟨.f32, rfl, fun n => rfl, ⟨rfl, rfl, _, (key _ (by rw [nanOf]; decide)).1⟩, ⟨rfl, rfl, _, (key _ (by rw [nanOf]; decide)).2⟩⟩
      · rw [if_neg h11] at hr
        by_cases h12 : ty = 12
        · subst h12
          cases hr
          exact ⟨.f64, rfl, fun n => rfl, ⟨rfl, rfl, _, (key _ (by rw [nanOf]; decide)).1⟩, ⟨rfl, rfl, _, (key _ (by rw [nanOf]; decide)).2⟩⟩
        · rw [if_neg h12] at hr; cases hr

/-- C134, extremes (306 to 309): for a column of whole or floating-point numbers the result is an array of the same type; a row
with a group holds the extreme of the values which count at this row.  Missing: beside what `call_shape_partial` lists, rows with
negative keys without masks, which are positions of the work space, and `long double`. -/
theorem call_extremes_partial (fa : Arith) (h : Sound r a uniq func number time inc rst) (hf : 306 ≤ func ∧ func ≤ 309)
    (h0 : inc = .pyNone → rst = .pyNone → ∀ k ∈ a.vals, 0 ≤ k) (hn : a.vals.length < 2 ^ 31) {workers : Nat}
    {nt : Bool} {calls : List Nat} (hs : ColSched workers (entries r.cols).length nt calls) :
    ∃ outs : List Ret, emaAll fa calls r = .done outs ∧ outs.length = (entries r.cols).length ∧
      ∀ (i : Nat) (o : Obj), (entries r.cols)[i]? = some o → ∀ valid less, order (tyOf o) = some (valid, less) →
        ∃ items : List (Option Int), outs[i]? = some (Ret.array (tyOf o) items) ∧ items.length = a.vals.length ∧
          ∀ row, row < a.vals.length → 1 ≤ K a row →
            ∃ v : Int, items[row]? = some (some v) ∧ Extreme func valid less (counted a inc rst o row) v := by
  obtain ⟨_, hok, hinc, hrst⟩ := sound_job h
  have hkeys : ∀ n : Nat, n = 0 → (jobOf a r.cols uniq func number time inc rst).masks.inc = none →
      (jobOf a r.cols uniq func number time inc rst).masks.rst = none → ∀ j ∈ a.vals, 0 ≤ j := by
    intro _ _ hi hr
    refine h0 ?_ ?_
    · rcases bytes_flat a.vals.length inc h.good.inc h.incFlat with ⟨e, _⟩ | ⟨b, _, e, _⟩
      · exact e
      · simp only [jobOf, e, Option.map_some] at hi; cases hi
    · rcases bytes_flat a.vals.length rst h.good.rst h.rstFlat with ⟨e, _⟩ | ⟨b, _, e, _⟩
      · exact e
      · simp only [jobOf, e, Option.map_some] at hr; cases hr
  have hnum : func = 306 ∨ func = 307 ∨ func = 308 ∨ func = 309 := by omega
  obtain ⟨outs, h1, h2, h3⟩ := call_values fa h (by omega) (by
      rintro (hx | hx | ⟨_, hx, hy⟩)
      · omega
      · omega
      · exact h0 hx hy) (by omega) hn hs
    (fun o k items => ∀ valid less, order (tyOf o) = some (valid, less) → ∀ row, row < a.vals.length → 1 ≤ K a row →
            ∃ v : Int, items[row]? = some (some v) ∧ Extreme func valid less (counted a inc rst o row) v) (by
    intro o ho k items hk hrun valid less hord row hrow hrk
    obtain ⟨c, _, e3, ⟨b1, b2, ord1, b3⟩, ⟨d1, d2, ord2, d3⟩⟩ := kind_order fa _ valid less hord
    have ha := cumNanExtreme_partial _ ord1 b3 (jobOf a r.cols uniq func number time inc rst).masks a.vals
      ((elems o).take a.vals.length) 0 uniq a.vals.length hok (take_long h o ho) (hkeys 0 rfl)
    have hb := cumNanExtreme_partial _ ord2 d3 (jobOf a r.cols uniq func number time inc rst).masks a.vals
      ((elems o).take a.vals.length) 0 uniq a.vals.length hok (take_long h o ho) (hkeys 0 rfl)
    have hc := cumExtreme_partial _ ord1 b3 (jobOf a r.cols uniq func number time inc rst).masks a.vals
      ((elems o).take a.vals.length) 0 uniq a.vals.length hok (take_long h o ho) (hkeys 0 rfl)
    have hd := cumExtreme_partial _ ord2 d3 (jobOf a r.cols uniq func number time inc rst).masks a.vals
      ((elems o).take a.vals.length) 0 uniq a.vals.length hok (take_long h o ho) (hkeys 0 rfl)
    rw [b1, b2, hinc, hrst] at ha hc
    rw [d1, d2, hinc, hrst] at hb hd
    rcases hnum with hx | hx | hx | hx <;> subst hx
    · rw [show kernOf 306 (tyOf o) (timeType time) = extKern .nanMax (tyOf o) from rfl, e3] at hk
      cases hk
      obtain ⟨out, f1, _, f3⟩ := hb
      simp only [runKern, f1] at hrun
      cases hrun
      have := f3 row hrow hrk
      rw [counted_take a inc rst o row hrow] at this
      simpa [Extreme] using this
    · rw [show kernOf 307 (tyOf o) (timeType time) = extKern .nanMin (tyOf o) from rfl, e3] at hk
      cases hk
      obtain ⟨out, f1, _, f3⟩ := ha
      simp only [runKern, f1] at hrun
      cases hrun
      have := f3 row hrow hrk
      rw [counted_take a inc rst o row hrow] at this
      simpa [Extreme] using this
    · rw [show kernOf 308 (tyOf o) (timeType time) = extKern .max (tyOf o) from rfl, e3] at hk
      cases hk
      obtain ⟨out, f1, _, f3⟩ := hd
      simp only [runKern, f1] at hrun
      cases hrun
      have := f3 row hrow hrk
      rw [counted_take a inc rst o row hrow] at this
      simpa [Extreme] using this
    · rw [show kernOf 309 (tyOf o) (timeType time) = extKern .min (tyOf o) from rfl, e3] at hk
      cases hk
      obtain ⟨out, f1, _, f3⟩ := hc
      simp only [runKern, f1] at hrun
      cases hrun
      have := f3 row hrow hrk
      rw [counted_take a inc rst o row hrow] at this
      simpa [Extreme] using this)
  refine ⟨outs, h1, h2, fun i o ho valid less hord => ?_⟩
  obtain ⟨c, _, e3, _⟩ := kind_order fa _ valid less hord
  rcases hnum with hx | hx | hx | hx <;> subst hx
  · obtain ⟨items, g1, g2, g3⟩ := h3 i o ho _
      ((show kernOf 306 (tyOf o) (timeType time) = extKern .nanMax (tyOf o) from rfl).trans (e3 _))
    exact ⟨items, g1, g2, g3 valid less hord⟩
  · obtain ⟨items, g1, g2, g3⟩ := h3 i o ho _
      ((show kernOf 307 (tyOf o) (timeType time) = extKern .nanMin (tyOf o) from rfl).trans (e3 _))
    exact ⟨items, g1, g2, g3 valid less hord⟩
  · obtain ⟨items, g1, g2, g3⟩ := h3 i o ho _
      ((show kernOf 308 (tyOf o) (timeType time) = extKern .max (tyOf o) from rfl).trans (e3 _))
    exact ⟨items, g1, g2, g3 valid less hord⟩
  · obtain ⟨items, g1, g2, g3⟩ := h3 i o ho _
      ((show kernOf 309 (tyOf o) (timeType time) = extKern .min (tyOf o) from rfl).trans (e3 _))
    exact ⟨items, g1, g2, g3 valid less hord⟩

end
end Riptide.Ema.Entry
