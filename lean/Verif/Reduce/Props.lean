import Verif.Reduce.Lemmas
import Verif.Reduce.Spec
/-! # Theorems about min/max reductions -/
namespace Riptide.Reduce
open Riptide.Work

theorem intExtreme_of_summ {isMax : Bool} {t : IT} {xs : List Int} {r : Int}
    (h : Summ (dom isMax (.int t)) (Elem (.int t)) [r] xs) : IntExtreme isMax t xs r := by
  have hv : ∀ x, (dom isMax (.int t)).valid x = false ↔ x = t.inv := by intro x; simp [dom]
  constructor
  · intro hx
    exact (hv r).1 ((summ_valid_iff h).2 ⟨_, hx, (hv _).2 rfl⟩)
  · intro hx
    have hall : ∀ x ∈ xs, (dom isMax (.int t)).valid x = true := by
      intro x hm
      cases hb : (dom isMax (.int t)).valid x with
      | true => rfl
      | false => rw [(hv x).1 hb] at hm; exact absurd hm hx
    refine ⟨h.sub hall r (by simp), fun x hm => ?_⟩
    obtain ⟨a, ha, hb⟩ := h.dom hall x hm
    simp only [List.mem_singleton] at ha
    subst ha
    cases isMax <;> simp [dom] at hb ⊢ <;> omega

theorem fltExtreme_of_summ {isMax : Bool} {f : FT} {xs : List Int} {r : Int}
    (h : Summ (dom isMax (.flt f)) (Elem (.flt f)) [r] xs) : FltExtreme isMax f xs r := by
  have hv : ∀ x, (dom isMax (.flt f)).valid x = !f.isNan x.toNat := fun _ => rfl
  constructor
  · rintro ⟨x, hx, hn⟩
    have := (summ_valid_iff h).2 ⟨x, hx, by rw [hv, hn]; rfl⟩
    rw [hv] at this
    simpa using this
  · intro hx
    have hall : ∀ x ∈ xs, (dom isMax (.flt f)).valid x = true := by
      intro x hm; rw [hv, hx x hm]; rfl
    have hr := h.sub hall r (by simp)
    refine ⟨hr, fun x hm => ?_⟩
    obtain ⟨a, ha, hb⟩ := h.dom hall x hm
    simp only [List.mem_singleton] at ha
    subst ha
    cases isMax <;> simp [dom, FT.lt, hx x hm, hx a hr] at hb ⊢ <;> omega

/-- C38, integers: the result of `min`/`max` is the extreme of all the elements, or invalid if one of
them is invalid, for every integer type, array, number of threads and distribution of the work. -/
theorem reduce_int_extreme (isMax : Bool) (t : IT)
    (ht : t.bits = 8 ∨ t.bits = 16 ∨ t.bits = 32 ∨ t.bits = 64) (xs : List Int) (hne : xs ≠ [])
    (hx : ∀ x ∈ xs, t.InRange x) (workers : Nat) (nt : Bool) (par : Option (List (List Nat)))
    (h : CoreSched workers xs.length nt par) :
    ∃ r, reduceExtreme isMax (.int t) xs par = some r ∧ IntExtreme isMax t xs r := by
  obtain ⟨a, e, ha⟩ := scatterGather_spec (dom_laws isMax (.int t) ht) (block_ok isMax (.int t) ht) 0
    hne hx h
  refine ⟨a.mm, by unfold reduceExtreme; rw [e]; rfl, ?_⟩
  have hf : xs.filter (fun _ => true) = xs := List.filter_eq_self.2 (by simp)
  have := ha.summ (by rw [hf]; exact hne)
  rw [hf] at this
  exact intExtreme_of_summ this

/-- C38, floats. -/
theorem reduce_flt_extreme (isMax : Bool) (f : FT) (hf : f = .f32 ∨ f = .f64) (xs : List Int)
    (hne : xs ≠ []) (workers : Nat) (nt : Bool) (par : Option (List (List Nat)))
    (h : CoreSched workers xs.length nt par) :
    ∃ r, reduceExtreme isMax (.flt f) xs par = some r ∧ FltExtreme isMax f xs r := by
  obtain ⟨a, e, ha⟩ := scatterGather_spec (dom_laws isMax (.flt f) hf) (block_ok isMax (.flt f) hf) 0
    hne (fun _ _ => trivial) h
  refine ⟨a.mm, by unfold reduceExtreme; rw [e]; rfl, ?_⟩
  have hf : xs.filter (fun _ => true) = xs := List.filter_eq_self.2 (by simp)
  have := ha.summ (by rw [hf]; exact hne)
  rw [hf] at this
  exact fltExtreme_of_summ this

example : CoreSched 3 5 false none := .direct (by decide)
example : reduceExtreme true (.int .i8) [3, -5, 7, 1, 7] none = some 7 := by decide +kernel
example : reduceExtreme true (.int .i8) [3, -128, 7, 1, 7] none = some (-128) := by decide +kernel
example : reduceExtreme false (.int .u16) [3, 5, 65535] none = some 65535 := by decide +kernel
-- 40 elements: the vector path (8 registers of 4 lanes and a tail)
example : reduceExtreme false (.flt .f64) ((List.range 40).map fun i => ((1000 - i : Nat) : Int)) none
    = some 961 := by decide +kernel

/-- C38, `nanmin`/`nanmax` of integers. -/
theorem reduce_int_nan_extreme (isMax : Bool) (t : IT)
    (ht : t.bits = 8 ∨ t.bits = 16 ∨ t.bits = 32 ∨ t.bits = 64) (xs : List Int) (hne : xs ≠ [])
    (hx : ∀ x ∈ xs, t.InRange x) (workers : Nat) (nt : Bool) (par : Option (List (List Nat)))
    (h : CoreSched workers xs.length nt par) :
    ∃ r, reduceNanExtreme isMax (.int t) xs par = some r ∧ IntNanExtreme isMax t xs r := by
  have L := dom_laws isMax (.int t) ht
  obtain ⟨a, e, ha⟩ := scatterGather_spec L (nanBlock_ok L) 0 hne hx h
  have hv : ∀ x, (dom isMax (.int t)).valid x = true ↔ x ≠ t.inv := by intro x; simp [dom]
  refine ⟨_, by unfold reduceNanExtreme; simp only [e, Option.map_some]; rfl, ?_, ?_⟩
  · intro hall
    have hnil : xs.filter (dom isMax (.int t)).valid = [] := by
      rw [List.filter_eq_nil_iff]; intro x hm; rw [hv]; simpa using hall x hm
    simp only [ha.len.2 hnil, if_true]; rfl
  · rintro ⟨y, hy, hyv⟩
    have hne' : xs.filter (dom isMax (.int t)).valid ≠ [] := by
      intro hn; rw [List.filter_eq_nil_iff] at hn; exact hn y hy ((hv y).2 hyv)
    have h0 : a.lenOut ≠ 0 := fun h => hne' (ha.len.1 h)
    simp only [h0, if_false]
    obtain ⟨_, h2⟩ := intExtreme_of_summ (ha.summ hne')
    obtain ⟨h3, h4⟩ := h2 (by simp [dom])
    obtain ⟨h5, h6⟩ := List.mem_filter.1 h3
    exact ⟨h5, (hv _).1 h6, fun x hm hxv => h4 x (List.mem_filter.2 ⟨hm, (hv x).2 hxv⟩)⟩

/-- C38, `nanmin`/`nanmax` of floats. -/
theorem reduce_flt_nan_extreme (isMax : Bool) (f : FT) (hf : f = .f32 ∨ f = .f64) (xs : List Int)
    (hne : xs ≠ []) (workers : Nat) (nt : Bool) (par : Option (List (List Nat)))
    (h : CoreSched workers xs.length nt par) :
    ∃ r, reduceNanExtreme isMax (.flt f) xs par = some r ∧ FltNanExtreme isMax f xs r := by
  have L := dom_laws isMax (.flt f) hf
  obtain ⟨a, e, ha⟩ := scatterGather_spec L (nanBlock_ok L) 0 hne (fun _ _ => trivial) h
  have hv : ∀ x, (dom isMax (.flt f)).valid x = !f.isNan x.toNat := fun _ => rfl
  refine ⟨_, by unfold reduceNanExtreme; simp only [e, Option.map_some]; rfl, ?_, ?_⟩
  · intro hall
    have hnil : xs.filter (dom isMax (.flt f)).valid = [] := by
      rw [List.filter_eq_nil_iff]; intro x hm; rw [hv, hall x hm]; simp
    simp only [ha.len.2 hnil, if_true]
    have := L.inv_bad
    rw [hv] at this
    simpa using this
  · rintro ⟨y, hy, hyv⟩
    have hne' : xs.filter (dom isMax (.flt f)).valid ≠ [] := by
      intro hn; rw [List.filter_eq_nil_iff] at hn; exact hn y hy (by rw [hv, hyv]; rfl)
    have h0 : a.lenOut ≠ 0 := fun h => hne' (ha.len.1 h)
    simp only [h0, if_false]
    obtain ⟨_, h2⟩ := fltExtreme_of_summ (ha.summ hne')
    obtain ⟨h3, h4⟩ := h2 (fun x hx => by
      have := (List.mem_filter.1 hx).2; rw [hv] at this; simpa using this)
    obtain ⟨h5, h6⟩ := List.mem_filter.1 h3
    rw [hv] at h6
    exact ⟨h5, by simpa using h6, fun x hm hxv => h4 x (List.mem_filter.2 ⟨hm, by rw [hv, hxv]; rfl⟩)⟩

example : reduceNanExtreme true (.int .i8) [-128, 3, -5] none = some 3 := by decide +kernel
example : reduceNanExtreme true (.int .i8) [-128, -128] none = some (-128) := by decide +kernel

/-- The value of a two-argument min/max with missing values: the better of two valid operands,
invalid otherwise. -/
theorem min_max_operation (isMax : Bool) (t : IT) (x y : Int) :
    rBest (dom isMax (.int t)) x y =
      if x = t.inv ∨ y = t.inv then t.inv else if isMax then max x y else min x y := by
  unfold rBest stdBest
  by_cases hx : x = t.inv
  · simp [dom, hx]
  · by_cases hy : y = t.inv
    · simp [dom, hy]
    · cases isMax <;> simp [dom, hx, hy] <;> omega

/-- `min_with_nan_passthru`/`max_with_nan_passthru` on integers agree with `riptide::min`/`max`, and
on floats the result is NaN exactly when an operand is. -/
theorem passthru_int (isMax : Bool) (t : IT) (x y : Int) (hx : t.InRange x) (hy : t.InRange y) :
    passthruInt (dom isMax (.int t)) (t.signed != isMax) x y =
      if x = t.inv ∨ y = t.inv then t.inv else if isMax then max x y else min x y := by
  unfold IT.InRange at hx hy
  unfold passthruInt stdBest IT.inv
  cases isMax <;> cases hs : t.signed <;>
    simp [dom, IT.inv, hs] <;> (repeat' split) <;> omega

theorem passthru_flt (isMax : Bool) (f : FT) (hf : f = .f32 ∨ f = .f64) (x y : Int) :
    FltExtreme isMax f [x, y] (passthruFloat (dom isMax (.flt f)) x y) := by
  have L := dom_laws isMax (.flt f) hf
  have hc := laneOp_comb isMax (.flt f) hf _ rfl
  exact fltExtreme_of_summ (summ_pair L.toOrd hc (Summ.self L.toOrd (S := [x]) (by simp [Elem]))
    (Summ.self L.toOrd (S := [y]) (by simp [Elem])))

/-- C48: `argmin`/`argmax` of integers: the first invalid position if there is one, else the first
position of the extreme. -/
theorem argBest_int (isMax : Bool) (t : IT) (xs : List Int) (hne : xs ≠ []) :
    ∃ p, argBest (dom isMax (.int t)) xs = some p ∧
      (t.inv ∈ xs → FirstBad (· = t.inv) xs p) ∧
      (t.inv ∉ xs → FirstExtreme isMax (· = t.inv) id xs p) := by
  have hO : Ord (dom isMax (.int t)) := by
    constructor
    · intro a b _ _; cases isMax <;> simp [dom] <;> omega
    · intro x y z _ _ _; cases isMax <;> simp [dom] <;> omega
  have hv : ∀ x, (dom isMax (.int t)).valid x = true ↔ x ≠ t.inv := by intro x; simp [dom]
  have hv' : ∀ x, (dom isMax (.int t)).valid x = false ↔ x = t.inv := by intro x; simp [dom]
  obtain ⟨x, l, rfl⟩ := List.exists_cons_of_ne_nil hne
  refine ⟨_, rfl, ?_⟩
  by_cases hx : x = t.inv
  · have hx' := (hv' x).2 hx
    simp only [hx', Bool.false_eq_true, if_false]
    refine ⟨fun _ => ⟨x, by simp, hx, by intro q _ hq; omega⟩, fun h => ?_⟩
    exact absurd (by simp [hx]) h
  · have hx' := (hv x).2 hx
    simp only [hx', if_true]
    obtain ⟨h1, h2⟩ := argBest_go_spec hO l [x] x 0 (by simpa using hx')
      ⟨x, by simp, hx', by simp [better_irrefl hO hx'], by intro q _ hq; omega⟩ (by simp)
    constructor
    · intro hm
      obtain ⟨v, e, hb, hq⟩ := h2 ⟨t.inv, by
        rcases List.mem_cons.1 hm with h | h
        · exact absurd h.symm hx
        · exact h, by simp [dom]⟩
      exact ⟨v, e, (hv' v).1 hb, fun q y hqp hy => (hv y).1 (hq q y hqp hy)⟩
    · intro hm
      obtain ⟨v, e, hb, hd, hq⟩ := h1 (fun y hy => (hv y).2 (by rintro rfl; exact hm (by simp [hy])))
      refine ⟨v, e, (hv v).1 hb, ?_, ?_⟩
      · intro y hy hyb
        have := hd y hy ((hv y).2 hyb)
        cases isMax <;> simp [dom] at this ⊢ <;> omega
      · intro q y hqp hy hyb
        have := hq q y hqp hy ((hv y).2 hyb)
        cases isMax <;> simp [dom] at this ⊢ <;> omega

/-- C48: `argmin`/`argmax` of floats. -/
theorem argBest_flt (isMax : Bool) (f : FT) (hf : f = .f32 ∨ f = .f64) (xs : List Int)
    (hne : xs ≠ []) :
    ∃ p, argBest (dom isMax (.flt f)) xs = some p ∧
      ((∃ x ∈ xs, f.isNan x.toNat = true) → FirstBad (fun x => f.isNan x.toNat = true) xs p) ∧
      ((∀ x ∈ xs, f.isNan x.toNat = false) →
        FirstExtreme isMax (fun x => f.isNan x.toNat = true) (fun x => f.key x.toNat) xs p) := by
  have hO := (dom_laws isMax (.flt f) hf).toOrd
  have hv : ∀ x, (dom isMax (.flt f)).valid x = !f.isNan x.toNat := fun _ => rfl
  obtain ⟨x, l, rfl⟩ := List.exists_cons_of_ne_nil hne
  refine ⟨_, rfl, ?_⟩
  cases hx : f.isNan x.toNat with
  | true =>
    rw [hv, hx]
    simp only [Bool.not_true, Bool.false_eq_true, if_false]
    refine ⟨fun _ => ⟨x, by simp, hx, by intro q _ hq; omega⟩, fun h => ?_⟩
    have := h x (by simp); rw [hx] at this; cases this
  | false =>
    have hx' : (dom isMax (.flt f)).valid x = true := by rw [hv, hx]; rfl
    simp only [hx', if_true]
    obtain ⟨h1, h2⟩ := argBest_go_spec hO l [x] x 0 (by simpa using hx')
      ⟨x, by simp, hx', by simp [better_irrefl hO hx'], by intro q _ hq; omega⟩ (by simp)
    constructor
    · rintro ⟨y, hm, hn⟩
      obtain ⟨v, e, hb, hq⟩ := h2 ⟨y, by
        rcases List.mem_cons.1 hm with h | h
        · rw [h, hx] at hn; cases hn
        · exact h, by rw [hv, hn]; rfl⟩
      refine ⟨v, e, by rw [hv] at hb; simpa using hb, fun q y hqp hy => ?_⟩
      have := hq q y hqp hy; rw [hv] at this; simpa using this
    · intro hall
      obtain ⟨v, e, hb, hd, hq⟩ := h1 (fun y hy => by rw [hv, hall y (by simp [hy])]; rfl)
      have hb' : f.isNan v.toNat = false := by rw [hv] at hb; simpa using hb
      refine ⟨v, e, by simp [hb'], ?_, ?_⟩
      · intro y hy _
        have hy' := hall y hy
        have := hd y hy (by rw [hv, hy']; rfl)
        cases isMax <;> simp [dom, FT.lt, hb', hy'] at this ⊢ <;> omega
      · intro q y hqp hy _
        have hy' := hall y (List.mem_of_getElem? hy)
        have := hq q y hqp hy (by rw [hv, hy']; rfl)
        cases isMax <;> simp [dom, FT.lt, hb', hy'] at this ⊢ <;> omega

/-- C48: `nanargmin`/`nanargmax` of integers: the first position of the extreme valid element; an
error exactly when there is none. -/
theorem nanArgBest_int (isMax : Bool) (t : IT) (xs : List Int) :
    (∀ p, nanArgBest (dom isMax (.int t)) xs = some p → FirstExtreme isMax (· = t.inv) id xs p) ∧
    (nanArgBest (dom isMax (.int t)) xs = none ↔ ∀ x ∈ xs, x = t.inv) := by
  have hO : Ord (dom isMax (.int t)) := by
    constructor
    · intro a b _ _; cases isMax <;> simp [dom] <;> omega
    · intro x y z _ _ _; cases isMax <;> simp [dom] <;> omega
  have hv : ∀ x, (dom isMax (.int t)).valid x = true ↔ x ≠ t.inv := by intro x; simp [dom]
  obtain ⟨h1, h2⟩ := nanArg_go_spec hO xs [] none (by simp) (by simp)
  have hfe : ∀ p, nanArgBest (dom isMax (.int t)) xs = some p →
      FirstExtreme isMax (· = t.inv) id xs p := by
    intro p hp
    obtain ⟨v, e, hb, hd, hq⟩ := h1 p hp
    refine ⟨v, e, (hv v).1 hb, ?_, ?_⟩
    · intro y hy hyb
      have := hd y hy ((hv y).2 hyb)
      cases isMax <;> simp [dom] at this ⊢ <;> omega
    · intro q y hqp hy hyb
      have := hq q y hqp hy ((hv y).2 hyb)
      cases isMax <;> simp [dom] at this ⊢ <;> omega
  refine ⟨hfe, fun h x hx => ?_, fun h => ?_⟩
  · have := h2 h x (by simpa using hx); simpa [dom] using this
  · cases hn : nanArgBest (dom isMax (.int t)) xs with
    | none => rfl
    | some p =>
      obtain ⟨v, e, hb, _⟩ := hfe p hn
      exact absurd (h v (List.mem_of_getElem? e)) hb

/-- C48: `nanargmin`/`nanargmax` of floats. -/
theorem nanArgBest_flt (isMax : Bool) (f : FT) (hf : f = .f32 ∨ f = .f64) (xs : List Int) :
    (∀ p, nanArgBest (dom isMax (.flt f)) xs = some p →
      FirstExtreme isMax (fun x => f.isNan x.toNat = true) (fun x => f.key x.toNat) xs p) ∧
    (nanArgBest (dom isMax (.flt f)) xs = none ↔ ∀ x ∈ xs, f.isNan x.toNat = true) := by
  have hO := (dom_laws isMax (.flt f) hf).toOrd
  have hv : ∀ x, (dom isMax (.flt f)).valid x = !f.isNan x.toNat := fun _ => rfl
  obtain ⟨h1, h2⟩ := nanArg_go_spec hO xs [] none (by simp) (by simp)
  have hfe : ∀ p, nanArgBest (dom isMax (.flt f)) xs = some p →
      FirstExtreme isMax (fun x => f.isNan x.toNat = true) (fun x => f.key x.toNat) xs p := by
    intro p hp
    obtain ⟨v, e, hb, hd, hq⟩ := h1 p hp
    have hb' : f.isNan v.toNat = false := by rw [hv] at hb; simpa using hb
    refine ⟨v, e, by simp [hb'], ?_, ?_⟩
    · intro y hy hyn
      have hy' : f.isNan y.toNat = false := by simpa using hyn
      have := hd y hy (by rw [hv, hy']; rfl)
      cases isMax <;> simp [dom, FT.lt, hb', hy'] at this ⊢ <;> omega
    · intro q y hqp hy hyn
      have hy' : f.isNan y.toNat = false := by simpa using hyn
      have := hq q y hqp hy (by rw [hv, hy']; rfl)
      cases isMax <;> simp [dom, FT.lt, hb', hy'] at this ⊢ <;> omega
  refine ⟨hfe, fun h x hx => ?_, fun h => ?_⟩
  · have := h2 h x (by simpa using hx); rw [hv] at this; simpa using this
  · cases hn : nanArgBest (dom isMax (.flt f)) xs with
    | none => rfl
    | some p =>
      obtain ⟨v, e, hb, _⟩ := hfe p hn
      exact absurd (h v (List.mem_of_getElem? e)) hb

example : argBest (dom true (.int .i32)) [4, 9, 2, 9] = some 1 := by decide
example : nanArgBest (dom false (.int .i8)) [-128, 5, 3, 3] = some 2 := by decide

end Riptide.Reduce
