import Verif.Reduce.CallSpec
import Verif.Reduce.Props
import Verif.Reduce.SumProps
import Verif.Reduce.VarianceProps
/-! # Properties of the call `Reduce` -/
namespace Riptide.Reduce
open Riptide.Work Riptide.Binary

theorem elem_int {ty : Int} {t : IT} (h : (ty, t) ∈ intTypes) :
    elemOf (.int .i8) ty.toNat = some (.int t) ∧ ¬ (ty < 0 ∨ 20 < ty) ∧
      (t.bits = 8 ∨ t.bits = 16 ∨ t.bits = 32 ∨ t.bits = 64) ∧ (ty ≠ 0 → elemOf .bool ty.toNat = some (.int t)) ∧
      (ty = 0 → t = .i8) ∧ ∀ a, sumOut ty.toNat a = match sumReturn t a with | .int n => .int n | .float d => .sum d := by
  simp only [intTypes, List.mem_cons, Prod.mk.injEq, List.not_mem_nil, or_false] at h
  rcases h with h | h | h | h | h | h | h | h | h | h | h <;> obtain ⟨rfl, rfl⟩ := h <;>
    exact ⟨rfl, by decide, by decide, by first | (intro h; rfl) | (intro h; exact absurd rfl h), by decide, fun _ => rfl⟩

theorem elem_flt {ty : Int} {f : FT} (h : (ty, f) ∈ fltTypes) (b : KTy) :
    elemOf b ty.toNat = some (.flt f) ∧ ¬ (ty < 0 ∨ 20 < ty) ∧ (f = .f32 ∨ f = .f64) ∧ ty.toNat ≠ 0 ∧ sumRet ty.toNat = none := by
  simp only [fltTypes, List.mem_cons, Prod.mk.injEq, List.not_mem_nil, or_false] at h
  rcases h with h | h <;> obtain ⟨rfl, rfl⟩ := h <;> exact ⟨rfl, by decide, by decide, by decide, rfl⟩

theorem flat_reads {a : Arr} (h : Flat a) : ∃ l, reduceReads a.lay = some (.at l) := by
  obtain ⟨⟨d, ds, s, ss, h1, h2, h3⟩, hl, hne⟩ := h
  have hn : a.lay.len ≠ 0 := by rw [← hl]; exact fun h => hne (List.length_eq_zero_iff.1 h)
  refine ⟨flat a.lay.item a.lay.len, ?_⟩
  rw [reduceReads, h1, h2]
  simp only
  rw [if_pos h3, if_neg hn]

/-- The call comes down to `ReduceInternal`. -/
theorem call_flat {a : Arr} (h : Flat a) (junk : Int) (f : Nat) (hf : f < 2 ^ 32) (p1 p2 : Par) :
    reduceCall junk [.arr a, .int f] p1 p2 = ⟨false, internal junk a.ty f 1 a.data p1 p2⟩ := by
  obtain ⟨l, hl⟩ := flat_reads h
  have e : asLL (f : Int) = ((f : Int), false) := by
    rw [asLL, if_pos (by simp only [IT.InRange, IT.lo, IT.hi, IT.i64]; omega)]
  have e2 : ((f : Int) % 2 ^ 32).toNat = f := by omega
  simp only [reduceCall, hl, e, e2, ddofOf, Bool.or_self, List.length_cons, List.length_nil]
  rfl

theorem call_flat_ddof {a : Arr} (h : Flat a) (junk : Int) (f : Nat) (hf : f < 2 ^ 32) (ddof : Int) (hd : IT.i64.InRange ddof)
    (p1 p2 : Par) :
    reduceCall junk [.arr a, .int f, .int ddof] p1 p2 = ⟨false, internal junk a.ty f ddof a.data p1 p2⟩ := by
  obtain ⟨l, hl⟩ := flat_reads h
  have e : asLL (f : Int) = ((f : Int), false) := by
    rw [asLL, if_pos (by simp only [IT.InRange, IT.lo, IT.hi, IT.i64]; omega)]
  have e2 : ((f : Int) % 2 ^ 32).toNat = f := by omega
  have e3 : asLL ddof = (ddof, false) := by rw [asLL, if_pos hd]
  simp only [reduceCall, hl, e, e2, e3, ddofOf, Bool.or_self, List.length_cons, List.length_nil]
  rfl

/-! ## Extremes -/

theorem internal_extreme (junk : Int) (isMax : Bool) {ty : Int} (hr : ¬ (ty < 0 ∨ 20 < ty)) (k : KTy)
    (he : elemOf (.int .i8) ty.toNat = some k) (ddof : Int) (xs : List Int) (p1 p2 : Par) :
    internal junk ty (if isMax then 202 else 200) ddof xs p1 p2 =
      singleRun junk (.extreme isMax k) ty.toNat (if isMax then 202 else 200) xs p1 := by
  cases isMax <;> simp [internal, hr, reducePtr, extremePtr, he]

/-- C133.  The call with number 200 or 202 answers the minimum or maximum of an array of integers, invalid if there is an invalid
one. -/
theorem call_int_extreme (junk : Int) (isMax : Bool) {a : Arr} (h : Flat a) {t : IT} (ht : (a.ty, t) ∈ intTypes)
    (hx : ∀ x ∈ a.data, t.InRange x) (workers : Nat) (nt : Bool) (par p2 : Par) (hp : CoreSched workers a.data.length nt par) :
    ∃ r, reduceCall junk [.arr a, .int (if isMax then 202 else 200)] par p2 = ⟨false, .int r⟩ ∧ IntExtreme isMax t a.data r := by
  obtain ⟨e1, e2, e3, _⟩ := elem_int ht
  obtain ⟨r, h1, h2⟩ := reduce_int_extreme isMax t e3 a.data h.ne hx workers nt par hp
  refine ⟨r, ?_, h2⟩
  have e := call_flat h junk (if isMax then 202 else 200) (by cases isMax <;> decide) par p2
  have ec : (((if isMax then 202 else 200 : Nat) : Nat) : Int) = (if isMax then 202 else 200) := by cases isMax <;> rfl
  rw [ec] at e
  rw [e, internal_extreme junk isMax e2 _ e1]
  cases isMax <;> simp [singleRun, h1, extremeOut, e1]

example : ∃ r, reduceCall 0 [.arr ⟨5, ⟨[3], [4], 4⟩, [4, -7, 9]⟩, .int 200] none none = ⟨false, .int r⟩ ∧ IntExtreme false .i32 [4, -7, 9] r :=
  call_int_extreme 0 false (a := ⟨5, ⟨[3], [4], 4⟩, [4, -7, 9]⟩) ⟨⟨3, [], 4, [], rfl, rfl, .inr rfl⟩, rfl, by simp⟩ (by decide)
    (by decide) 0 true none none (.direct (.inr rfl))

/-- C133.  The call with number 200 or 202 for floats. -/
theorem call_flt_extreme (junk : Int) (isMax : Bool) {a : Arr} (h : Flat a) {f : FT} (ht : (a.ty, f) ∈ fltTypes)
    (workers : Nat) (nt : Bool) (par p2 : Par) (hp : CoreSched workers a.data.length nt par) :
    ∃ r, reduceCall junk [.arr a, .int (if isMax then 202 else 200)] par p2 = ⟨false, .flt f r⟩ ∧ FltExtreme isMax f a.data r := by
  obtain ⟨e1, e2, e3, _⟩ := elem_flt ht (.int .i8)
  obtain ⟨r, h1, h2⟩ := reduce_flt_extreme isMax f e3 a.data h.ne workers nt par hp
  refine ⟨r, ?_, h2⟩
  have e := call_flat h junk (if isMax then 202 else 200) (by cases isMax <;> decide) par p2
  have ec : (((if isMax then 202 else 200 : Nat) : Nat) : Int) = (if isMax then 202 else 200) := by cases isMax <;> rfl
  rw [ec] at e
  rw [e, internal_extreme junk isMax e2 _ e1]
  cases isMax <;> simp [singleRun, h1, extremeOut, e1]

theorem internal_nan_extreme (junk : Int) (isMax : Bool) {ty : Int} (hr : ¬ (ty < 0 ∨ 20 < ty)) (h0 : ty.toNat ≠ 0) (k : KTy)
    (he : elemOf .bool ty.toNat = some k) (ddof : Int) (xs : List Int) (p1 p2 : Par) :
    internal junk ty (if isMax then 203 else 201) ddof xs p1 p2 =
      singleRun junk (.nanExtreme isMax k) ty.toNat (if isMax then 203 else 201) xs p1 := by
  cases isMax <;> simp [internal, hr, reducePtr, nanExtremePtr, h0, he]

theorem internal_nan_extreme_bool (junk : Int) (isMax : Bool) (ddof : Int) (xs : List Int) (p1 p2 : Par) :
    internal junk 0 (if isMax then 203 else 201) ddof xs p1 p2 =
      singleRun junk (.extreme isMax (.int .i8)) 0 (if isMax then 203 else 201) xs p1 := by
  cases isMax <;> rfl

/-- C133.  The call with number 201 or 203 answers the minimum or maximum of the valid integers of an array, invalid if there are
none; booleans are never invalid. -/
theorem call_int_nan_extreme (junk : Int) (isMax : Bool) {a : Arr} (h : Flat a) {t : IT} (ht : (a.ty, t) ∈ intTypes)
    (hx : ∀ x ∈ a.data, t.InRange x) (hb : a.ty = 0 → ∀ x ∈ a.data, x = 0 ∨ x = 1)
    (workers : Nat) (nt : Bool) (par p2 : Par) (hp : CoreSched workers a.data.length nt par) :
    ∃ r, reduceCall junk [.arr a, .int (if isMax then 203 else 201)] par p2 = ⟨false, .int r⟩ ∧ IntNanExtreme isMax t a.data r := by
  obtain ⟨e1, e2, e3, e4, e5, _⟩ := elem_int ht
  have e := call_flat h junk (if isMax then 203 else 201) (by cases isMax <;> decide) par p2
  have ec : (((if isMax then 203 else 201 : Nat) : Nat) : Int) = (if isMax then 203 else 201) := by cases isMax <;> rfl
  rw [ec] at e
  by_cases h0 : a.ty = 0
  · obtain ⟨r, h1, h2⟩ := reduce_int_extreme isMax t e3 a.data h.ne hx workers nt par hp
    have ht8 := e5 h0
    subst ht8
    refine ⟨r, ?_, ?_⟩
    · rw [e, h0, internal_nan_extreme_bool]
      cases isMax <;> simp [singleRun, h1, extremeOut, elemOf]
    · have hne : ∀ x ∈ a.data, x ≠ IT.i8.inv := by
        intro x hx hxi
        rcases hb h0 x hx with rfl | rfl <;> exact absurd hxi (by decide)
      have hni : IT.i8.inv ∉ a.data := fun hm => hne _ hm rfl
      obtain ⟨m1, m2⟩ := h2.2 hni
      refine ⟨fun hall => ?_, fun _ => ⟨m1, hne r m1, fun x hx _ => m2 x hx⟩⟩
      exact absurd (hall r m1) (hne r m1)
  · have h0' : a.ty.toNat ≠ 0 := by omega
    obtain ⟨r, h1, h2⟩ := reduce_int_nan_extreme isMax t e3 a.data h.ne hx workers nt par hp
    refine ⟨r, ?_, h2⟩
    rw [e, internal_nan_extreme junk isMax e2 h0' _ (e4 h0)]
    cases isMax <;> simp [singleRun, h1, extremeOut, e1]

example : ∃ r, reduceCall 0 [.arr ⟨0, ⟨[2], [1], 1⟩, [1, 0]⟩, .int 203] none none = ⟨false, .int r⟩ ∧ IntNanExtreme true .i8 [1, 0] r :=
  call_int_nan_extreme 0 true (a := ⟨0, ⟨[2], [1], 1⟩, [1, 0]⟩) ⟨⟨2, [], 1, [], rfl, rfl, .inr rfl⟩, rfl, by simp⟩ (by decide)
    (by decide) (by decide) 0 true none none (.direct (.inr rfl))

/-- C133.  The call with number 201 or 203 for floats. -/
theorem call_flt_nan_extreme (junk : Int) (isMax : Bool) {a : Arr} (h : Flat a) {f : FT} (ht : (a.ty, f) ∈ fltTypes)
    (workers : Nat) (nt : Bool) (par p2 : Par) (hp : CoreSched workers a.data.length nt par) :
    ∃ r, reduceCall junk [.arr a, .int (if isMax then 203 else 201)] par p2 = ⟨false, .flt f r⟩ ∧ FltNanExtreme isMax f a.data r := by
  obtain ⟨e1, e2, e3, e4, _⟩ := elem_flt ht .bool
  obtain ⟨e1', _⟩ := elem_flt ht (.int .i8)
  obtain ⟨r, h1, h2⟩ := reduce_flt_nan_extreme isMax f e3 a.data h.ne workers nt par hp
  refine ⟨r, ?_, h2⟩
  have e := call_flat h junk (if isMax then 203 else 201) (by cases isMax <;> decide) par p2
  have ec : (((if isMax then 203 else 201 : Nat) : Nat) : Int) = (if isMax then 203 else 201) := by cases isMax <;> rfl
  rw [ec] at e
  rw [e, internal_nan_extreme junk isMax e2 e4 _ e1]
  cases isMax <;> simp [singleRun, h1, extremeOut, e1']

/-! ## Positions -/

theorem internal_arg (junk : Int) (skip isMax : Bool) {ty : Int} (hr : ¬ (ty < 0 ∨ 20 < ty)) (k : KTy)
    (he : elemOf (.int .i8) ty.toNat = some k) (ddof : Int) (xs : List Int) (p1 p2 : Par) :
    internal junk ty (204 + (if skip then 1 else 0) + (if isMax then 2 else 0)) ddof xs p1 p2 = argRun (some (skip, isMax, k)) xs := by
  cases isMax <;> cases skip <;> simp [internal, hr, argPtr, he]

/-- C133.  The call with number 204 or 206 answers the position of the first invalid integer, or of the first least or greatest one. -/
theorem call_int_arg (junk : Int) (isMax : Bool) {a : Arr} (h : Flat a) {t : IT} (ht : (a.ty, t) ∈ intTypes) (p1 p2 : Par) :
    ∃ p : Nat, reduceCall junk [.arr a, .int (if isMax then 206 else 204)] p1 p2 = ⟨false, .int p⟩ ∧
      (t.inv ∈ a.data → FirstBad (· = t.inv) a.data p) ∧ (t.inv ∉ a.data → FirstExtreme isMax (· = t.inv) id a.data p) := by
  obtain ⟨e1, e2, _⟩ := elem_int ht
  obtain ⟨p, h1, h2⟩ := argBest_int isMax t a.data h.ne
  refine ⟨p, ?_, h2⟩
  have e := call_flat h junk (204 + (if false then 1 else 0) + (if isMax then 2 else 0)) (by cases isMax <;> decide) p1 p2
  rw [internal_arg junk false isMax e2 _ e1] at e
  cases isMax <;> simp [argRun, h1] at e ⊢ <;> exact e

/-- C133.  The call with number 204 or 206 for floats. -/
theorem call_flt_arg (junk : Int) (isMax : Bool) {a : Arr} (h : Flat a) {f : FT} (ht : (a.ty, f) ∈ fltTypes) (p1 p2 : Par) :
    ∃ p : Nat, reduceCall junk [.arr a, .int (if isMax then 206 else 204)] p1 p2 = ⟨false, .int p⟩ ∧
      ((∃ x ∈ a.data, f.isNan x.toNat = true) → FirstBad (fun x => f.isNan x.toNat = true) a.data p) ∧
      ((∀ x ∈ a.data, f.isNan x.toNat = false) →
        FirstExtreme isMax (fun x => f.isNan x.toNat = true) (fun x => f.key x.toNat) a.data p) := by
  obtain ⟨e1, e2, e3, _⟩ := elem_flt ht (.int .i8)
  obtain ⟨p, h1, h2⟩ := argBest_flt isMax f e3 a.data h.ne
  refine ⟨p, ?_, h2⟩
  have e := call_flat h junk (204 + (if false then 1 else 0) + (if isMax then 2 else 0)) (by cases isMax <;> decide) p1 p2
  rw [internal_arg junk false isMax e2 _ e1] at e
  cases isMax <;> simp [argRun, h1] at e ⊢ <;> exact e

/-- C133.  The call with number 205 or 207 answers the position of the first least or greatest valid integer, or raises a `ValueError`
if none is valid. -/
theorem call_int_nan_arg (junk : Int) (isMax : Bool) {a : Arr} (h : Flat a) {t : IT} (ht : (a.ty, t) ∈ intTypes) (p1 p2 : Par) :
    ((∀ x ∈ a.data, x = t.inv) → reduceCall junk [.arr a, .int (if isMax then 207 else 205)] p1 p2 = ⟨false, .noValid⟩) ∧
    ((∃ x ∈ a.data, x ≠ t.inv) → ∃ p : Nat, reduceCall junk [.arr a, .int (if isMax then 207 else 205)] p1 p2 = ⟨false, .int p⟩ ∧
      FirstExtreme isMax (· = t.inv) id a.data p) := by
  obtain ⟨e1, e2, _⟩ := elem_int ht
  obtain ⟨h1, h2⟩ := nanArgBest_int isMax t a.data
  have e := call_flat h junk (204 + (if true then 1 else 0) + (if isMax then 2 else 0)) (by cases isMax <;> decide) p1 p2
  rw [internal_arg junk true isMax e2 _ e1] at e
  refine ⟨fun ha => ?_, fun hex => ?_⟩
  · have := h2.2 ha
    cases isMax <;> simp [argRun, this] at e ⊢ <;> exact e
  · cases hp : nanArgBest (dom isMax (.int t)) a.data with
    | none => obtain ⟨x, hx, hn⟩ := hex; exact absurd (h2.1 hp x hx) hn
    | some p =>
      refine ⟨p, ?_, h1 p hp⟩
      cases isMax <;> simp [argRun, hp] at e ⊢ <;> exact e

/-- C133.  The call with number 205 or 207 for floats. -/
theorem call_flt_nan_arg (junk : Int) (isMax : Bool) {a : Arr} (h : Flat a) {f : FT} (ht : (a.ty, f) ∈ fltTypes) (p1 p2 : Par) :
    ((∀ x ∈ a.data, f.isNan x.toNat = true) →
      reduceCall junk [.arr a, .int (if isMax then 207 else 205)] p1 p2 = ⟨false, .noValid⟩) ∧
    ((∃ x ∈ a.data, f.isNan x.toNat = false) →
      ∃ p : Nat, reduceCall junk [.arr a, .int (if isMax then 207 else 205)] p1 p2 = ⟨false, .int p⟩ ∧
      FirstExtreme isMax (fun x => f.isNan x.toNat = true) (fun x => f.key x.toNat) a.data p) := by
  obtain ⟨e1, e2, e3, _⟩ := elem_flt ht (.int .i8)
  obtain ⟨h1, h2⟩ := nanArgBest_flt isMax f e3 a.data
  have e := call_flat h junk (204 + (if true then 1 else 0) + (if isMax then 2 else 0)) (by cases isMax <;> decide) p1 p2
  rw [internal_arg junk true isMax e2 _ e1] at e
  refine ⟨fun ha => ?_, fun hex => ?_⟩
  · have := h2.2 ha
    cases isMax <;> simp [argRun, this] at e ⊢ <;> exact e
  · cases hp : nanArgBest (dom isMax (.flt f)) a.data with
    | none => obtain ⟨x, hx, hn⟩ := hex; rw [h2.1 hp x hx] at hn; cases hn
    | some p =>
      refine ⟨p, ?_, h1 p hp⟩
      cases isMax <;> simp [argRun, hp] at e ⊢ <;> exact e

end Riptide.Reduce
