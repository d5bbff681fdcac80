import Verif.Reduce.CallProps
/-! # Sums, means and variances by the call `Reduce`, and what is refused -/
namespace Riptide.Reduce
open Riptide.Work Riptide.Binary

/-! ## Sums -/

theorem call_sum_out (junk : Int) {a : Arr} (h : Flat a) {t : IT} (ht : (a.ty, t) ∈ intTypes) (par p2 : Par) :
    reduceCall junk [.arr a, .int 0] par p2 =
      ⟨false, match reduceSumInt junk t a.data par with | .int n => .int n | .float d => .sum d⟩ := by
  obtain ⟨e1, e2, _, _, _, e6⟩ := elem_int ht
  have e := call_flat h junk 0 (by decide) par p2
  have e' : internal junk a.ty 0 1 a.data par p2 = sumOut a.ty.toNat (sumScatter (intBlock junk t) a.data par) := by
    simp [internal, e2, reducePtr, e1, singleRun, sumAcc]
  rw [e', e6] at e
  exact e

/-- C133 (partial: below `2^53` in all, because integers are added as doubles).  The call with number 0 answers the sum of an array of
integers, invalid if there is an invalid one. -/
theorem call_int_sum_partial (junk : Int) {a : Arr} (h : Flat a) {t : IT} (ht : (a.ty, t) ∈ intTypes)
    (hx : ∀ x ∈ a.data, t.InRange x) (workers : Nat) (nt : Bool) (par p2 : Par) (hp : CoreSched workers a.data.length nt par) :
    (t.inv ∈ a.data → reduceCall junk [.arr a, .int 0] par p2 = ⟨false, .int (if t = .u64 then IT.u64.inv else IT.i64.inv)⟩) ∧
    (t.inv ∉ a.data → (a.data.map Int.natAbs).sum < 2 ^ 53 → reduceCall junk [.arr a, .int 0] par p2 = ⟨false, .int a.data.sum⟩) := by
  obtain ⟨h1, h2⟩ := sum_int_partial junk t a.data hx workers nt par hp
  refine ⟨fun hi => ?_, fun hi hs => ?_⟩
  · rw [call_sum_out junk h ht, h1 hi]; rfl
  · rw [call_sum_out junk h ht, h2 hi hs]

example : reduceCall 0 [.arr ⟨2, ⟨[3], [1], 1⟩, [200, 100, 7]⟩, .int 0] none none = ⟨false, .int 307⟩ :=
  (call_int_sum_partial 0 (a := ⟨2, ⟨[3], [1], 1⟩, [200, 100, 7]⟩) ⟨⟨3, [], 1, [], rfl, rfl, .inr rfl⟩, rfl, by simp⟩ (t := .u8)
    (by decide) (by decide) 0 true none none (.direct (.inr rfl))).2 (by decide) (by decide)

theorem blockElems_mem {α : Type} {xs : List α} {b : Nat} {x : α} (h : x ∈ blockElems xs b) : x ∈ xs :=
  List.mem_of_mem_drop (List.mem_of_mem_take h)

/-- Two kernels which agree on the elements of an array give the same sum. -/
theorem sumScatter_congr {α : Type} {blk blk' : SAcc → List α → SAcc} {xs : List α}
    (h : ∀ a l, (∀ x ∈ l, x ∈ xs) → blk a l = blk' a l) (par : Par) : sumScatter blk xs par = sumScatter blk' xs par := by
  cases par with
  | none => exact h _ _ fun _ hx => hx
  | some cores =>
    simp only [sumScatter]
    congr 1
    apply List.map_congr_left
    intro bs _
    have : ∀ (bs : List Nat) (a : SAcc), bs.foldl (fun a b => blk a (blockElems xs b)) a =
        bs.foldl (fun a b => blk' a (blockElems xs b)) a := by
      intro bs
      induction bs with
      | nil => intro a; rfl
      | cons b bs ih => intro a; rw [List.foldl_cons, List.foldl_cons, h _ _ fun x hx => blockElems_mem hx, ih]
    exact this bs _

theorem filterMap_some {t : IT} : ∀ {l : List Int}, (∀ x ∈ l, x ≠ t.inv) →
    l.filterMap some = l.filterMap fun x => if x = t.inv then none else some x
  | [], _ => rfl
  | x :: l, h => by
    have h1 := h x (by simp)
    simp only [List.filterMap_cons, if_neg h1, filterMap_some (l := l) fun y hy => h y (by simp [hy])]

/-- Booleans have no invalid value: the kernel for them is the one for bytes. -/
theorem nanSum_bool (junk : Int) {xs : List Int} (h : ∀ x ∈ xs, x = 0 ∨ x = 1) (par : Par) :
    sumScatter (nanSumBlock junk some) xs par =
      sumScatter (nanSumBlock junk fun x => if x = IT.i8.inv then none else some x) xs par := by
  refine sumScatter_congr (fun a l hl => ?_) par
  have hn : ∀ x ∈ l, x ≠ IT.i8.inv := by
    intro x hx hxi
    rcases h x (hl x hx) with rfl | rfl <;> exact absurd hxi (by decide)
  simp only [nanSumBlock, filterMap_some hn]

/-- The accumulator of the sum which skips invalid integers. -/
theorem nanSum_acc (junk : Int) {a : Arr} {t : IT} (ht : (a.ty, t) ∈ intTypes) (hb : a.ty = 0 → ∀ x ∈ a.data, x = 0 ∨ x = 1)
    (par : Par) : ∃ k, reducePtr a.ty.toNat 1 = some k ∧
      sumAcc junk k a.data par = some (sumScatter (nanSumBlock junk fun x => if x = t.inv then none else some x) a.data par) := by
  obtain ⟨_, e2, _, e4, e5, _⟩ := elem_int ht
  by_cases h0 : a.ty = 0
  · have := e5 h0
    subst this
    refine ⟨.nanSum .bool, by rw [h0]; rfl, ?_⟩
    simp only [sumAcc, nanSum_bool junk (hb h0)]
  · exact ⟨.nanSum (.int t), by simp [reducePtr, e4 h0], rfl⟩

/-- C133 (partial, as `call_int_sum_partial`).  The call with number 1 answers the sum of the valid integers. -/
theorem call_int_nansum_partial (junk : Int) {a : Arr} (h : Flat a) {t : IT} (ht : (a.ty, t) ∈ intTypes)
    (hx : ∀ x ∈ a.data, t.InRange x) (hb : a.ty = 0 → ∀ x ∈ a.data, x = 0 ∨ x = 1)
    (workers : Nat) (nt : Bool) (par p2 : Par) (hp : CoreSched workers a.data.length nt par)
    (hs : ((a.data.filter (· ≠ t.inv)).map Int.natAbs).sum < 2 ^ 53) :
    reduceCall junk [.arr a, .int 1] par p2 = ⟨false, .int (a.data.filter (· ≠ t.inv)).sum⟩ := by
  obtain ⟨e1, e2, _, e4, e5, e6⟩ := elem_int ht
  obtain ⟨k, k1, k2⟩ := nanSum_acc junk ht hb par
  have e := call_flat h junk 1 (by decide) par p2
  have e' : internal junk a.ty 1 1 a.data par p2 =
      sumOut a.ty.toNat (sumScatter (nanSumBlock junk fun x => if x = t.inv then none else some x) a.data par) := by
    simp [internal, e2, k1, singleRun, k2]
  have hn := nansum_int_partial junk t a.data hx workers nt par hp hs
  rw [reduceNanSumInt] at hn
  rw [e', e6, hn] at e
  exact e

example : reduceCall 0 [.arr ⟨0, ⟨[3], [1], 1⟩, [1, 0, 1]⟩, .int 1] none none = ⟨false, .int 2⟩ :=
  call_int_nansum_partial 0 (a := ⟨0, ⟨[3], [1], 1⟩, [1, 0, 1]⟩) ⟨⟨3, [], 1, [], rfl, rfl, .inr rfl⟩, rfl, by simp⟩ (t := .i8)
    (by decide) (by decide) (by decide) 0 true none none (.direct (.inr rfl)) (by decide)

theorem mapM_length {α β : Type} {f : α → Option β} : ∀ {l : List α} {m : List β}, l.mapM f = some m → m.length = l.length
  | [], m, h => by
    simp only [List.mapM_nil, pure, Option.some.injEq] at h
    subst h; rfl
  | x :: l, m, h => by
    rw [List.mapM_cons] at h
    cases h1 : f x with
    | none => rw [h1] at h; cases h
    | some y =>
      cases h2 : l.mapM f with
      | none => rw [h1, h2] at h; cases h
      | some m' =>
        rw [h1, h2] at h
        simp only [bind, Option.bind, pure, Option.some.injEq] at h
        subst h
        simp [mapM_length h2]

/-- C133 (partial: floats which are NaN or whole numbers, below `2^53` in all).  The call with number 0 answers the sum of an array of
floats, NaN if there is one. -/
theorem call_flt_sum_partial (junk : Int) {a : Arr} (h : Flat a) {f : FT} (ht : (a.ty, f) ∈ fltTypes) {ds : List Dbl}
    (hd : a.data.mapM (asDbl f) = some ds) (workers : Nat) (nt : Bool) (par p2 : Par)
    (hp : CoreSched workers a.data.length nt par) :
    (none ∈ ds → reduceCall junk [.arr a, .int 0] par p2 = ⟨false, .sum none⟩) ∧
    (∀ ns : List Int, ds = ns.map some → (ns.map Int.natAbs).sum < 2 ^ 53 →
      reduceCall junk [.arr a, .int 0] par p2 = ⟨false, .sum (some ns.sum)⟩) := by
  obtain ⟨e1, e2, e3, e4, e5⟩ := elem_flt ht (.int .i8)
  rw [← mapM_length hd] at hp
  obtain ⟨h1, h2⟩ := sum_flt_partial junk ds workers nt par hp
  have e := call_flat h junk 0 (by decide) par p2
  have e' : internal junk a.ty 0 1 a.data par p2 = .sum (reduceSumFlt junk ds par) := by
    simp [internal, e2, reducePtr, e1, singleRun, sumAcc, hd, sumOut, e5, reduceSumFlt]
  rw [e'] at e
  refine ⟨fun hn => ?_, fun ns hns hs => ?_⟩
  · rw [h1 hn] at e; exact e
  · rw [h2 ns hns hs] at e; exact e

/-! ## Means and variances -/

/-- C133 (partial, as `call_int_sum_partial`).  The call with number 102 answers the sum of an array of integers divided by their
number, NaN if there is an invalid one. -/
theorem call_int_mean_partial (junk : Int) {a : Arr} (h : Flat a) {t : IT} (ht : (a.ty, t) ∈ intTypes)
    (workers : Nat) (nt : Bool) (par p2 : Par) (hp : CoreSched workers a.data.length nt par) :
    (t.inv ∈ a.data → ∃ n, reduceCall junk [.arr a, .int 102] par p2 = ⟨false, .mean none n⟩) ∧
    (t.inv ∉ a.data → (a.data.map Int.natAbs).sum < 2 ^ 53 →
      reduceCall junk [.arr a, .int 102] par p2 = ⟨false, .mean (some a.data.sum) a.data.length⟩) := by
  obtain ⟨e1, e2, _⟩ := elem_int ht
  obtain ⟨h1, h2⟩ := mean_int_partial junk t a.data h.ne workers nt par hp
  have e := call_flat h junk 102 (by decide) par p2
  have e' : internal junk a.ty 102 1 a.data par p2 =
      .mean (meanOf (sumScatter (intBlock junk t) a.data par)).1 (meanOf (sumScatter (intBlock junk t) a.data par)).2 := by
    simp [internal, e2, reducePtr, e1, meanRun, sumAcc]
  rw [e'] at e
  refine ⟨fun hi => ⟨(meanOf (sumScatter (intBlock junk t) a.data par)).2, ?_⟩, fun hi hs => ?_⟩
  · rw [h1 hi] at e; exact e
  · rw [h2 hi hs] at e; exact e

/-- C133 (partial, as `call_int_sum_partial`).  The call with number 103 answers the sum of the valid integers divided by their
number. -/
theorem call_int_nanmean_partial (junk : Int) {a : Arr} (h : Flat a) {t : IT} (ht : (a.ty, t) ∈ intTypes)
    (hb : a.ty = 0 → ∀ x ∈ a.data, x = 0 ∨ x = 1) (hne : ∃ x ∈ a.data, x ≠ t.inv)
    (workers : Nat) (nt : Bool) (par p2 : Par) (hp : CoreSched workers a.data.length nt par)
    (hs : ((a.data.filter (· ≠ t.inv)).map Int.natAbs).sum < 2 ^ 53) :
    reduceCall junk [.arr a, .int 103] par p2 =
      ⟨false, .mean (some (a.data.filter (· ≠ t.inv)).sum) (a.data.filter (· ≠ t.inv)).length⟩ := by
  obtain ⟨e1, e2, _⟩ := elem_int ht
  obtain ⟨k, k1, k2⟩ := nanSum_acc junk ht hb par
  have e := call_flat h junk 103 (by decide) par p2
  have e0 : reducePtr a.ty.toNat 103 = some .nanMeanWrapper := rfl
  have e' : internal junk a.ty 103 1 a.data par p2 = .mean (some (a.data.filter (· ≠ t.inv)).sum) (a.data.filter (· ≠ t.inv)).length := by
    have hm := nanmean_int_partial junk t a.data hne workers nt par hp hs
    have : meanRun junk a.ty.toNat 103 1 a.data par p2 = .mean (some (a.data.filter (· ≠ t.inv)).sum) (a.data.filter (· ≠ t.inv)).length := by
      rw [meanRun, show 103 % 2 = 1 from rfl, k1]
      simp only [k2]
      rw [if_neg (by omega), hm]
    rw [internal, if_neg e2, if_neg (by omega), e0]
    simp only
    rw [if_pos (by omega), this]
  rw [e'] at e
  exact e

/-- C133 (partial, as C104).  The call with numbers 106 and 108 answers the variance of an array of integers with the given `ddof`, or
its square root; NaN if there is an invalid integer. -/
theorem call_int_var_partial (junk : Int) (root : Bool) {a : Arr} (h : Flat a) {t : IT} (ht : (a.ty, t) ∈ intTypes) (ddof : Int)
    (hd : IT.i64.InRange ddof) (w1 w2 : Nat) (nt1 nt2 : Bool) (p1 p2 : Par)
    (hp1 : CoreSched w1 a.data.length nt1 p1) (hp2 : CoreSched w2 a.data.length nt2 p2) :
    ∃ q, reduceCall junk [.arr a, .int (if root then 108 else 106), .int ddof] p1 p2 = ⟨false, if root then .std q else .var q⟩ ∧
      (t.inv ∈ a.data → q = none) ∧
      (t.inv ∉ a.data → (a.data.map Int.natAbs).sum < 2 ^ 53 → (p2 = none ∨ squares a.data < 2 ^ 63) → q = varSpec a.data ddof) := by
  obtain ⟨e1, e2, _⟩ := elem_int ht
  obtain ⟨h1, h2⟩ := var_int_partial junk t a.data h.ne ddof w1 w2 nt1 nt2 p1 p2 hp1 hp2
  refine ⟨reduceVarInt junk t a.data ddof p1 p2, ?_, h1, h2⟩
  have e := call_flat_ddof h junk (if root then 108 else 106) (by cases root <;> decide) ddof hd p1 p2
  cases root
  · have e' : internal junk a.ty 106 ddof a.data p1 p2 = .var (reduceVarInt junk t a.data ddof p1 p2) := by
      simp [internal, e2, reducePtr, e1, meanRun, sumAcc, varRun, varAcc, reduceVarInt]
    simp only [Bool.false_eq_true, if_false, e'] at e ⊢
    exact e
  · have e' : internal junk a.ty 108 ddof a.data p1 p2 = .std (reduceVarInt junk t a.data ddof p1 p2) := by
      simp [internal, e2, reducePtr, e1, meanRun, sumAcc, varRun, varAcc, reduceVarInt]
    simp only [if_true, e'] at e ⊢
    exact e

example : ∃ q, reduceCall 0 [.arr ⟨7, ⟨[3], [8], 8⟩, [1, 2, 6]⟩, .int 106, .int 0] none none = ⟨false, .var q⟩ ∧ q = varSpec [1, 2, 6] 0 := by
  obtain ⟨q, h1, _, h2⟩ := call_int_var_partial 0 false (a := ⟨7, ⟨[3], [8], 8⟩, [1, 2, 6]⟩)
    ⟨⟨3, [], 8, [], rfl, rfl, .inr rfl⟩, rfl, by simp⟩ (t := .i64) (by decide) 0 (by decide) 0 0 true true none none
    (.direct (.inr rfl)) (.direct (.inr rfl))
  exact ⟨q, h1, h2 (by decide) (by decide) (.inl rfl)⟩

/-- Without a third argument `ddof` is 1. -/
theorem call_ddof_default (junk : Int) {a : Arr} (h : Flat a) (f : Nat) (hf : f < 2 ^ 32) (p1 p2 : Par) :
    reduceCall junk [.arr a, .int f] p1 p2 = reduceCall junk [.arr a, .int f, .int 1] p1 p2 ∧
    reduceCall junk [.arr a, .int f] p1 p2 = reduceCall junk [.arr a, .int f, .other] p1 p2 := by
  refine ⟨by rw [call_flat h junk f hf, call_flat_ddof h junk f hf 1 (by decide)], ?_⟩
  rfl

/-! ## What is refused -/

theorem elem_none {b : KTy} {ty : Nat} (h : 13 < ty) : elemOf b ty = none := by
  unfold elemOf
  split <;> first | omega | rfl

theorem elem_some {b : KTy} : ∀ {ty : Nat}, ty ≤ 13 → ∃ k, elemOf b ty = some k := by
  intro ty h
  have : ty = 0 ∨ ty = 1 ∨ ty = 2 ∨ ty = 3 ∨ ty = 4 ∨ ty = 5 ∨ ty = 6 ∨ ty = 7 ∨ ty = 8 ∨ ty = 9 ∨ ty = 10 ∨ ty = 11 ∨ ty = 12 ∨ ty = 13 := by
    omega
  rcases this with h | h | h | h | h | h | h | h | h | h | h | h | h | h <;> subst h <;> exact ⟨_, rfl⟩

/-- A function number the header does not name has no kernel. -/
theorem unnamed_ptr {ty f : Nat} (h : f ∉ named) : reducePtr ty f = none := by
  unfold reducePtr
  split <;> first | rfl | exact absurd (by simp [named]) h

/-- C133.  A function number without a name is left to numpy. -/
theorem call_unnamed (junk : Int) {a : Arr} (h : Flat a) (f : Nat) (hf : f < 2 ^ 32) (hn : f ∉ named) (p1 p2 : Par) :
    reduceCall junk [.arr a, .int f] p1 p2 = ⟨false, .punt⟩ := by
  rw [call_flat h junk f hf, internal]
  by_cases hr : a.ty < 0 ∨ 20 < a.ty
  · rw [if_pos hr]
  · have : ¬ (204 ≤ f ∧ f ≤ 207) := by
      rintro ⟨h1, h2⟩
      have : f = 204 ∨ f = 205 ∨ f = 206 ∨ f = 207 := by omega
      rcases this with rfl | rfl | rfl | rfl <;> exact hn (by decide)
    rw [if_neg hr, if_neg this, unnamed_ptr hn]

/-- C133.  Dates, half floats and types numpy has added later (numbers above 20) are left to numpy, whatever the function. -/
theorem call_other_type (junk : Int) {a : Arr} (h : Flat a) (ht : a.ty < 0 ∨ 20 < a.ty) (f : Nat) (hf : f < 2 ^ 32) (p1 p2 : Par) :
    reduceCall junk [.arr a, .int f] p1 p2 = ⟨false, .punt⟩ := by
  rw [call_flat h junk f hf, internal, if_pos ht]

/-- C133.  Complex numbers, objects, strings and records (types 14 to 20): sums, variances and extremes are left to numpy, the
position of an extreme is a `ValueError`, and for mean and standard deviation a null pointer is called. -/
theorem call_unsupported_type (junk : Int) {a : Arr} (h : Flat a) (ht : 14 ≤ a.ty ∧ a.ty ≤ 20) (f : Nat) (hf : f < 2 ^ 32) (p1 p2 : Par) :
    reduceCall junk [.arr a, .int f] p1 p2 = ⟨false,
      if f = 102 ∨ f = 103 ∨ f = 108 ∨ f = 109 then .crash else if 204 ≤ f ∧ f ≤ 207 then .noValid else .punt⟩ := by
  rw [call_flat h junk f hf, internal, if_neg (by omega)]
  have he : ∀ b, elemOf b a.ty.toNat = none := fun b => elem_none (by omega)
  have h0 : a.ty.toNat ≠ 0 := by omega
  have h11 : a.ty.toNat ≠ 11 := by omega
  congr 1
  by_cases h2 : 204 ≤ f ∧ f ≤ 207
  · rw [if_pos h2, if_neg (by omega), if_pos h2]
    have : argPtr a.ty.toNat f = none := by unfold argPtr; split <;> simp [he]
    rw [this, argRun]
  · rw [if_neg h2, if_neg h2]
    by_cases h1 : f = 102 ∨ f = 103 ∨ f = 108 ∨ f = 109
    · rw [if_pos h1]
      rcases h1 with rfl | rfl | rfl | rfl <;> simp [reducePtr, meanRun, he]
    · rw [if_neg h1]
      have : reducePtr a.ty.toNat f = none := by
        unfold reducePtr
        split <;> first | (simp [he, extremePtr, nanExtremePtr, h0, h11]; done) | omega | rfl
      rw [this]

/-- C133.  The number 210 (`REDUCE_MIN_NANAWARE`): the kernel is run, then `NULL` is returned without an error. -/
theorem call_nan_aware (junk : Int) {a : Arr} (h : Flat a) (ht : 0 ≤ a.ty ∧ a.ty ≤ 13) (p1 p2 : Par) :
    reduceCall junk [.arr a, .int 210] p1 p2 = ⟨false, .null⟩ := by
  have e := call_flat h junk 210 (by decide) p1 p2
  obtain ⟨k, hk⟩ := elem_some (b := .int .i8) (ty := a.ty.toNat) (by omega)
  have hr : ¬ (a.ty < 0 ∨ 20 < a.ty) := by omega
  have e' : internal junk a.ty 210 1 a.data p1 p2 = .null := by
    by_cases h11 : a.ty.toNat = 11
    · simp [internal, hr, reducePtr, h11, singleRun]
    · simp [internal, hr, reducePtr, h11, singleRun, extremePtr, hk]
  rw [e'] at e
  exact e

theorem sumOut_ne_crash (ty : Nat) (a : SAcc) : sumOut ty a ≠ .crash := by
  unfold sumOut
  split
  · simp
  · split <;> simp

theorem argRun_ne_crash (k : Option (Bool × Bool × KTy)) (xs : List Int) : argRun k xs ≠ .crash := by
  unfold argRun
  split
  · simp
  · split <;> simp
  · split <;> simp
  · simp

theorem varRun_ne_crash {junk : Int} {k : Impl} {root : Bool} {mean : Q} {ddof : Int} {xs : List Int} {par : Par} :
    varRun junk (some k) root mean ddof xs par ≠ .crash := by
  simp only [varRun]
  split
  · simp
  · split <;> simp

theorem ptr_sum {ty : Nat} (h : ty ≤ 13) (f : Nat) : ∃ k, reducePtr ty (f % 2) = some k := by
  obtain ⟨k1, h1⟩ := elem_some (b := .int .i8) h
  obtain ⟨k2, h2⟩ := elem_some (b := .bool) h
  rcases Nat.mod_two_eq_zero_or_one f with e | e <;> rw [e]
  · exact ⟨.sum k1, by simp [reducePtr, h1]⟩
  · exact ⟨.nanSum k2, by simp [reducePtr, h2]⟩

theorem ptr_var {ty : Nat} (h : ty ≤ 13) (f : Nat) : ∃ k, reducePtr ty (106 + f % 2) = some k := by
  obtain ⟨k1, h1⟩ := elem_some (b := .int .i8) h
  obtain ⟨k2, h2⟩ := elem_some (b := .bool) h
  rcases Nat.mod_two_eq_zero_or_one f with e | e <;> rw [e]
  · exact ⟨.var k1, by simp [reducePtr, h1]⟩
  · exact ⟨.nanVar k2, by simp [reducePtr, h2]⟩

theorem meanRun_ne_crash {junk : Int} {ty func : Nat} {ddof : Int} {xs : List Int} {p1 p2 : Par} (h : ty ≤ 13) :
    meanRun junk ty func ddof xs p1 p2 ≠ .crash := by
  obtain ⟨k1, h1⟩ := ptr_sum h func
  obtain ⟨k2, h2⟩ := ptr_var h func
  simp only [meanRun, h1, h2]
  split
  · simp
  · split
    · exact varRun_ne_crash
    · simp

/-- The numbers of the supported types. -/
theorem type_cases {ty : Int} (h : 0 ≤ ty ∧ ty ≤ 13) :
    (∃ t, (ty, t) ∈ intTypes) ∨ (∃ f, (ty, f) ∈ fltTypes) ∨ ty = 13 := by
  have : ty = 0 ∨ ty = 1 ∨ ty = 2 ∨ ty = 3 ∨ ty = 4 ∨ ty = 5 ∨ ty = 6 ∨ ty = 7 ∨ ty = 8 ∨ ty = 9 ∨ ty = 10 ∨ ty = 11 ∨ ty = 12 ∨ ty = 13 := by
    omega
  rcases this with h | h | h | h | h | h | h | h | h | h | h | h | h | h <;> subst h
  · exact .inl ⟨.i8, by decide⟩
  · exact .inl ⟨.i8, by decide⟩
  · exact .inl ⟨.u8, by decide⟩
  · exact .inl ⟨.i16, by decide⟩
  · exact .inl ⟨.u16, by decide⟩
  · exact .inl ⟨.i32, by decide⟩
  · exact .inl ⟨.u32, by decide⟩
  · exact .inl ⟨.i64, by decide⟩
  · exact .inl ⟨.u64, by decide⟩
  · exact .inl ⟨.i64, by decide⟩
  · exact .inl ⟨.u64, by decide⟩
  · exact .inr (.inl ⟨.f32, by decide⟩)
  · exact .inr (.inl ⟨.f64, by decide⟩)
  · exact .inr (.inr rfl)

/-- C133 (partial: the types 0 to 13).  For booleans, integers and floats no call crashes, whatever the function number is. -/
theorem call_no_crash_partial (junk : Int) {a : Arr} (h : Flat a) (ht : 0 ≤ a.ty ∧ a.ty ≤ 13)
    (hx : ∀ t, (a.ty, t) ∈ intTypes → ∀ x ∈ a.data, t.InRange x) (hb : a.ty = 0 → ∀ x ∈ a.data, x = 0 ∨ x = 1)
    (f : Nat) (hf : f < 2 ^ 32) (workers : Nat) (nt : Bool) (p1 p2 : Par) (hp : CoreSched workers a.data.length nt p1) :
    (reduceCall junk [.arr a, .int f] p1 p2).out ≠ .crash := by
  by_cases hs : 200 ≤ f ∧ f ≤ 203
  · rcases type_cases ht with ⟨t, hti⟩ | ⟨ff, htf⟩ | h13
    · have : f = 200 ∨ f = 201 ∨ f = 202 ∨ f = 203 := by omega
      rcases this with rfl | rfl | rfl | rfl
      · obtain ⟨r, hr, _⟩ := call_int_extreme junk false h hti (hx t hti) workers nt p1 p2 hp
        simp only [Bool.false_eq_true, if_false] at hr
        exact fun hc => by rw [show ((200 : Nat) : Int) = 200 from rfl, hr] at hc; cases hc
      · obtain ⟨r, hr, _⟩ := call_int_nan_extreme junk false h hti (hx t hti) hb workers nt p1 p2 hp
        simp only [Bool.false_eq_true, if_false] at hr
        exact fun hc => by rw [show ((201 : Nat) : Int) = 201 from rfl, hr] at hc; cases hc
      · obtain ⟨r, hr, _⟩ := call_int_extreme junk true h hti (hx t hti) workers nt p1 p2 hp
        simp only [if_true] at hr
        exact fun hc => by rw [show ((202 : Nat) : Int) = 202 from rfl, hr] at hc; cases hc
      · obtain ⟨r, hr, _⟩ := call_int_nan_extreme junk true h hti (hx t hti) hb workers nt p1 p2 hp
        simp only [if_true] at hr
        exact fun hc => by rw [show ((203 : Nat) : Int) = 203 from rfl, hr] at hc; cases hc
    · have : f = 200 ∨ f = 201 ∨ f = 202 ∨ f = 203 := by omega
      rcases this with rfl | rfl | rfl | rfl
      · obtain ⟨r, hr, _⟩ := call_flt_extreme junk false h htf workers nt p1 p2 hp
        simp only [Bool.false_eq_true, if_false] at hr
        exact fun hc => by rw [show ((200 : Nat) : Int) = 200 from rfl, hr] at hc; cases hc
      · obtain ⟨r, hr, _⟩ := call_flt_nan_extreme junk false h htf workers nt p1 p2 hp
        simp only [Bool.false_eq_true, if_false] at hr
        exact fun hc => by rw [show ((201 : Nat) : Int) = 201 from rfl, hr] at hc; cases hc
      · obtain ⟨r, hr, _⟩ := call_flt_extreme junk true h htf workers nt p1 p2 hp
        simp only [if_true] at hr
        exact fun hc => by rw [show ((202 : Nat) : Int) = 202 from rfl, hr] at hc; cases hc
      · obtain ⟨r, hr, _⟩ := call_flt_nan_extreme junk true h htf workers nt p1 p2 hp
        simp only [if_true] at hr
        exact fun hc => by rw [show ((203 : Nat) : Int) = 203 from rfl, hr] at hc; cases hc
    · rw [call_flat h junk f hf, h13]
      have : f = 200 ∨ f = 201 ∨ f = 202 ∨ f = 203 := by omega
      rcases this with rfl | rfl | rfl | rfl <;> exact fun hc => by cases hc
  · rw [call_flat h junk f hf, internal, if_neg (by omega)]
    show (if _ then _ else _ : Out) ≠ _
    split
    · exact argRun_ne_crash _ _
    · cases reducePtr a.ty.toNat f with
      | none => simp
      | some k =>
        simp only
        split
        · exact meanRun_ne_crash (by omega)
        · unfold singleRun
          split
          · split
            · simp
            · exact sumOut_ne_crash _ _
          · simp

/-- C133 fails: the mean of an array of strings calls a null pointer, the position of its minimum is an error about values which are
not valid, and the function 210 of an array of floats returns nothing without an error. -/
theorem call_wrong (junk : Int) :
    (reduceCall junk [.arr ⟨18, ⟨[2], [5], 5⟩, [1, 2]⟩, .int 102] none none).out = .crash ∧
    (reduceCall junk [.arr ⟨18, ⟨[2], [5], 5⟩, [1, 2]⟩, .int 200] none none).out = .punt ∧
    (reduceCall junk [.arr ⟨18, ⟨[2], [5], 5⟩, [1, 2]⟩, .int 204] none none).out = .noValid ∧
    (reduceCall junk [.arr ⟨11, ⟨[2], [4], 4⟩, [1, 2]⟩, .int 210] none none).out = .null :=
  ⟨rfl, rfl, rfl, rfl⟩

/-- C133.  Function numbers are taken modulo `2^32`: those which differ by a multiple of it are the same function. -/
theorem call_func_wraps (junk : Int) {a : Arr} (f : Nat) (hf : f < 2 ^ 32) (m : Int)
    (hm : IT.i64.InRange ((f : Int) + 2 ^ 32 * m)) (p1 p2 : Par) :
    reduceCall junk [.arr a, .int (f + 2 ^ 32 * m)] p1 p2 = reduceCall junk [.arr a, .int f] p1 p2 := by
  have e1 : asLL ((f : Int) + 2 ^ 32 * m) = ((f : Int) + 2 ^ 32 * m, false) := by rw [asLL, if_pos hm]
  have e2 : asLL (f : Int) = ((f : Int), false) := by
    rw [asLL, if_pos (by simp only [IT.InRange, IT.lo, IT.hi, IT.i64]; omega)]
  have e3 : ((f : Int) + 2 ^ 32 * m) % 2 ^ 32 = (f : Int) % 2 ^ 32 := by omega
  simp only [reduceCall, ddofOf, e1, e2, e3, List.length_cons, List.length_nil]

example : reduceCall 0 [.arr ⟨5, ⟨[3], [4], 4⟩, [4, -7, 9]⟩, .int (2 ^ 32 + 200)] none none = ⟨false, .int (-7)⟩ := by decide +kernel

/-- A function number beyond 64 bits leaves the call to numpy with the error still set. -/
theorem call_func_overflow (junk : Int) {a : Arr} (h : Flat a) (n : Int) (hn : ¬ IT.i64.InRange n) (p1 p2 : Par) :
    reduceCall junk [.arr a, .int n] p1 p2 = ⟨true, .punt⟩ := by
  obtain ⟨l, hl⟩ := flat_reads h
  have e1 : asLL n = (-1, true) := by rw [asLL, if_neg hn]
  have e2 : internal junk a.ty 4294967295 1 a.data p1 p2 = .punt := by
    rw [internal]
    split
    · rfl
    · rw [if_neg (by omega)]; rfl
  have e3 : ((-1 : Int) % 2 ^ 32).toNat = 4294967295 := by decide
  simp only [reduceCall, ddofOf, hl, e1, e3, e2, Bool.or_true, List.length_cons, List.length_nil]
  rfl

/-- A call with other than two or three arguments is a `ValueError`; what is not an array, and a function which is no integer, are
left to numpy. -/
theorem call_arguments (junk : Int) (p1 p2 : Par) :
    (∀ args : List Arg, args.length ≠ 2 → args.length ≠ 3 → reduceCall junk args p1 p2 = ⟨false, .badCount⟩) ∧
    (∀ (n : Int) (f : Arg), reduceCall junk [.int n, f] p1 p2 = ⟨false, .punt⟩) ∧
    (∀ f : Arg, reduceCall junk [.other, f] p1 p2 = ⟨false, .punt⟩) ∧
    (∀ a : Arr, Flat a → ∀ b : Arr, reduceCall junk [.arr a, .arr b] p1 p2 = ⟨false, .punt⟩) := by
  refine ⟨fun args h2 h3 => ?_, fun n f => rfl, fun f => rfl, fun a h b => ?_⟩
  · simp [reduceCall, h2, h3]
  · obtain ⟨l, hl⟩ := flat_reads h
    simp only [reduceCall, ddofOf, hl, List.length_cons, List.length_nil]
    rfl

end Riptide.Reduce
