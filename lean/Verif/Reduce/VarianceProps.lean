import Verif.Reduce.VarianceLemmas
import Verif.Reduce.SumProps
import Verif.Reduce.SumWitness
/-! # Theorems about the variance -/
namespace Riptide.Reduce
open Riptide.Work

/-- The mean of numbers. -/
def meanSpec (ns : List Int) : Rat := (ns.sum : Rat) / (ns.length : Rat)

/-- The sum of the squared distances from the mean. -/
def squares (ns : List Int) : Rat := (ns.map fun (n : Int) => ((n : Rat) - meanSpec ns) * ((n : Rat) - meanSpec ns)).sum

/-- The variance with `ddof` delta degrees of freedom, NaN if there are too few numbers. -/
def varSpec (ns : List Int) (ddof : Int) : Q :=
  if ddof < (ns.length : Int) then some (squares ns / (((ns.length : Int) - ddof : Int) : Rat)) else none

theorem qtot_map_some : ∀ l : List Rat, qtot (l.map some) = some l.sum
  | [] => rfl
  | x :: l => by simp [qtot, qtot_map_some l, addQ]

theorem devs_eq (ns : List Int) (m : Rat) :
    (ns.map fun (n : Int) => sqDev (some m) (some (n : Rat))) =
      (ns.map fun (n : Int) => ((n : Rat) - m) * ((n : Rat) - m)).map some := by
  rw [List.map_map]; rfl

theorem finish_ok {ns : List Int} {ddof : Int} {a : VAcc} (hl : a.lenOut = ns.length) (hr : a.res = some (squares ns)) :
    finishVar ddof a = varSpec ns ddof := by
  unfold finishVar varSpec
  rw [hl, hr]; rfl

theorem finish_none {ddof : Int} {a : VAcc} (hr : a.res = none) : finishVar ddof a = none := by
  unfold finishVar
  rw [hr]; split <;> rfl

/-- Everything about a scattered variance when the mean is right. -/
theorem var_scatter {f32 : Bool} {blk : VAcc → List Q → VAcc} (ns : List Int)
    (hb : VBlockOK f32 (fun x => [sqDev (some (meanSpec ns)) x]) blk)
    (hd : ∀ l, (blk .zero l).res = qtot (l.map (sqDev (some (meanSpec ns)))))
    {workers : Nat} {nt : Bool} {par} (h : CoreSched workers ns.length nt par)
    (hlim : par = none ∨ f32 = true ∨ squares ns < 2 ^ 63) (ddof : Int) :
    finishVar ddof (varScatter blk (ns.map fun (n : Int) => some (n : Rat)) par) = varSpec ns ddof := by
  have hok := varScatter_ok (fun x => sqDev_nonneg _ x) hb (xs := ns.map fun (n : Int) => some (n : Rat))
    (workers := workers) (nt := nt) (par := par) (by rw [List.length_map]; exact h)
  have ef : ∀ l : List Q, l.flatMap (fun x => [sqDev (some (meanSpec ns)) x]) = l.map (sqDev (some (meanSpec ns))) := by
    intro l
    induction l with
    | nil => rfl
    | cons x l ih => simp [List.flatMap_cons, ih]
  rw [ef] at hok
  have hq : qtot ((ns.map fun (n : Int) => some (n : Rat)).map (sqDev (some (meanSpec ns)))) = some (squares ns) := by
    rw [List.map_map]
    have := devs_eq ns (meanSpec ns)
    exact (congrArg qtot this).trans (qtot_map_some _)
  refine finish_ok (by rw [hok.len]; simp) ?_
  rcases hlim with rfl | h1
  · have := hd (ns.map fun (n : Int) => some (n : Rat))
    rw [hq] at this
    exact this
  · exact (hok.ok _ hq h1).1

/-- An invalid number makes the variance NaN. -/
theorem var_scatter_bad {f32 : Bool} {blk : VAcc → List Q → VAcc} {mean : Q} (xs : List Q)
    (hb : VBlockOK f32 (fun x => [sqDev mean x]) blk) (hn : none ∈ xs)
    {workers : Nat} {nt : Bool} {par} (h : CoreSched workers xs.length nt par) (ddof : Int) :
    finishVar ddof (varScatter blk xs par) = none := by
  refine finish_none ((varScatter_ok (fun x => sqDev_nonneg _ x) hb h).bad ?_)
  rw [qtot_none_iff, List.mem_flatMap]
  exact ⟨none, hn, by cases mean <;> simp [sqDev]⟩

theorem meanQ_int (junk : Int) (t : IT) (xs : List Int) (hne : xs ≠ []) (hv : t.inv ∉ xs)
    (hsum : (xs.map Int.natAbs).sum < 2 ^ 53) {workers : Nat} {nt : Bool} {par} (h : CoreSched workers xs.length nt par) :
    meanQ (sumScatter (intBlock junk t) xs par) = some (meanSpec xs) := by
  unfold meanQ
  rw [(mean_int_partial junk t xs hne workers nt par h).2 hv hsum]
  rfl

theorem natAbs_le_sum : ∀ (xs : List Int), ∀ x ∈ xs, x.natAbs ≤ (xs.map Int.natAbs).sum
  | y :: ys, x, h => by
    simp only [List.map_cons, List.sum_cons]
    rcases List.mem_cons.1 h with rfl | h
    · omega
    · have := natAbs_le_sum ys x h; omega

theorem intQ_valid {t : IT} {xs : List Int} (hv : t.inv ∉ xs) (hsum : (xs.map Int.natAbs).sum < 2 ^ 53) :
    xs.map (intQ t) = xs.map fun (n : Int) => some (n : Rat) := by
  refine List.map_congr_left fun x hx => ?_
  have h1 : x ≠ t.inv := fun e => hv (e ▸ hx)
  have h2 := natAbs_le_sum xs x hx
  unfold intQ
  rw [if_neg h1, rnd_exact (by omega)]

theorem intQ_none {t : IT} {xs : List Int} (hv : t.inv ∈ xs) : none ∈ xs.map (intQ t) :=
  List.mem_map.2 ⟨_, hv, by unfold intQ; rw [if_pos rfl]⟩

/-- C104 (partial: the sum of absolute values is below `2^53` as in C49, and if the work is spread over threads the sum of squares is
below `2^63`; see `var_large_nan`).  The variance of an integer array is the sum of the squared distances from its mean divided by
the number of elements minus `ddof`, NaN if an element is invalid or there are not more elements than `ddof`, for all distributions of
both passes over the cores. -/
theorem var_int_partial (junk : Int) (t : IT) (xs : List Int) (hne : xs ≠ []) (ddof : Int)
    (w1 w2 : Nat) (nt1 nt2 : Bool) (par1 par2 : Option (List (List Nat)))
    (h1 : CoreSched w1 xs.length nt1 par1) (h2 : CoreSched w2 xs.length nt2 par2) :
    (t.inv ∈ xs → reduceVarInt junk t xs ddof par1 par2 = none) ∧
    (t.inv ∉ xs → (xs.map Int.natAbs).sum < 2 ^ 53 → (par2 = none ∨ squares xs < 2 ^ 63) →
      reduceVarInt junk t xs ddof par1 par2 = varSpec xs ddof) := by
  constructor
  · intro hv
    exact var_scatter_bad _ (varBlock_ok junk _) (intQ_none hv) (by rw [List.length_map]; exact h2) ddof
  · intro hv hsum hlim
    unfold reduceVarInt
    rw [meanQ_int junk t xs hne hv hsum h1, intQ_valid hv hsum]
    refine var_scatter xs (varBlock_ok junk _) (fun l => ?_) h2 (hlim.imp id .inr) ddof
    unfold varBlock
    simp only [VAcc.zero]
    rw [varLoop_eq, zero_addQ, zero_addQ]

example : reduceVarInt 0 .i32 [1, 2, 3, 6] 1 none none = some (14 / 3) := by decide +kernel
example : reduceVarInt 0 .i32 [1, 2, 3, 6] 4 none none = none := by decide +kernel
example : reduceVarInt 0 .i8 [1, -128, 3] 1 none none = none := by decide +kernel
example : varSpec [1, 2, 3, 6] 1 = some (14 / 3) := by decide +kernel

theorem fltQ_valid (ns : List Int) :
    (ns.map some).map (fun (x : Dbl) => x.map fun (n : Int) => (n : Rat)) = ns.map fun (n : Int) => some (n : Rat) := by
  rw [List.map_map]; rfl

theorem meanQ_flt (junk : Int) (ns : List Int) (hne : ns ≠ []) (hsum : (ns.map Int.natAbs).sum < 2 ^ 53)
    {workers : Nat} {nt : Bool} {par} (h : CoreSched workers ns.length nt par) :
    meanQ (sumScatter (fltBlock junk) (ns.map some) par) = some (meanSpec ns) := by
  have hs := sumScatter_spec (fltBlock_ok junk) (xs := ns.map some) (workers := workers) (nt := nt) (par := par)
    (by rw [List.length_map]; exact h)
  have e0 : (ns.map some).flatMap (fun (x : Dbl) => [x]) = ns.map some := by
    clear hs h hsum hne
    induction ns with
    | nil => rfl
    | cons x xs ih => simp [List.flatMap_cons, ih]
  rw [e0] at hs
  have h1 := (hs.ok (by simp) (by rw [nums_map_some, absSum_eq_sum]; exact hsum)).1
  rw [nums_map_some, isum_eq_sum] at h1
  have hl := hs.len
  rw [List.length_map] at hl
  have hpos : 0 < ns.length := List.length_pos_iff.2 hne
  unfold meanQ meanOf
  rw [if_pos (by omega), h1, hl]
  rfl

/-- C104 (same guard; no bound on the squares for 32-bit floats), floats and doubles holding integers or NaN. -/
theorem var_flt_partial (junk : Int) (f32 : Bool) (xs : List Dbl) (ddof : Int)
    (w1 w2 : Nat) (nt1 nt2 : Bool) (par1 par2 : Option (List (List Nat)))
    (h1 : CoreSched w1 xs.length nt1 par1) (h2 : CoreSched w2 xs.length nt2 par2) :
    (none ∈ xs → reduceVarFlt junk f32 xs ddof par1 par2 = none) ∧
    (∀ ns : List Int, ns ≠ [] → xs = ns.map some → (ns.map Int.natAbs).sum < 2 ^ 53 →
      (par2 = none ∨ f32 = true ∨ squares ns < 2 ^ 63) → reduceVarFlt junk f32 xs ddof par1 par2 = varSpec ns ddof) := by
  constructor
  · intro hv
    have hm : none ∈ xs.map (fun (x : Dbl) => x.map fun (n : Int) => (n : Rat)) :=
      List.mem_map.2 ⟨none, hv, rfl⟩
    unfold reduceVarFlt
    simp only
    cases f32 with
    | true => exact var_scatter_bad _ (varBlockF32_ok _) hm (by rw [List.length_map]; exact h2) ddof
    | false => exact var_scatter_bad _ (varBlock_ok junk _) hm (by rw [List.length_map]; exact h2) ddof
  · rintro ns hne rfl hsum hlim
    rw [List.length_map] at h1 h2
    unfold reduceVarFlt
    simp only
    rw [meanQ_flt junk ns hne hsum h1, fltQ_valid]
    cases f32 with
    | true =>
      refine var_scatter ns (varBlockF32_ok _) (fun l => ?_) h2 (.inr (.inl rfl)) ddof
      unfold varBlockF32
      simp only [VAcc.zero, f32_eq, zero_addQ]
    | false =>
      refine var_scatter ns (varBlock_ok junk _) (fun l => ?_) h2 (hlim.imp id fun h => .inr (by simpa using h)) ddof
      show (varBlock junk _ VAcc.zero l).res = _
      unfold varBlock
      simp only [VAcc.zero]
      rw [varLoop_eq, zero_addQ, zero_addQ]

example : reduceVarFlt 0 true ([1, 2, 3, 6, 8].map some) 0 none none = some (34 / 5) := by decide +kernel
example : reduceVarFlt 0 false [some 1, none, some 3] 0 none none = none := by decide +kernel

/-! ### Skipping invalid values -/

/-- The scattered sums of `nanvar`, any elements. -/
theorem nanvar_scatter {junk : Int} (ns : List Int) (xs : List Q) (hx : xs.filter Option.isSome = ns.map fun (n : Int) => some (n : Rat))
    {workers : Nat} {nt : Bool} {par} (h : CoreSched workers xs.length nt par)
    (hlim : par = none ∨ squares ns < 2 ^ 63) (ddof : Int) :
    finishVar ddof (varScatter (nanVarBlock junk (some (meanSpec ns))) xs par) = varSpec ns ddof := by
  have hok := varScatter_ok (fun x => nanDev_nonneg _ x) (nanVarBlock_ok junk (some (meanSpec ns))) h
  rw [nanDev_flatMap, hx] at hok
  have hq : qtot ((ns.map fun (n : Int) => some (n : Rat)).map (sqDev (some (meanSpec ns)))) = some (squares ns) := by
    rw [List.map_map]
    have := devs_eq ns (meanSpec ns)
    exact (congrArg qtot this).trans (qtot_map_some _)
  refine finish_ok (by rw [hok.len]; simp) ?_
  rcases hlim with rfl | h1
  · show (nanVarBlock junk _ VAcc.zero xs).res = _
    unfold nanVarBlock
    simp only [VAcc.zero, nanVarSum_eq, hx, zero_addQ]
    exact hq
  · exact (hok.ok _ hq (.inr h1)).1

theorem filterMap_valid (t : IT) (xs : List Int) :
    xs.filterMap (fun x => if x = t.inv then none else some x) = xs.filter (· ≠ t.inv) := by
  induction xs with
  | nil => rfl
  | cons x xs ih =>
    rw [List.filterMap_cons, ih]
    by_cases hx : x = t.inv <;> simp [hx]

/-- C104, `nanvar` of integers (same guards): the variance of the valid elements. -/
theorem nanvar_int_partial (junk : Int) (t : IT) (xs : List Int) (ddof : Int)
    (w1 w2 : Nat) (nt1 nt2 : Bool) (par1 par2 : Option (List (List Nat)))
    (h1 : CoreSched w1 xs.length nt1 par1) (h2 : CoreSched w2 xs.length nt2 par2)
    (hsum : ((xs.filter (· ≠ t.inv)).map Int.natAbs).sum < 2 ^ 53)
    (hlim : par2 = none ∨ squares (xs.filter (· ≠ t.inv)) < 2 ^ 63) :
    reduceNanVarInt junk t xs ddof par1 par2 = varSpec (xs.filter (· ≠ t.inv)) ddof := by
  have hm : meanQ (sumScatter (nanSumBlock junk fun x => if x = t.inv then none else some x) xs par1) =
      some (meanSpec (xs.filter (· ≠ t.inv))) := by
    by_cases hne : ∃ x ∈ xs, x ≠ t.inv
    · unfold meanQ
      rw [nanmean_int_partial junk t xs hne w1 nt1 par1 h1 hsum]
      rfl
    · have hf : xs.filter (· ≠ t.inv) = [] := by
        rw [List.filter_eq_nil_iff]
        intro x hx hc
        exact hne ⟨x, hx, by simpa using hc⟩
      have hs := sumScatter_spec (nanSumBlock_ok junk fun x => if x = t.inv then none else some x) h1
      rw [flatMap_toList, filterMap_valid, hf] at hs
      have hl := hs.len
      rw [hf]
      unfold meanQ meanOf
      rw [if_neg (by rw [hl]; simp)]
      decide +kernel
  unfold reduceNanVarInt
  rw [hm]
  refine nanvar_scatter _ _ ?_ (by rw [List.length_map]; exact h2) hlim ddof
  have : ∀ x ∈ xs, x ≠ t.inv → rnd x = x := by
    intro x hx hv
    have := natAbs_le_sum (xs.filter (· ≠ t.inv)) x (List.mem_filter.2 ⟨hx, by simpa using hv⟩)
    exact rnd_exact (by omega)
  clear hm hlim hsum h1 h2
  induction xs with
  | nil => rfl
  | cons x xs ih =>
    have ih' := ih fun y hy => this y (by simp [hy])
    by_cases hx : x = t.inv
    · simpa [intQ, hx] using ih'
    · have := this x (by simp) hx
      simp only [List.map_cons, List.filter_cons, intQ, if_neg hx, this, Option.isSome_some, if_true]
      rw [if_pos (by simpa using hx), List.map_cons]
      congr 1

example : reduceNanVarInt 0 .i8 [1, -128, 3, 5] 1 none none = some 4 := by decide +kernel
example : reduceNanVarInt 0 .i8 [-128] 0 none none = none := by decide +kernel

/-- C104, `nanvar` of floats holding integers (same guards). -/
theorem nanvar_flt_partial (junk : Int) (xs : List Dbl) (ddof : Int)
    (w1 w2 : Nat) (nt1 nt2 : Bool) (par1 par2 : Option (List (List Nat)))
    (h1 : CoreSched w1 xs.length nt1 par1) (h2 : CoreSched w2 xs.length nt2 par2)
    (hsum : ((xs.filterMap id).map Int.natAbs).sum < 2 ^ 53)
    (hlim : par2 = none ∨ squares (xs.filterMap id) < 2 ^ 63) :
    reduceNanVarFlt junk xs ddof par1 par2 = varSpec (xs.filterMap id) ddof := by
  have hm : meanQ (sumScatter (nanSumBlock junk id) xs par1) = some (meanSpec (xs.filterMap id)) := by
    have hs := sumScatter_spec (nanSumBlock_ok junk id) h1
    rw [flatMap_toList] at hs
    have hl := hs.len
    rw [List.length_map] at hl
    have he := (hs.ok (by simp) (by rw [nums_map_some, absSum_eq_sum]; exact hsum)).1
    rw [nums_map_some, isum_eq_sum] at he
    unfold meanQ meanOf
    by_cases hp : 0 < (xs.filterMap id).length
    · rw [if_pos (by omega), he, hl]; rfl
    · rw [if_neg (by omega)]
      have : xs.filterMap id = [] := List.length_eq_zero_iff.1 (by omega)
      rw [this]
      decide +kernel
  unfold reduceNanVarFlt
  rw [hm]
  refine nanvar_scatter _ _ ?_ (by rw [List.length_map]; exact h2) hlim ddof
  clear hm hlim hsum h1 h2
  induction xs with
  | nil => rfl
  | cons x xs ih => cases x <;> simpa using ih

example : reduceNanVarFlt 0 [some 1, none, some 3] 0 none none = some 1 := by decide +kernel

/-! ### A variance that is lost in the parallel path -/

theorem gatherVar_inv {t c : VAcc} (h : t.i64 = IT.i64.inv ∨ c.i64 = IT.i64.inv) :
    (gatherVar t c).res = none ∧ (gatherVar t c).i64 = IT.i64.inv := by
  have : addI t.i64 c.i64 = IT.i64.inv := by unfold addI; rw [if_pos h]
  unfold gatherVar
  simp only [this, if_true]
  split <;> exact ⟨rfl, rfl⟩

theorem gathers_inv : ∀ (as : List VAcc) (t : VAcc), t.i64 = IT.i64.inv ∧ t.res = none ∨ (∃ a ∈ as, a.i64 = IT.i64.inv) →
    (as.foldl gatherVar t).res = none
  | [], t, h => by simpa using h.elim (·.2) (by simp)
  | a :: as, t, h => by
    rw [List.foldl_cons]
    refine gathers_inv as _ ?_
    rcases h with h | ⟨b, hb, h⟩
    · have := gatherVar_inv (t := t) (c := a) (.inl h.1); exact .inl ⟨this.2, this.1⟩
    · rcases List.mem_cons.1 hb with rfl | hb
      · have := gatherVar_inv (t := t) (c := b) (.inr h); exact .inl ⟨this.2, this.1⟩
      · exact .inr ⟨b, hb, h⟩

theorem vcore_res (junk : Int) (mean : Q) (xs : List Q) : ∀ (bs : List Nat) (a : VAcc), a.i64 = rcastQ junk a.res →
    (bs.foldl (fun a b => varBlock junk mean a (blockElems xs b)) a).res =
      addQ a.res (qtot (((bs.map (blockElems xs)).flatten).map (sqDev mean))) ∧
    (bs.foldl (fun a b => varBlock junk mean a (blockElems xs b)) a).i64 =
      rcastQ junk (bs.foldl (fun a b => varBlock junk mean a (blockElems xs b)) a).res
  | [], a, h => ⟨(addQ_zero _).symm, h⟩
  | b :: bs, a, _ => by
    obtain ⟨i1, i2⟩ := vcore_res junk mean xs bs (varBlock junk mean a (blockElems xs b)) rfl
    rw [List.foldl_cons]
    refine ⟨i1.trans ?_, i2⟩
    unfold varBlock
    simp only [varLoop_eq, zero_addQ, List.map_cons, List.flatten_cons, List.map_append, qtot_append, addQ_assoc]

theorem truncQ_large {q : Rat} (h0 : 0 ≤ q) (h : ¬ q < 2 ^ 63) : truncQ IT.i64.inv q = IT.i64.inv := by
  have hn : 0 ≤ q.num := Rat.num_nonneg.2 h0
  have e : q.num.tdiv q.den = q.floor := by
    rw [Rat.floor_def, Int.tdiv_eq_ediv_of_nonneg hn]
  have f : ((2 ^ 63 : Int)) ≤ q.floor := by
    rw [Rat.le_floor_iff]
    have e2 : ((2 ^ 63 : Int) : Rat) = 2 ^ 63 := by decide +kernel
    rw [e2]; grind
  unfold truncQ
  rw [e, if_neg]
  simp only [IT.InRange, IT.lo, IT.hi, IT.i64]; simp; omega

/-- Whenever the squares of one core reach `2^63`, the conversion of the sum to `int64_t` is undefined, and with the x86-64 result
(`INT64_MIN`, riptide's invalid value) the gather step replaces the variance by NaN. -/
theorem var_core_lost (xs : List Q) (mean : Q) (cores : List (List Nat)) (bs : List Nat) (hb : bs ∈ cores) (s : Rat)
    (hs : qtot (((bs.map (blockElems xs)).flatten).map (sqDev mean)) = some s) (hl : ¬ s < 2 ^ 63) (ddof : Int) :
    finishVar ddof (varScatter (varBlock IT.i64.inv mean) xs (some cores)) = none := by
  refine finish_none ?_
  unfold varScatter
  refine gathers_inv _ _ (.inr ⟨_, List.mem_map.2 ⟨bs, hb, rfl⟩, ?_⟩)
  obtain ⟨h1, h2⟩ := vcore_res IT.i64.inv mean xs bs VAcc.zero (by decide +kernel)
  rw [h2, h1, hs]
  have h0 : 0 ≤ s := by
    refine qtot_nonneg ?_ hs
    intro y hy
    obtain ⟨x, _, e⟩ := List.mem_map.1 hy
    exact sqDev_nonneg mean x y (by simp [e])
  have : addQ VAcc.zero.res (some s) = some s := zero_addQ _
  rw [this]
  exact truncQ_large h0 hl

/-- `2^40` followed by zeros. -/
def lostVar (zeros : Nat) : List Int := 2 ^ 40 :: List.replicate zeros 0

theorem lostVar_sum (n : Nat) : (lostVar n).sum = 2 ^ 40 := by
  have : ∀ k : Nat, (List.replicate k (0 : Int)).sum = 0 := fun k => by
    induction k with
    | zero => rfl
    | succ k ih => rw [List.replicate_succ, List.sum_cons, ih]; rfl
  rw [lostVar, List.sum_cons, this]; rfl

theorem lostVar_abs (n : Nat) : ((lostVar n).map Int.natAbs).sum = 2 ^ 40 := by
  have : ∀ k : Nat, ((List.replicate k (0 : Int)).map Int.natAbs).sum = 0 := fun k => by
    induction k with
    | zero => rfl
    | succ k ih => rw [List.replicate_succ, List.map_cons, List.sum_cons, ih]; rfl
  rw [lostVar, List.map_cons, List.sum_cons, this]; rfl

theorem lostVar_valid (n : Nat) : IT.i64.inv ∉ lostVar n := by
  intro h
  rcases List.mem_cons.1 h with h | h
  · exact absurd h (by decide)
  · have := (List.mem_replicate.1 h).2
    exact absurd this (by decide)

theorem lostVar_squares (n : Nat) (hn : 1 ≤ n) : ¬ squares (lostVar n) < 2 ^ 63 := by
  have hl : (lostVar n).length = n + 1 := by simp [lostVar]
  have hm : meanSpec (lostVar n) ≤ 2 ^ 39 := by
    unfold meanSpec
    rw [lostVar_sum, hl]
    have h2 : (2 : Rat) ≤ ((n + 1 : Nat) : Rat) := by exact_mod_cast (by omega : 2 ≤ n + 1)
    have h3 : ((2 ^ 40 : Int) : Rat) = 2 ^ 40 := by decide +kernel
    rw [h3, ← Rat.not_lt, Rat.lt_div_iff (by grind)]
    intro h
    grind
  generalize hme : meanSpec (lostVar n) = m at hm
  have hnn : ∀ l : List Int, 0 ≤ (l.map fun (k : Int) => ((k : Rat) - m) * ((k : Rat) - m)).sum := by
    intro l
    have h := qtot_map_some (l.map fun (k : Int) => ((k : Rat) - m) * ((k : Rat) - m))
    rw [← devs_eq] at h
    refine qtot_nonneg ?_ h
    intro y hy
    obtain ⟨x, _, e⟩ := List.mem_map.1 hy
    exact sqDev_nonneg (some m) (some (x : Rat)) y (by simp [e])
  have hs : squares (lostVar n) = ((2 ^ 40 : Int) - m : Rat) * ((2 ^ 40 : Int) - m : Rat) +
      ((List.replicate n (0 : Int)).map fun (k : Int) => ((k : Rat) - m) * ((k : Rat) - m)).sum := by
    unfold squares
    rw [hme, lostVar, List.map_cons, List.sum_cons]
  have h0 := hnn (List.replicate n 0)
  have h3 : ((2 ^ 40 : Int) : Rat) = 2 ^ 40 := by decide +kernel
  rw [hs, h3]
  generalize ((List.replicate n (0 : Int)).map fun (k : Int) => ((k : Rat) - m) * ((k : Rat) - m)).sum = r at *
  have h4 : (2 : Rat) ^ 39 ≤ 2 ^ 40 - m := by grind
  have h5 : ((2 : Rat) ^ 39) * 2 ^ 39 ≤ (2 ^ 40 - m) * (2 ^ 40 - m) := by
    have a1 := Rat.mul_le_mul_of_nonneg_left h4 (show (0 : Rat) ≤ 2 ^ 39 by decide +kernel)
    have a2 := Rat.mul_le_mul_of_nonneg_right h4 (show (0 : Rat) ≤ 2 ^ 40 - m by grind)
    grind
  have h6 : (2 : Rat) ^ 63 ≤ ((2 : Rat) ^ 39) * 2 ^ 39 := by decide +kernel
  grind

theorem lostVar_length (n : Nat) : (lostVar n).length = n + 1 := by simp [lostVar]

theorem lostVar_ne (n : Nat) : lostVar n ≠ [] := nofun

/-- C104 does not hold for large variances computed in parallel: the variance of `2^40` and 32767 zeros is NaN with threads, a number
without. -/
theorem var_large_nan :
    CoreSched 1 (lostVar 32767).length false (some [[0, 1], []]) ∧
    reduceVarInt IT.i64.inv .i64 (lostVar 32767) 1 (some [[0, 1], []]) (some [[0, 1], []]) = none ∧
    reduceVarInt IT.i64.inv .i64 (lostVar 32767) 1 none none = varSpec (lostVar 32767) 1 ∧
    varSpec (lostVar 32767) 1 ≠ none := by
  have hl : (lostVar 32767).length = 32768 := lostVar_length 32767
  have hc : CoreSched 1 (lostVar 32767).length false (some [[0, 1], []]) := by rw [hl]; exact sched_example
  have hne : lostVar 32767 ≠ [] := lostVar_ne 32767
  have hs : ((lostVar 32767).map Int.natAbs).sum < 2 ^ 53 := by rw [lostVar_abs]; decide
  refine ⟨hc, ?_, ?_, ?_⟩
  · unfold reduceVarInt
    rw [meanQ_int IT.i64.inv .i64 _ hne (lostVar_valid _) hs hc, intQ_valid (lostVar_valid _) hs]
    generalize hxs : ((lostVar 32767).map fun (n : Int) => some (n : Rat)) = xs
    have hlen : xs.length = 32768 := by rw [← hxs, List.length_map, hl]
    have hp : (([[0, 1], []] : List (List Nat)).flatten).Perm (List.range (blockLastGeneric xs.length chunk)) := by
      rw [hlen]
      have : List.range (blockLastGeneric 32768 chunk) = [0, 1] := by decide
      rw [this]
      exact List.Perm.refl _
    have hq := cores_perm xs hp
    have hq' : ((([0, 1] : List Nat).map (blockElems xs)).flatten).Perm xs := by simpa using hq
    refine var_core_lost xs _ _ [0, 1] (by simp) (squares (lostVar 32767)) ?_ (lostVar_squares _ (by omega)) 1
    rw [qtot_perm (hq'.map _), ← hxs, List.map_map]
    exact (congrArg qtot (devs_eq _ _)).trans (qtot_map_some _)
  · refine (var_int_partial IT.i64.inv .i64 _ hne 1 1 1 true true none none (.direct (.inr rfl)) (.direct (.inr rfl))).2
      (lostVar_valid _) hs (.inl rfl)
  · unfold varSpec
    rw [hl, if_pos (by decide)]
    simp

/-! ### Function numbers -/

/-- C104: which calculation belongs to which of the function numbers from 0 to 255. -/
theorem stages_table : (∀ f : Fin 256, stagesOf f.val = match f.val with
    | 102 => some (false, .mean)
    | 103 => some (true, .mean)
    | 106 => some (false, .var)
    | 107 => some (true, .var)
    | 108 => some (false, .std)
    | 109 => some (true, .std)
    | _ => none) := by decide +kernel

end Riptide.Reduce
