import Verif.GroupBy.Var
import Verif.GroupBy.Lemmas
import Verif.Ema.VarProps
/-! # C86: variance of groups -/
namespace Riptide.GroupBy
open Spec
open Ema.Spec (variance spread)

/-- The valid values. -/
def nums (l : List (Option Rat)) : List Rat := l.filterMap id

/-- What the variance of a group should be: invalid if it has an invalid value. -/
def groupVar (l : List (Option Rat)) : Option Rat := if none ∈ l then none else variance 1 (nums l)

theorem cw_varKernel {n lo hi : Nat} (sum square : Option Rat → VCell → VCell) (mean : VCell → VCell) (h : lo ≤ hi ∧ hi ≤ n)
    (pass : Int) (hp : pass ≤ 0) (rows : List (Int × Option Rat)) :
    CW n (varKernel sum square mean lo hi pass rows) (fun b c => if lo ≤ b ∧ b < hi then
      varFinish ((valsOf rows b).foldl (fun c x => square x c)
        { mean ((valsOf rows b).foldl (fun c x => sum x c) { c with out := some (some 0) }) with tmp := some 0 }) else c) := by
  have := (((((cw_clear (n := n) pass (fun c : VCell => { c with out := some (some 0) }) h).comp
    (cw_rowLoop (lo := lo) sum h.2 rows)).comp (cw_forBins mean h)).comp
    (cw_forBins (fun c : VCell => { c with tmp := some 0 }) h)).comp (cw_rowLoop (lo := lo) square h.2 rows)).comp (cw_forBins varFinish h)
  refine this.congr fun b c _ => ?_
  by_cases hb : lo ≤ b ∧ b < hi
  · simp only [hb, hp, and_self, if_true]
  · simp only [hb, false_and, if_false]

theorem varSum_fold (l : List Rat) (c : VCell) (a : Rat) (k : Nat) (h1 : c.out = some (some a)) (h2 : c.cnt = k) :
    ((l.map some).foldl (fun c x => varSum x c) c).out = some (some (a + l.sum)) ∧
    ((l.map some).foldl (fun c x => varSum x c) c).cnt = ((k + l.length : Nat) : Int) := by
  induction l generalizing c a k with
  | nil => exact ⟨by rw [List.map_nil, List.foldl_nil, h1, List.sum_nil]; congr 2; grind, h2⟩
  | cons v l ih =>
    rw [List.map_cons, List.foldl_cons]
    obtain ⟨e1, e2⟩ := ih (varSum (some v) c) (a + v) (k + 1)
      (by unfold varSum; rw [if_pos (by omega)]; simp only [addMean, h1, Option.map_some])
      (by unfold varSum; rw [if_pos (by omega)]; simp only [h2]; omega)
    rw [e1, e2, List.sum_cons, List.length_cons]
    refine ⟨by congr 2; grind, by congr 1; omega⟩

theorem varSum_neg (l : List (Option Rat)) (c : VCell) (h : c.cnt < 0) : l.foldl (fun c x => varSum x c) c = c := by
  induction l with
  | nil => rfl
  | cons x l ih =>
    rw [List.foldl_cons]
    have : varSum x c = c := by unfold varSum; rw [if_neg (by omega)]
    rw [this]; exact ih

theorem varSum_invalid (l : List (Option Rat)) (c : VCell) (h : none ∈ l) :
    (l.foldl (fun c x => varSum x c) c).cnt < 0 := by
  induction l generalizing c with
  | nil => cases h
  | cons x l ih =>
    rw [List.foldl_cons]
    by_cases hc : 0 ≤ c.cnt
    · cases x with
      | none =>
        rw [varSum_neg]
        · unfold varSum; rw [if_pos hc]; show (-1 : Int) < 0; decide
        · unfold varSum; rw [if_pos hc]; show (-1 : Int) < 0; decide
      | some v =>
        exact ih _ (by simpa using h)
    · have : varSum x c = c := by unfold varSum; rw [if_neg hc]
      rw [this, varSum_neg _ _ (by omega)]; omega

theorem nanVarSum_fold (l : List (Option Rat)) (c : VCell) (a : Rat) (k : Nat) (h1 : c.out = some (some a)) (h2 : c.cnt = k) :
    (l.foldl (fun c x => nanVarSum x c) c).out = some (some (a + (nums l).sum)) ∧
    (l.foldl (fun c x => nanVarSum x c) c).cnt = ((k + (nums l).length : Nat) : Int) := by
  induction l generalizing c a k with
  | nil => exact ⟨by rw [List.foldl_nil, h1]; show _ = some (some (a + 0)); congr 2; grind, h2⟩
  | cons x l ih =>
    rw [List.foldl_cons]
    cases x with
    | none => exact ih _ a k h1 h2
    | some v =>
      obtain ⟨e1, e2⟩ := ih (nanVarSum (some v) c) (a + v) (k + 1)
        (by unfold nanVarSum; simp only [addMean, h1, Option.map_some])
        (by unfold nanVarSum; simp only [h2]; omega)
      rw [e1, e2]
      have : nums (some v :: l) = v :: nums l := rfl
      rw [this, List.sum_cons, List.length_cons]
      refine ⟨by congr 2; grind, by congr 1; omega⟩

theorem square_fold (l : List Rat) (c : VCell) (m s : Rat) (h0 : 0 ≤ c.cnt) (h1 : c.out = some (some m)) (h2 : c.tmp = some s) :
    ((l.map some).foldl (fun c x => varSquare x c) c).tmp = some (s + (l.map fun x => (x - m) * (x - m)).sum) ∧
    ((l.map some).foldl (fun c x => varSquare x c) c).cnt = c.cnt := by
  induction l generalizing c s with
  | nil => exact ⟨by rw [List.map_nil, List.foldl_nil, h2]; show _ = some (s + 0); congr 1; grind, rfl⟩
  | cons v l ih =>
    rw [List.map_cons, List.foldl_cons]
    have e : varSquare (some v) c = { c with tmp := some (s + (v - m) * (v - m)) } := by
      unfold varSquare; rw [if_pos h0]; simp only [addSquare, h1, h2, Option.bind_some, Option.map_some]
    rw [e]
    obtain ⟨e1, e2⟩ := ih { c with tmp := some (s + (v - m) * (v - m)) } (s + (v - m) * (v - m)) h0 h1 rfl
    rw [e1, e2, List.map_cons, List.sum_cons]
    exact ⟨by congr 1; grind, rfl⟩

theorem nanSquare_fold (l : List (Option Rat)) (c : VCell) (m s : Rat) (h1 : c.out = some (some m)) (h2 : c.tmp = some s) :
    (l.foldl (fun c x => nanVarSquare x c) c).tmp = some (s + ((nums l).map fun x => (x - m) * (x - m)).sum) ∧
    (l.foldl (fun c x => nanVarSquare x c) c).cnt = c.cnt := by
  induction l generalizing c s with
  | nil => exact ⟨by rw [List.foldl_nil, h2]; show _ = some (s + 0); congr 1; grind, rfl⟩
  | cons x l ih =>
    rw [List.foldl_cons]
    cases x with
    | none => exact ih _ s h1 h2
    | some v =>
      have e : nanVarSquare (some v) c = { c with tmp := some (s + (v - m) * (v - m)) } := by
        unfold nanVarSquare; simp only [addSquare, h1, h2, Option.bind_some, Option.map_some]
      rw [e]
      obtain ⟨e1, e2⟩ := ih { c with tmp := some (s + (v - m) * (v - m)) } (s + (v - m) * (v - m)) h1 rfl
      have : nums (some v :: l) = v :: nums l := rfl
      rw [e1, e2, this, List.map_cons, List.sum_cons]
      exact ⟨by congr 1; grind, rfl⟩

theorem nums_map (l : List (Option Rat)) (h : none ∉ l) : l = (nums l).map some := by
  induction l with
  | nil => rfl
  | cons x l ih =>
    cases x with
    | none => exact absurd (by simp) h
    | some v =>
      have : nums (some v :: l) = v :: nums l := rfl
      rw [this, List.map_cons, ← ih (by simpa using h)]

theorem varFinish_eq (c : VCell) (l : List Rat) (h1 : c.cnt = (l.length : Int))
    (h2 : 1 < l.length → c.tmp = some (spread l)) : (varFinish c).out = some (variance 1 l) := by
  unfold varFinish variance
  by_cases h : 1 < l.length
  · rw [if_pos (by omega), if_neg (by omega)]
    simp only [h2 h, Option.map_some, h1]
    congr 3
    rw [Rat.intCast_sub]; rfl
  · rw [if_neg (by omega), if_pos (by omega)]

/-- One bin of `AccumVar`. -/
theorem accumVar_bin (l : List (Option Rat)) :
    (varFinish (l.foldl (fun c x => varSquare x c)
      { varMean (l.foldl (fun c x => varSum x c) { (⟨none, 0, none⟩ : VCell) with out := some (some 0) }) with tmp := some 0 })).out =
      some (groupVar l) := by
  unfold groupVar
  by_cases h : none ∈ l
  · rw [if_pos h]
    have hn := varSum_invalid l { (⟨none, 0, none⟩ : VCell) with out := some (some 0) } h
    generalize l.foldl (fun c x => varSum x c) _ = c at hn
    have hm : varMean c = c := by unfold varMean; rw [if_neg (by omega)]
    rw [hm]
    have hs : ∀ (l : List (Option Rat)) (c : VCell), c.cnt < 0 → l.foldl (fun c x => varSquare x c) c = c := by
      intro l
      induction l with
      | nil => intro _ _; rfl
      | cons x l ih =>
        intro c hc
        rw [List.foldl_cons]
        have : varSquare x c = c := by unfold varSquare; rw [if_neg (by omega)]
        rw [this]; exact ih c hc
    rw [hs l { c with tmp := some 0 } hn]
    unfold varFinish
    rw [if_neg (by simp only; omega)]
  · rw [if_neg h, nums_map l h]
    have hnn : nums ((nums l).map some) = nums l := by rw [← nums_map l h]
    rw [hnn]
    generalize nums l = v
    obtain ⟨e1, e2⟩ := varSum_fold v { (⟨none, 0, none⟩ : VCell) with out := some (some 0) } 0 0 rfl rfl
    generalize (v.map some).foldl (fun c x => varSum x c) _ = c at e1 e2
    by_cases hl : v.length = 0
    · have : v = [] := List.eq_nil_of_length_eq_zero hl
      subst this
      rw [List.map_nil, List.foldl_nil]
      refine varFinish_eq _ [] ?_ (fun h => by simp at h)
      unfold varMean
      split <;> exact e2
    · have hm : varMean c = { c with out := some (some (v.sum / v.length)) } := by
        unfold varMean
        rw [if_pos (by omega)]
        congr 1
        rw [e1, e2]
        unfold divMean
        rw [Option.map_some, if_neg (by omega), Option.map_some, Nat.zero_add]
        congr 2
        have : (0 : Rat) + v.sum = v.sum := by grind
        rw [this]; rfl
      rw [hm]
      obtain ⟨f1, f2⟩ := square_fold v
        { ({ c with out := some (some (v.sum / v.length)) } : VCell) with tmp := some 0 } (v.sum / v.length) 0
        (by simp only; omega) rfl rfl
      refine varFinish_eq _ v (by rw [f2]; simp only; omega) fun _ => ?_
      rw [f1]
      unfold spread
      congr 1
      grind

/-- One bin of `AccumNanVar`. -/
theorem accumNanVar_bin (l : List (Option Rat)) :
    (varFinish (l.foldl (fun c x => nanVarSquare x c)
      { nanVarMean (l.foldl (fun c x => nanVarSum x c) { (⟨none, 0, none⟩ : VCell) with out := some (some 0) }) with tmp := some 0 })).out =
      some (variance 1 (nums l)) := by
  obtain ⟨e1, e2⟩ := nanVarSum_fold l { (⟨none, 0, none⟩ : VCell) with out := some (some 0) } 0 0 rfl rfl
  generalize l.foldl (fun c x => nanVarSum x c) _ = c at e1 e2
  by_cases hl : (nums l).length = 0
  · refine varFinish_eq _ _ ?_ (fun h => by omega)
    have hc : ∀ (l : List (Option Rat)) (c : VCell), (l.foldl (fun c x => nanVarSquare x c) c).cnt = c.cnt := by
      intro l
      induction l with
      | nil => intro _; rfl
      | cons x l ih => intro c; rw [List.foldl_cons, ih]; cases x <;> rfl
    rw [hc]
    show c.cnt = _
    omega
  · have hm : nanVarMean c = { c with out := some (some ((nums l).sum / (nums l).length)) } := by
      unfold nanVarMean
      congr 1
      rw [e1, e2]
      unfold divMean
      rw [Option.map_some, if_neg (by omega), Option.map_some, Nat.zero_add]
      congr 2
      have : (0 : Rat) + (nums l).sum = (nums l).sum := by grind
      rw [this]; rfl
    rw [hm]
    obtain ⟨f1, f2⟩ := nanSquare_fold l
      { ({ c with out := some (some ((nums l).sum / (nums l).length)) } : VCell) with tmp := some 0 }
      ((nums l).sum / (nums l).length) 0 rfl rfl
    refine varFinish_eq _ _ (by rw [f2]; simp only; omega) fun _ => ?_
    rw [f1]
    unfold spread
    congr 1
    grind

/-- The kernel on fresh arrays. -/
theorem varKernel_run {n lo hi : Nat} (sum square : Option Rat → VCell → VCell) (mean : VCell → VCell) (h : lo ≤ hi ∧ hi ≤ n)
    (rows : List (Int × Option Rat)) (res : List (Option Rat) → Option Rat)
    (hb : ∀ l : List (Option Rat), (varFinish (l.foldl (fun c x => square x c)
      { mean (l.foldl (fun c x => sum x c) { (⟨none, 0, none⟩ : VCell) with out := some (some 0) }) with tmp := some 0 })).out =
      some (res l)) :
    ∃ out, sequential (varKernel sum square mean lo hi) n rows = some out ∧ out.length = n ∧
      (∀ b, lo ≤ b → b < hi → out[b]? = some (some (res (valsOf rows b)))) ∧
      ∀ b, b < n → b < lo ∨ hi ≤ b → out[b]? = some none := by
  unfold sequential
  rw [cw_varKernel sum square mean h (-1) (by decide) rows (fresh n) (by simp [fresh])]
  refine ⟨_, rfl, by simp [fresh], fun b h1 h2 => ?_, fun b h1 h2 => ?_⟩
  · rw [List.getElem?_map, List.getElem?_mapIdx, fresh, List.getElem?_replicate, if_pos (by omega), Option.map_some,
      Option.map_some, if_pos ⟨h1, h2⟩]
    exact congrArg some (hb _)
  · rw [List.getElem?_map, List.getElem?_mapIdx, fresh, List.getElem?_replicate, if_pos h1, Option.map_some,
      Option.map_some, if_neg (by omega)]

/-- **C86**, `GB_VAR`: the variance of each group with one degree of freedom taken off; invalid for groups with an invalid
value and for groups of fewer than two values. -/
theorem accumVar_value {n lo hi : Nat} (h : lo ≤ hi ∧ hi ≤ n) (rows : List (Int × Option Rat)) :
    ∃ out, sequential (accumVar lo hi) n rows = some out ∧ out.length = n ∧
      (∀ b, lo ≤ b → b < hi → out[b]? = some (some (groupVar (valsOf rows b)))) ∧
      ∀ b, b < n → b < lo ∨ hi ≤ b → out[b]? = some none :=
  varKernel_run varSum varSquare varMean h rows groupVar accumVar_bin

/-- **C86**, `GB_NANVAR`: the variance of the valid values of each group. -/
theorem accumNanVar_value {n lo hi : Nat} (h : lo ≤ hi ∧ hi ≤ n) (rows : List (Int × Option Rat)) :
    ∃ out, sequential (accumNanVar lo hi) n rows = some out ∧ out.length = n ∧
      (∀ b, lo ≤ b → b < hi → out[b]? = some (some (variance 1 (nums (valsOf rows b))))) ∧
      ∀ b, b < n → b < lo ∨ hi ≤ b → out[b]? = some none :=
  varKernel_run nanVarSum nanVarSquare nanVarMean h rows (fun l => variance 1 (nums l)) accumNanVar_bin

/-- Bin 0 is left out, bin 1 has the values 1 and 4, bin 2 an invalid value, bin 3 no row. -/
example : sequential (accumVar 1 4) 4 [(1, some 1), (2, none), (0, some 3), (1, some 4), (2, some 5), (2, some 7)] =
      some [none, some (some (9 / 2)), some none, some none] ∧
    sequential (accumNanVar 1 4) 4 [(1, some 1), (2, none), (0, some 3), (1, some 4), (2, some 5), (2, some 7)] =
      some [none, some (some (9 / 2)), some (some 2), some none] := by decide +kernel

/-- A variance is never negative. -/
theorem groupVar_nonneg (l : List (Option Rat)) (v : Rat) (h : groupVar l = some v) : 0 ≤ v := by
  unfold groupVar variance at h
  split at h
  · cases h
  · split at h
    · cases h
    · next h1 =>
      have e := Option.some.inj h
      rw [← e]
      have hs := Ema.spread_nonneg (nums l)
      have hp : (0 : Rat) < ((nums l).length : Rat) - (1 : Nat) := by
        have : (1 : Rat) < ((nums l).length : Rat) := by exact_mod_cast (show 1 < (nums l).length by omega)
        have e1 : ((1 : Nat) : Rat) = 1 := rfl
        rw [e1]; grind
      rw [Rat.div_def]
      exact Rat.mul_nonneg hs (Rat.le_of_lt (Rat.inv_pos.2 hp))

end Riptide.GroupBy
