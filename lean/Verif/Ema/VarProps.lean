import Verif.Ema.Var
import Verif.Ema.Lemmas
import Verif.Rolling.Props
/-! Rolling variance (C79). -/
namespace Riptide.Ema
open Rolling (window_prime window_slide)
open Rolling.Spec (window)

namespace Spec

/-- Sum of the squared distances from the mean. -/
def spread (l : List Rat) : Rat := (l.map fun x => (x - l.sum / l.length) * (x - l.sum / l.length)).sum

/-- The variance with `ddof` degrees of freedom taken off; NaN (`none`) if there are none left. -/
def variance (ddof : Nat) (l : List Rat) : Option Rat :=
  if l.length ≤ ddof then none else some (spread l / ((l.length : Rat) - ddof))

end Spec

/-- Sum of squares. -/
def squares (l : List Rat) : Rat := (l.map fun x => x * x).sum

theorem dev_sum (l : List Rat) (m : Rat) :
    (l.map fun x => (x - m) * (x - m)).sum = squares l - 2 * m * l.sum + l.length * m * m := by
  induction l with
  | nil => unfold squares; simp; grind
  | cons x l ih =>
    unfold squares at ih ⊢
    rw [List.map_cons, List.sum_cons, ih, List.map_cons, List.sum_cons, List.sum_cons, List.length_cons]
    have : ((l.length + 1 : Nat) : Rat) = (l.length : Rat) + 1 := by
      rw [Rat.natCast_add]; rfl
    rw [this]
    grind

/-- The state describes the values `l`. -/
def Describes (s : VarState) (l : List Rat) : Prop :=
  (l.length : Rat) * s.mean = l.sum ∧ s.sqr = squares l - s.mean * l.sum

theorem cast_ne (n : Nat) (h : 0 < n) : (n : Rat) ≠ 0 := by
  intro e
  have : n = 0 := by exact_mod_cast e
  omega

theorem Describes.spread {s : VarState} {l : List Rat} (h : Describes s l) (hl : 0 < l.length) :
    s.sqr = Spec.spread l := by
  have hc := cast_ne l.length hl
  unfold Spec.spread
  rw [dev_sum]
  obtain ⟨h1, h2⟩ := h
  have e : l.sum / l.length = s.mean := by rw [← h1]; grind
  rw [e, h2]
  grind

theorem spread_nonneg (l : List Rat) : 0 ≤ Spec.spread l := by
  unfold Spec.spread
  generalize l.sum / l.length = m
  induction l with
  | nil => show (0 : Rat) ≤ 0; decide +kernel
  | cons x l ih =>
    rw [List.map_cons, List.sum_cons]
    have : 0 ≤ (x - m) * (x - m) := by
      rcases (Rat.le_total : 0 ≤ x - m ∨ x - m ≤ 0) with h | h
      · exact Rat.mul_nonneg h h
      · have : 0 ≤ (-(x - m)) * (-(x - m)) := Rat.mul_nonneg (by grind) (by grind)
        grind
    grind

theorem squares_snoc (l : List Rat) (x : Rat) : squares (l ++ [x]) = squares l + x * x := by
  unfold squares; simp; grind

theorem sum_snoc (l : List Rat) (x : Rat) : (l ++ [x]).sum = l.sum + x := by simp; grind

theorem varPush_describes {s : VarState} {l : List Rat} (h : Describes s l) (x c : Rat)
    (hc : c = (l.length : Rat) + 1) : Describes (varPush s x c) (l ++ [x]) := by
  obtain ⟨h1, h2⟩ := h
  have hn : ((l ++ [x]).length : Rat) = c := by
    rw [List.length_append, hc, Rat.natCast_add]; rfl
  have hc0 : c ≠ 0 := by
    rw [← hn]; exact cast_ne _ (by simp)
  have hm : c * (s.mean + (x - s.mean) / c) = l.sum + x := by grind
  refine ⟨by rw [hn, sum_snoc]; exact hm, ?_⟩
  show s.sqr + (x - s.mean) * (x - (s.mean + (x - s.mean) / c)) = _
  rw [squares_snoc, sum_snoc]
  show _ = _ - (s.mean + (x - s.mean) / c) * _
  generalize s.mean + (x - s.mean) / c = m' at *
  grind

theorem varSwap_describes {s : VarState} {l : List Rat} (o x : Rat) (r : List Rat)
    (h : Describes s l) (hl : l ++ [x] = o :: r) (inv : Rat) (hi : (l.length : Rat) * inv = 1) :
    Describes (varSwap s x o inv) r := by
  obtain ⟨h1, h2⟩ := h
  have hlen : r.length = l.length := by
    have := congrArg List.length hl
    simpa using this.symm
  have hsum : l.sum + x = o + r.sum := by
    rw [← sum_snoc, hl, List.sum_cons]
  have hsq : squares l + x * x = o * o + squares r := by
    rw [← squares_snoc, hl]
    unfold squares
    rw [List.map_cons, List.sum_cons]
  have hm : (l.length : Rat) * (s.mean + (x - o) * inv) = r.sum := by grind
  refine ⟨by rw [hlen]; exact hm, ?_⟩
  show s.sqr + ((x - (s.mean + (x - o) * inv)) + (o - s.mean)) * (x - o) = _ - (s.mean + (x - o) * inv) * _
  have hm2 : s.mean + (x - o) * inv - s.mean = (x - o) * inv := by grind
  have hk : (x - o) = (l.length : Rat) * (s.mean + (x - o) * inv - s.mean) := by grind
  generalize s.mean + (x - o) * inv = m' at *
  grind

/-- The window before row `i`. -/
def before (src : List Rat) (w i : Nat) : List Rat := (src.take i).drop (i - w)

theorem before_succ (src : List Rat) (w i : Nat) : before src w (i + 1) = window src w i := rfl

theorem before_length (src : List Rat) (w i : Nat) (hi : i ≤ src.length) :
    (before src w i).length = min i w := by
  unfold before
  rw [List.length_drop, List.length_take]
  omega

/-- C79, what `RollingVar` computes: the variance of the window with one degree of freedom taken off while
the window fills, and with none taken off afterwards. -/
theorem rollVar_partial (src : List Rat) (w : Nat) (hw : 0 < w) :
    ∃ out, rollVar src w = some out ∧ out.length = src.length ∧
      ∀ i, i < src.length → out[i]? =
        some (some (Spec.variance (if i < w then 1 else 0) (window src w i))) := by
  obtain ⟨out, h1, h2, h3⟩ := rowLoop_spec (varRow src w)
    (fun i s => Describes s (before src w i))
    (fun i o => o = some (Spec.variance (if i < w then 1 else 0) (window src w i))) ⟨0, 0⟩
    (by unfold before Describes squares; simp; decide +kernel)
    src.length (by
      intro i s hi hd
      have hx : src[i]? = some src[i] := List.getElem?_eq_getElem hi
      have hlw : (window src w i).length = min (i + 1) w := by
        rw [← before_succ, before_length _ _ _ (by omega)]
      unfold varRow
      rw [hx, Option.bind_some]
      by_cases hiw : i < w
      · rw [if_pos hiw, if_pos hiw]
        obtain ⟨_, hwin⟩ := window_prime (vals := src) hiw hx
        have hd' : Describes (varPush s src[i] ((i : Rat) + 1)) (window src w i) := by
          rw [hwin]
          refine varPush_describes hd _ _ ?_
          rw [before_length _ _ _ (by omega), Nat.min_eq_left (by omega)]
        refine ⟨_, _, rfl, hd', ?_⟩
        unfold Spec.variance
        rw [hlw, Nat.min_eq_left (by omega)]
        by_cases h0 : i = 0
        · rw [if_pos h0, if_pos (by omega)]
        · rw [if_neg h0, if_neg (by omega), hd'.spread (by omega)]
          have : ((i + 1 : Nat) : Rat) - ((1 : Nat) : Rat) = i := by
            rw [Rat.natCast_add]; grind
          rw [this]
      · rw [if_neg hiw, if_neg hiw]
        obtain ⟨y, hy, hwin, _⟩ := window_slide (vals := src) (Nat.le_of_not_lt hiw) hx
        rw [hy, Option.map_some]
        have hc := cast_ne w hw
        have hd' : Describes (varSwap s src[i] y (1 / (w : Rat))) (window src w i) := by
          refine varSwap_describes y src[i] (window src w i) hd hwin _ ?_
          rw [before_length _ _ _ (by omega), Nat.min_eq_right (by omega)]
          grind
        refine ⟨_, _, rfl, hd', ?_⟩
        unfold Spec.variance
        rw [hlw, Nat.min_eq_right (by omega), if_neg (by omega), hd'.spread (by omega)]
        have : ((w : Nat) : Rat) - ((0 : Nat) : Rat) = w := by
          show (w : Rat) - 0 = w
          grind
        rw [this]
        congr 2
        grind)
  refine ⟨out, h1, h2, fun i hi => ?_⟩
  obtain ⟨o, ho, rfl⟩ := h3 i hi
  exact ho

/-- C79 fails: on `[0, 2, 0]` with window two the last two results are the variances of `{0, 2}` and
`{2, 0}`, yet they differ. -/
theorem rollVar_changes_divisor :
    rollVar [0, 2, 0] 2 = some [some none, some (some 2), some (some 1)] ∧
      Spec.variance 1 (window [0, 2, 0] 2 1) = Spec.variance 1 (window [0, 2, 0] 2 2) := by decide +kernel

/-- Hence no number of degrees of freedom fits both. -/
theorem rollVar_false : ¬ ∃ ddof, ∀ (src : List Rat) (w : Nat), 0 < w → ∀ out, rollVar src w = some out →
    ∀ i, i < src.length → out[i]? = some (some (Spec.variance ddof (window src w i))) := by
  rintro ⟨d, h⟩
  have e := rollVar_changes_divisor.1
  have h1 := h [0, 2, 0] 2 (by decide) _ e 1 (by decide)
  have h2 := h [0, 2, 0] 2 (by decide) _ e 2 (by decide)
  have e1 : window ([0, 2, 0] : List Rat) 2 1 = [0, 2] := by decide +kernel
  have e2 : window ([0, 2, 0] : List Rat) 2 2 = [2, 0] := by decide +kernel
  rw [e1] at h1
  rw [e2] at h2
  have : Spec.variance d [0, 2] = Spec.variance d [2, 0] := by
    have hs : Spec.spread [0, 2] = Spec.spread [2, 0] := by decide +kernel
    unfold Spec.variance
    rw [hs]
    rfl
  rw [this] at h1
  have := h1.symm.trans ((by decide +kernel : _ = some (some (some (2 : Rat)))))
  have h3 := h2.symm.trans ((by decide +kernel : _ = some (some (some (1 : Rat)))))
  rw [h3] at this
  exact absurd this (by decide +kernel)

/-- C79 for `RollingNanVar` of a column without NaN: the variance of the window, no degrees of freedom
taken off.  Missing: columns with NaN, where it is false (`rollNanVar_false`, `rollNanVar_wrong_count`). -/
theorem rollNanVar_partial (src : List Rat) (w : Nat) (hw : 0 < w) :
    ∃ out, rollNanVar (src.map some) w = some out ∧ out.length = src.length ∧
      ∀ i, i < src.length → out[i]? = some (some (Spec.variance 0 (window src w i))) := by
  have hvar : ∀ (s : VarState) (l : List Rat) (c : Rat), Describes s l → 0 < l.length →
      c = (l.length : Rat) → some (s.sqr / c) = Spec.variance 0 l := by
    intro s l c h hl hc
    unfold Spec.variance
    rw [if_neg (by omega), h.spread hl, hc]
    have : (l.length : Rat) - ((0 : Nat) : Rat) = l.length := by
      show (l.length : Rat) - 0 = _
      grind
    rw [this]
  obtain ⟨out, h1, h2, h3⟩ := rowLoop_spec (nanVarRow (src.map some) w)
    (fun i n => Describes n.s (before src w i) ∧ n.count = ((before src w i).length : Rat) ∧ n.inv = 1 / w)
    (fun i o => o = some (Spec.variance 0 (window src w i))) ⟨⟨0, 0⟩, 0, 1 / w⟩
    (by refine ⟨?_, ?_, rfl⟩
        · unfold before Describes squares; simp; decide +kernel
        · unfold before; simp)
    (src.map some).length (by
      intro i n hi hd
      obtain ⟨hd, hcount, hinv⟩ := hd
      have hi : i < src.length := by simpa using hi
      have hx : src[i]? = some src[i] := List.getElem?_eq_getElem hi
      have hlw : (window src w i).length = min (i + 1) w := by
        rw [← before_succ, before_length _ _ _ (by omega)]
      unfold nanVarRow
      rw [List.getElem?_map, hx, Option.map_some, Option.bind_some]
      by_cases hiw : i < w
      · rw [if_pos hiw]
        obtain ⟨_, hwin⟩ := window_prime (vals := src) hiw hx
        have hwin' : window src w i = before src w i ++ [src[i]] := hwin
        have hd' : Describes (varPush n.s src[i] (n.count + 1)) (window src w i) := by
          rw [hwin']
          exact varPush_describes hd _ _ (by rw [hcount])
        have hc' : n.count + 1 = ((window src w i).length : Rat) := by
          rw [hwin', List.length_append, Rat.natCast_add, hcount]; rfl
        refine ⟨_, _, rfl, ⟨hd', hc', rfl⟩, ?_⟩
        rw [hvar _ _ _ hd' (by omega) hc']
      · rw [if_neg hiw]
        obtain ⟨y, hy, hwin, _⟩ := window_slide (vals := src) (Nat.le_of_not_lt hiw) hx
        rw [List.getElem?_map, hy, Option.map_some, Option.map_some]
        have hc := cast_ne w hw
        have hbl : (before src w i).length = w := by
          rw [before_length _ _ _ (by omega), Nat.min_eq_right (by omega)]
        have hwl : (window src w i).length = w := by omega
        have hd' : Describes (varSwap n.s src[i] y n.inv) (window src w i) := by
          refine varSwap_describes y src[i] (window src w i) hd hwin _ ?_
          rw [hbl, hinv]
          grind
        have hsq : (varSwap n.s src[i] y n.inv).sqr ≥ 0 := by
          rw [hd'.spread (by omega)]
          exact spread_nonneg _
        have hcl : clampVar (nanVarSlide n (some src[i]) (some y)) =
            { n with s := varSwap n.s src[i] y n.inv } := by
          show clampVar { n with s := varSwap n.s src[i] y n.inv } = _
          unfold clampVar
          simp only [hsq, if_true]
        have hcn : (nanVarSlide n (some src[i]) (some y)).count = (w : Rat) := by
          show n.count = _
          rw [hcount, hbl]
        have hin : (nanVarSlide n (some src[i]) (some y)).inv = 1 / (w : Rat) := hinv
        refine ⟨_, _, rfl, ?_, ?_⟩
        · rw [hcl]
          refine ⟨hd', ?_, hinv⟩
          show n.count = _
          rw [before_succ, hwl, hcount, hbl]
        · rw [hcn, if_neg hc, hcl, hin]
          rw [← hvar _ _ (w : Rat) hd' (by omega) (by rw [hwl])]
          congr 2
          grind)
  have hlen : (src.map some).length = src.length := by simp
  refine ⟨out, h1, by rw [h2, hlen], fun i hi => ?_⟩
  obtain ⟨o, ho, rfl⟩ := h3 i (by rw [hlen]; exact hi)
  exact ho

/-- C79 fails with NaN, because of `delta = old = amean`: the last window of `[1, 3, NaN, 5]` holds the
single number 5, whose variance is 0; the code gives 12. -/
theorem rollNanVar_false :
    rollNanVar [some 1, some 3, none, some 5] 2 =
      some [some (some 0), some (some 1), some (some 0), some (some 12)] ∧
    Spec.variance 0 [5] = some 0 := by decide +kernel

/-- And because `count_inv` starts at `1 / windowSize` whatever the window holds: the last window of
`[1, NaN, 3]` holds the single number 3; the code gives 1. -/
theorem rollNanVar_wrong_count :
    rollNanVar [some 1, none, some 3] 2 = some [some (some 0), some none, some (some 1)] ∧
    Spec.variance 0 [3] = some 0 := by decide +kernel

example : rollVar [1, 3, 5, 9] 2 = some [some none, some (some 2), some (some 1), some (some 4)] := by
  decide +kernel

example : rollNanVar ([1, 3, 5, 9].map some) 2 =
    some [some (some 0), some (some 1), some (some 1), some (some 4)] := by decide +kernel

end Riptide.Ema
