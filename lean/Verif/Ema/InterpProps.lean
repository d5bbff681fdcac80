import Verif.Ema.Interp
import Verif.Ema.Lemmas
/-! Piecewise linear interpolation (C78). -/
namespace Riptide.Ema
open Work

namespace Spec

/-- `(x, y)` lies on the line through `(x0, y0)` and `(x1, y1)`. -/
def OnLine (x0 y0 x1 y1 x y : Rat) : Prop := (y - y0) * (x1 - x0) = (y1 - y0) * (x - x0)

/-- The value at `x` of the polygon through the knots `(kx j, ky j)`, `j < M`, continued beyond its ends
by its last segments, or by constants when clipped. -/
def Polygon (clip : Bool) (kx ky : Nat → Rat) (M : Nat) (x y : Rat) : Prop :=
  (∃ j, j + 1 < M ∧ kx j ≤ x ∧ x ≤ kx (j + 1) ∧ OnLine (kx j) (ky j) (kx (j + 1)) (ky (j + 1)) x y) ∨
  (x < kx 0 ∧ if clip then y = ky 0 else OnLine (kx 0) (ky 0) (kx 1) (ky 1) x y) ∨
  (kx (M - 1) < x ∧ if clip then y = ky (M - 1)
    else OnLine (kx (M - 2)) (ky (M - 2)) (kx (M - 1)) (ky (M - 1)) x y)

end Spec

theorem onLine_unique {x0 y0 x1 y1 x y y' : Rat} (h : x0 < x1) (h1 : Spec.OnLine x0 y0 x1 y1 x y)
    (h2 : Spec.OnLine x0 y0 x1 y1 x y') : y = y' := by
  unfold Spec.OnLine at h1 h2
  have : x1 - x0 ≠ 0 := by grind
  grind

theorem knots_lt {kx : Nat → Rat} {M : Nat} (hx : ∀ j, j + 1 < M → kx j < kx (j + 1)) (a b : Nat)
    (hab : a < b) (hb : b < M) : kx a < kx b := by
  induction b with
  | zero => omega
  | succ b ih =>
    have := hx b hb
    by_cases e : a = b
    · subst e; exact this
    · have := ih (by omega) (by omega)
      grind

/-- The polygon is a function: C78 determines every result. -/
theorem polygon_unique (clip : Bool) (kx ky : Nat → Rat) (M : Nat) (hM : 2 ≤ M)
    (hx : ∀ j, j + 1 < M → kx j < kx (j + 1)) (x y y' : Rat)
    (h : Spec.Polygon clip kx ky M x y) (h' : Spec.Polygon clip kx ky M x y') : y = y' := by
  have hm : kx (M - 2) < kx (M - 1) := knots_lt hx _ _ (by omega) (by omega)
  have key : ∀ (a b : Nat) (ya yb : Rat), a ≤ b → b + 1 < M → kx a ≤ x → x ≤ kx (a + 1) → kx b ≤ x →
      x ≤ kx (b + 1) → Spec.OnLine (kx a) (ky a) (kx (a + 1)) (ky (a + 1)) x ya →
      Spec.OnLine (kx b) (ky b) (kx (b + 1)) (ky (b + 1)) x yb → ya = yb := by
    intro a b ya yb hab hb _ h2 h3 _ h5 h6
    by_cases e : a = b
    · subst e
      exact onLine_unique (hx a hb) h5 h6
    · by_cases e2 : a + 1 = b
      · subst e2
        have ex : x = kx (a + 1) := by grind
        have := hx a (by omega)
        have := hx (a + 1) hb
        unfold Spec.OnLine at h5 h6
        have g1 : kx (a + 1) - kx a ≠ 0 := by grind
        have g2 : kx (a + 1 + 1) - kx (a + 1) ≠ 0 := by grind
        have e5 : ya = ky (a + 1) := by grind
        have e6 : yb = ky (a + 1) := by grind
        rw [e5, e6]
      · have := knots_lt hx (a + 1) b (by omega) (by omega)
        grind
  have inside : ∀ j, j + 1 < M → kx j ≤ x → x ≤ kx (j + 1) → kx 0 ≤ x ∧ x ≤ kx (M - 1) := by
    intro j hj h1 h2
    constructor
    · by_cases e : j = 0
      · subst e; exact h1
      · have := knots_lt hx 0 j (by omega) (by omega)
        grind
    · by_cases e : j + 1 = M - 1
      · rw [← e]; exact h2
      · have := knots_lt hx (j + 1) (M - 1) (by omega) (by omega)
        grind
  have hfl : kx 0 < kx (M - 1) := knots_lt hx _ _ (by omega) (by omega)
  have h01 := hx 0 (by omega)
  rcases h with ⟨a, ha, a1, a2, a3⟩ | ⟨b1, b2⟩ | ⟨c1, c2⟩ <;>
    rcases h' with ⟨a', ha', a1', a2', a3'⟩ | ⟨b1', b2'⟩ | ⟨c1', c2'⟩
  · rcases Nat.le_total a a' with e | e
    · exact key a a' y y' e ha' a1 a2 a1' a2' a3 a3'
    · exact (key a' a y' y e ha a1' a2' a1 a2 a3' a3).symm
  · have := inside a ha a1 a2; grind
  · have := inside a ha a1 a2; grind
  · have := inside a' ha' a1' a2'; grind
  · cases clip
    · exact onLine_unique h01 b2 b2'
    · exact Eq.trans b2 (Eq.symm b2')
  · grind
  · have := inside a' ha' a1' a2'; grind
  · grind
  · cases clip
    · exact onLine_unique hm c2 c2'
    · exact Eq.trans c2 (Eq.symm c2')

/-- Every read of the search stays inside the table when the point is not above the last knot, or when
another row follows. -/
theorem seek_spec (mem : List Rat) (off M : Nat) (x : Rat) (hm : off + M ≤ mem.length)
    (hs : x ≤ mem.getD (off + (M - 1)) 0 ∨ off + M < mem.length) (fuel j : Nat) (hj : 1 ≤ j) (hjM : j ≤ M)
    (hf : M < j + fuel) (hM : 2 ≤ M) (hlt : mem.getD (off + (j - 1)) 0 < x) :
    ∃ r, seek mem off M x fuel j = some r ∧ 1 ≤ r ∧ r ≤ M ∧ mem.getD (off + (r - 1)) 0 < x ∧
      (r < M → x ≤ mem.getD (off + r) 0) := by
  induction fuel generalizing j with
  | zero => omega
  | succ fuel ih =>
    rw [seek]
    by_cases e : j = M
    · subst e
      have hr : mem[off + j]? = some (mem.getD (off + j) 0) := getElem?_getD mem _ 0 (by
        rcases hs with hs | hs
        · exact absurd hlt (by grind)
        · omega)
      rw [hr, Option.bind_some, if_neg (by omega)]
      exact ⟨j, rfl, hj, Nat.le_refl j, hlt, fun h => absurd h (Nat.lt_irrefl j)⟩
    · rw [getElem?_getD mem (off + j) 0 (by omega), Option.bind_some]
      by_cases g : x > mem.getD (off + j) 0
      · rw [if_pos ⟨g, by omega⟩]
        exact ih (j + 1) (by omega) (by omega) (by omega) (by simpa using g)
      · rw [if_neg fun h => g h.1]
        exact ⟨j, rfl, hj, by omega, hlt, fun _ => by grind⟩

theorem middle_line (x0 y0 x1 y1 x : Rat) (h : x0 < x1) :
    Spec.OnLine x0 y0 x1 y1 x (middle x0 y0 x1 y1 x) := by
  unfold Spec.OnLine middle
  have : x1 - x0 ≠ 0 := by grind
  grind

theorem slope_left (x0 y0 x1 y1 x : Rat) (h : x0 < x1) :
    Spec.OnLine x0 y0 x1 y1 x (slope x0 y0 x1 y1 x0 y0 x) := by
  unfold Spec.OnLine slope
  have : x1 - x0 ≠ 0 := by grind
  grind

theorem slope_right (x0 y0 x1 y1 x : Rat) (h : x0 < x1) :
    Spec.OnLine x0 y0 x1 y1 x (slope x0 y0 x1 y1 x1 y1 x) := by
  unfold Spec.OnLine slope
  have : x1 - x0 ≠ 0 := by grind
  grind

/-- One row: the value of the polygon. -/
theorem interpAt_spec (clip : Bool) (xp yp : List Rat) (off M : Nat) (x : Rat) (hM : 2 ≤ M)
    (hx : off + M ≤ xp.length) (hy : off + M ≤ yp.length)
    (hinc : ∀ j, j + 1 < M → xp.getD (off + j) 0 < xp.getD (off + (j + 1)) 0)
    (hs : x ≤ xp.getD (off + (M - 1)) 0 ∨ off + M < xp.length) :
    ∃ y, interpAt clip xp yp off M x = some y ∧
      Spec.Polygon clip (fun j => xp.getD (off + j) 0) (fun j => yp.getD (off + j) 0) M x y := by
  have gx : ∀ j, j < M → xp[off + j]? = some (xp.getD (off + j) 0) := fun j h => getElem?_getD xp _ 0 (by omega)
  have gy : ∀ j, j < M → yp[off + j]? = some (yp.getD (off + j) 0) := fun j h => getElem?_getD yp _ 0 (by omega)
  have gx0 : xp[off]? = some (xp.getD off 0) := gx 0 (by omega)
  have gy0 : yp[off]? = some (yp.getD off 0) := gy 0 (by omega)
  unfold interpAt
  rw [gx0, Option.bind_some, gy0, Option.bind_some]
  by_cases g : x > xp.getD off 0
  · rw [if_pos g]
    obtain ⟨r, h1, h2, h3, h4, h5⟩ := seek_spec xp off M x hx hs (M + 1) 1 (Nat.le_refl 1) (by omega)
      (by omega) hM (by simpa using g)
    rw [h1, Option.bind_some]
    by_cases e : r = M
    · subst e
      rw [if_pos rfl, gy (r - 1) (by omega), Option.bind_some]
      cases clip with
      | true => exact ⟨_, rfl, .inr (.inr ⟨h4, rfl⟩)⟩
      | false =>
        rw [if_neg (by simp), gx (r - 1) (by omega), Option.bind_some, gx (r - 2) (by omega),
          Option.bind_some, gy (r - 2) (by omega)]
        refine ⟨_, rfl, .inr (.inr ⟨h4, ?_⟩)⟩
        have := hinc (r - 2) (by omega)
        rw [show r - 2 + 1 = r - 1 by omega] at this
        exact slope_right _ _ _ _ x this
    · rw [if_neg e, gx r (by omega), Option.bind_some, gy r (by omega), Option.bind_some,
        gx (r - 1) (by omega), Option.bind_some, gy (r - 1) (by omega)]
      refine ⟨_, rfl, .inl ⟨r - 1, by omega, by grind, ?_, ?_⟩⟩
      · dsimp only
        rw [show r - 1 + 1 = r by omega]
        exact h5 (by omega)
      · dsimp only
        have := hinc (r - 1) (by omega)
        rw [show r - 1 + 1 = r by omega] at this ⊢
        exact middle_line _ _ _ _ x this
  · rw [if_neg g]
    have h01 : xp.getD off 0 < xp.getD (off + 1) 0 := hinc 0 (by omega)
    cases clip with
    | true =>
      refine ⟨_, rfl, ?_⟩
      by_cases e : x = xp.getD off 0
      · refine .inl ⟨0, by omega, ?_, ?_, ?_⟩
        · show xp.getD off 0 ≤ x; grind
        · show x ≤ xp.getD (off + 1) 0; grind
        · show Spec.OnLine (xp.getD off 0) (yp.getD off 0) _ _ x _
          unfold Spec.OnLine
          rw [e]; grind
      · exact .inr (.inl ⟨by show x < xp.getD off 0; grind, rfl⟩)
    | false =>
      rw [if_neg (by simp), gx 1 (by omega), Option.bind_some, gy 1 (by omega)]
      refine ⟨_, rfl, ?_⟩
      by_cases e : x = xp.getD off 0
      · refine .inl ⟨0, by omega, ?_, ?_, slope_left _ _ _ _ x h01⟩
        · show xp.getD off 0 ≤ x; grind
        · show x ≤ xp.getD (off + 1) 0; grind
      · exact .inr (.inl ⟨by show x < xp.getD off 0; grind, slope_left _ _ _ _ x h01⟩)

/-- C78: under every schedule, every row holds the value of its polygon at its point, and NaN exactly for a
NaN.  Missing from the full statement: a point above the last knot of the last (or only) table row, for
which the code reads one number past the table (`interp_reads_past`); a first argument that is not
contiguous (`interp_ignores_stride`); rounding. -/
theorem interp_partial (clip two : Bool) (xs : List (Option Rat)) (xp yp : List Rat) (N M : Nat)
    (hM : 2 ≤ M) (hxs : xs.length = N)
    (hx : xp.length = if two then N * M else M) (hy : yp.length = xp.length)
    (hinc : ∀ r, r < N → ∀ j, j + 1 < M →
      xp.getD ((if two then r * M else 0) + j) 0 < xp.getD ((if two then r * M else 0) + (j + 1)) 0)
    (hs : ∀ (i : Nat) (x : Rat), xs[i]? = some (some x) → (two = true ∧ i + 1 < N) ∨
      x ≤ xp.getD ((if two then i * M else 0) + (M - 1)) 0)
    (workers : Nat) (nt : Bool) (par : Option (List Nat)) (h : ChunkSched workers N nt par) :
    ∃ out, interp clip two xs xp yp N M par = some out ∧ out.length = N ∧
      (∀ i : Nat, xs[i]? = some none → out[i]? = some (some none)) ∧
      ∀ (i : Nat) (x : Rat), xs[i]? = some (some x) → ∃ y, out[i]? = some (some (some y)) ∧
        Spec.Polygon clip (fun j => xp.getD ((if two then i * M else 0) + j) 0)
          (fun j => yp.getD ((if two then i * M else 0) + j) 0) M x y := by
  have hoff : ∀ i, i < N → (if two then i * M else 0) + M ≤ xp.length ∧
      (two = true ∧ i + 1 < N → (if two then i * M else 0) + M < xp.length) := by
    intro i hi
    cases two with
    | false => rw [hx]; exact ⟨by simp, by simp⟩
    | true =>
      rw [hx]
      have h1 : (i + 1) * M ≤ N * M := Nat.mul_le_mul_right M hi
      have h2 : (i + 1) * M = i * M + M := Nat.succ_mul i M
      refine ⟨by simp only [if_true]; omega, fun hh => ?_⟩
      have h3 : (i + 2) * M ≤ N * M := Nat.mul_le_mul_right M (by omega)
      have h4 : (i + 2) * M = (i + 1) * M + M := Nat.succ_mul (i + 1) M
      simp only [if_true]; omega
  have hrow : ∀ i, i < N → ∃ v, (xs[i]?.bind fun x =>
      match x with
      | none => some none
      | some x => (interpAt clip xp yp (if two then i * M else 0) M x).map some) = some v ∧
      (xs[i]? = some none → v = none) ∧ ∀ x : Rat, xs[i]? = some (some x) → ∃ y, v = some y ∧
        Spec.Polygon clip (fun j => xp.getD ((if two then i * M else 0) + j) 0)
          (fun j => yp.getD ((if two then i * M else 0) + j) 0) M x y := by
    intro i hi
    have hg : xs[i]? = some xs[i] := List.getElem?_eq_getElem (by omega)
    cases hxi : xs[i] with
    | none =>
      rw [hg, hxi]
      exact ⟨none, rfl, fun _ => rfl, nofun⟩
    | some x =>
      have hx' : xs[i]? = some (some x) := by rw [hg, hxi]
      obtain ⟨o1, o2⟩ := hoff i hi
      obtain ⟨y, y1, y2⟩ := interpAt_spec clip xp yp (if two then i * M else 0) M x hM o1
        (by rw [hy]; exact o1) (hinc i hi) ((hs i x hx').elim (fun hh => .inr (o2 hh)) .inl)
      rw [hx', Option.bind_some]
      dsimp only
      rw [y1]
      refine ⟨some y, rfl, nofun, fun x' hx'' => ?_⟩
      cases hx''
      exact ⟨y, rfl, y2⟩
  let g : Nat → Option Rat := fun i => if hi : i < N then (hrow i hi).choose else none
  have hg : ∀ i (hi : i < N), g i = (hrow i hi).choose := fun i hi => dif_pos hi
  have := elemWork_exact (fun i => xs[i]?.bind fun x =>
      match x with
      | none => some none
      | some x => (interpAt clip xp yp (if two then i * M else 0) M x).map some) g
    (fun i hi => by rw [hg i hi]; exact (hrow i hi).choose_spec.1) h
  refine ⟨((List.range N).map g).map some, this, by simp, fun i hi => ?_, fun i x hi => ?_⟩
  · have hl : i < N := by have := (List.getElem?_eq_some_iff.1 hi).1; omega
    have : ((List.range N).map g).map some = (List.range N).map (fun i => some (g i)) := by simp
    rw [this, List.getElem?_map, List.getElem?_range hl, Option.map_some, hg i hl,
      (hrow i hl).choose_spec.2.1 hi]
  · have hl : i < N := by have := (List.getElem?_eq_some_iff.1 hi).1; omega
    obtain ⟨y, y1, y2⟩ := (hrow i hl).choose_spec.2.2 x hi
    have : ((List.range N).map g).map some = (List.range N).map (fun i => some (g i)) := by simp
    exact ⟨y, by rw [this, List.getElem?_map, List.getElem?_range hl, Option.map_some, hg i hl, y1], y2⟩

/-- A point above the last knot: the search reads `xp[M]`, past the table. -/
theorem interp_reads_past : interp true false [some 5] [0, 1] [0, 1] 1 2 none = none := by decide +kernel

/-- The same in two dimensions, last row. -/
theorem interp_reads_past_2d :
    interp true true [some 5, some 5] [0, 1, 0, 1] [0, 1, 0, 1] 2 2 none = none := by decide +kernel

/-- A first argument with memory `[1, 9, 2]` and stride two holds 1 and 2; the code interpolates 1 and 9. -/
theorem interp_ignores_stride :
    interp true false [some 1, some 9, some 2] [0, 10] [0, 10] 2 2 none = some [some (some 1), some (some 9)] := by
  decide +kernel

/-- With a repeated knot there is no polygon; in the middle the first of the equal knots wins, at the left
end the code divides by zero. -/
theorem interp_repeated_knot :
    interp false false [some 1] [0, 1, 1, 2] [0, 10, 20, 30] 1 4 none = some [some (some 10)] := by
  decide +kernel

example : interp false false [some (-1), some (1 / 2), none, some 3] [0, 1, 3] [0, 10, 30] 4 3 none =
    some [some (some (-10)), some (some 5), some none, some (some 30)] := by decide +kernel

example : interp true true [some 5, some (-1)] [0, 1, 0, 1] [2, 3, 4, 5] 2 2 none =
    some [some (some 3), some (some 4)] := by decide +kernel

/-- These meet the hypotheses: increasing knots, and only the first row is beyond its table. -/
example : (∀ r, r < 2 → ∀ j, j + 1 < 2 → ([0, 1, 0, 1] : List Rat).getD (r * 2 + j) 0 <
    ([0, 1, 0, 1] : List Rat).getD (r * 2 + (j + 1)) 0) ∧
    ChunkSched 1 2 true none := ⟨by
  intro r hr j hj
  obtain rfl : j = 0 := by omega
  rcases (by omega : r = 0 ∨ r = 1) with rfl | rfl <;> decide +kernel, .direct (.inl (by decide))⟩

example : Spec.Polygon false (fun j => ([0, 1, 3] : List Rat).getD j 0) (fun j => ([0, 10, 30] : List Rat).getD j 0)
    3 (1 / 2) 5 := .inl ⟨0, by decide, by decide +kernel, by decide +kernel, by
  unfold Spec.OnLine; decide +kernel⟩

end Riptide.Ema
