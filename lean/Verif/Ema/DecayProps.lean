import Verif.Ema.Decay
import Verif.Ema.CumProps
/-! Exponentially decayed sums (C76). -/
namespace Riptide.Ema

variable {R : Type} [Lean.Grind.CommRing R]

/-- The sum of a list. -/
def total (l : List R) : R := l.foldr (· + ·) 0

theorem total_snoc (l : List R) (a : R) : total (l ++ [a]) = total l + a := by
  induction l with
  | nil => simp only [total, List.nil_append, List.foldr_cons, List.foldr_nil]; grind
  | cons b l ih =>
    simp only [total, List.cons_append, List.foldr_cons] at ih ⊢
    rw [ih]; grind

theorem total_mul (f : Nat → R) (c : R) (l : List Nat) :
    total (l.map fun j => f j * c) = total (l.map f) * c := by
  induction l with
  | nil => simp only [total, List.map_nil, List.foldr_nil]; grind
  | cons a l ih =>
    simp only [List.map_cons, total, List.foldr_cons] at ih ⊢
    rw [ih]; grind

/-- `w` turns sums of times into products, as `exp(-decayRate * d)` does. -/
structure Exponential (w : Int → R) : Prop where
  zero : w 0 = 1
  add : ∀ a b, w (a + b) = w a * w b

/-- The decayed sum over the live rows: each value weighted by the time since. -/
def decayed (w : Int → R) (x : Nat → R) (t : Nat → Int) (rows : List Nat) (now : Int) : R :=
  total (rows.map fun j => x j * w (now - t j))

theorem decayed_later (w : Int → R) (hw : Exponential w) (x : Nat → R) (t : Nat → Int) (rows : List Nat)
    (now d : Int) : decayed w x t rows (now + d) = decayed w x t rows now * w d := by
  unfold decayed
  rw [← total_mul]
  congr 1
  refine List.map_congr_left fun j _ => ?_
  rw [show now + d - t j = (now - t j) + d by omega, hw.add]; grind

/-- The cell of one row when the loop has not both masks. -/
def decayFun (V : IT) (w : Int → R) (inc rst : Nat → Bool) (x : Nat → R) (t : Nat → Int) (c : R × Int)
    (i : Nat) : R × Int :=
  decayTo V w (if rst i then (0, 0) else c) (if inc i then x i else 0) (t i)

theorem decayCell_eq (V : IT) (w : Int → R) (m : Masks) (hm : m.inc = none ∨ m.rst = none)
    (src : List R) (time : List Int) (n i : Nat) (hf : m.Fit n) (hi : i < n) (x : Nat → R)
    (t : Nat → Int) (hx : src[i]? = some (x i)) (ht : time[i]? = some (t i)) (c : R × Int) :
    decayCell V w m src time c i = some (decayFun V w m.incAt m.rstAt x t c i) := by
  obtain ⟨inc, rst⟩ := m
  unfold decayCell decayFun Masks.incAt Masks.rstAt
  cases inc with
  | none =>
    cases rst with
    | none => simp [hx, ht]
    | some r =>
      have := hf.2 r rfl
      dsimp only
      rw [getElem?_getD r i false (by omega), hx, ht]
      rfl
  | some a =>
    cases rst with
    | none =>
      have := hf.1 a rfl
      dsimp only
      rw [getElem?_getD a i true (by omega), hx, ht]
      simp only [Option.bind_some, Option.map_some]
      split <;> simp_all
    | some r => simp at hm

/-- The cell of a group after its rows below `n`: the decayed sum up to the last row. -/
theorem decay_cell (V : IT) (hV : 0 < V.bits) (w : Int → R) (hw : Exponential w) (inc rst : Nat → Bool)
    (hr : ∀ i, rst i = true → inc i = true) (x : Nat → R) (t : Nat → Int) (key : Nat → Int) (k : Int) (n : Nat)
    (hd : ∀ i j, j < i → i < n → key i = k → key j = k → V.InRange (t i - t j)) :
    (rowsBelow key k n = [] ∧ (rowsBelow key k n).foldl (decayFun V w inc rst x t) (0, 0) = (0, 0)) ∨
    ∃ l, l < n ∧ key l = k ∧ (rowsBelow key k n).foldl (decayFun V w inc rst x t) (0, 0) =
      (decayed w x t (liveOf inc rst (rowsBelow key k n)) (t l), t l) := by
  induction n with
  | zero => exact .inl ⟨rfl, rfl⟩
  | succ n ih =>
    have ih := ih fun i j h1 h2 => hd i j h1 (by omega)
    rw [rowsBelow_succ]
    by_cases e : key n = k
    · rw [if_pos e]
      refine .inr ⟨n, by omega, e, ?_⟩
      rw [List.foldl_append, liveOf_snoc inc rst _ _ (rowsBelow_lt key k n)]
      show decayFun V w inc rst x t _ n = _
      unfold liveStep
      have hone : decayed w x t [n] (t n) = x n := by
        show x n * w (t n - t n) + 0 = x n
        rw [Int.sub_self, hw.zero]; grind
      cases hrn : rst n with
      | true =>
        rw [hr n hrn, if_pos rfl, if_pos rfl, hone]
        unfold decayFun decayTo
        rw [hrn, hr n hrn]
        refine Prod.ext ?_ rfl
        show x n + 0 * w (since V (t n) 0) = x n
        grind
      | false =>
        rcases ih with ⟨h1, h2⟩ | ⟨l, hl, hkl, h2⟩
        · rw [h2, h1]
          unfold decayFun decayTo
          rw [hrn]
          cases hin : inc n with
          | true =>
            refine Prod.ext ?_ rfl
            show x n + 0 * w _ = decayed w x t [n] (t n)
            rw [hone]; grind
          | false =>
            refine Prod.ext ?_ rfl
            show (0 : R) + 0 * w _ = 0
            grind
        · rw [h2]
          unfold decayFun decayTo
          rw [hrn]
          have hs : since V (t n) (t l) = t n - t l := by
            unfold since
            exact IT.wrap_of_inRange V hV (hd n l hl (by omega) e hkl)
          have hlat := decayed_later w hw x t (liveOf inc rst (rowsBelow key k n)) (t l) (t n - t l)
          rw [show t l + (t n - t l) = t n by omega] at hlat
          cases hin : inc n with
          | true =>
            refine Prod.ext ?_ rfl
            show x n + decayed w x t _ (t l) * w (since V (t n) (t l)) = decayed w x t (_ ++ [n]) (t n)
            rw [hs, ← hlat]
            unfold decayed
            rw [List.map_append, List.map_singleton, total_snoc, Int.sub_self, hw.zero]; grind
          | false =>
            refine Prod.ext ?_ rfl
            show (0 : R) + decayed w x t _ (t l) * w (since V (t n) (t l)) = decayed w x t _ (t n)
            rw [hs, ← hlat]; grind
    · rw [if_neg e, List.append_nil]
      rcases ih with h | ⟨l, hl, h⟩
      · exact .inl h
      · exact .inr ⟨l, by omega, h⟩

/-- C76 for `EmaDecay` with at most one of the masks: every row of a group holds the sum of the live
values of its group, each weighted by `w` of the time since.  Missing: the loop with both masks stores
0 everywhere (`emaDecay_both_masks`); rounding. -/
theorem emaDecay_partial (V : IT) (hV : 0 < V.bits) (w : Int → R) (hw : Exponential w) (inv : R)
    (m : Masks) (hm : m.inc = none ∨ m.rst = none) (key : List Int) (src : List R) (time : List Int)
    (uniq n : Nat) (h : Ok m key uniq n) (hs : src.length = n) (ht : time.length = n)
    (hd : ∀ i j, j < i → i < n → keyAt key i = keyAt key j →
      V.InRange (time.getD i 0 - time.getD j 0)) :
    ∃ out, emaDecay V w inv m key src time uniq n = some out ∧ out.length = n ∧
      ∀ i, i < n → out[i]? = some (some (if 1 ≤ keyAt key i then
        total ((Spec.live (keyAt key) m.incAt m.rstAt i).map fun j =>
          src.getD j 0 * w (time.getD i 0 - time.getD j 0))
        else inv)) := by
  obtain ⟨out, h1, h2, h3⟩ := guarded_spec
    (decayFun V w m.incAt m.rstAt (fun j => src.getD j 0) fun j => time.getD j 0) ((0 : R), (0 : Int))
    key (keyAt key) uniq n (some inv) (decayCell V w m src time) (fun c _ => decayOut m c) h.key
    (fun i hi c => decayCell_eq V w m hm src time n i h.fit hi _ _ (getElem?_getD src i 0 (by omega))
      (getElem?_getD time i 0 (by omega)) c) h.key_le
  refine ⟨out, h1, h2, fun i hi => ?_⟩
  rw [h3 i hi]
  by_cases hk : 1 ≤ keyAt key i
  · rw [if_pos hk, if_pos hk]
    have hr : ∀ j, m.rstAt j = true → m.incAt j = true := by
      obtain ⟨inc, rst⟩ := m
      rcases hm with e | e
      · dsimp only at e; subst e
        intro j _; rfl
      · dsimp only at e; subst e
        intro j hj; cases hj
    have hc := decay_cell V hV w hw m.incAt m.rstAt hr (fun j => src.getD j 0) (fun j => time.getD j 0)
      (keyAt key) (keyAt key i) (i + 1) fun a b hab ha e1 e2 => hd a b hab (by omega) (by rw [e1, e2])
    have hout : ∀ c : R × Int, decayOut m c = c.1 := by
      intro c
      obtain ⟨inc, rst⟩ := m
      unfold decayOut
      rcases hm with e | e
      · dsimp only at e; subst e; rfl
      · dsimp only at e; subst e
        cases inc <;> rfl
    rw [live_eq, hout]
    rcases hc with ⟨he, _⟩ | ⟨l, hl, hkl, he⟩
    · rw [rowsBelow_succ, if_pos rfl] at he
      simp at he
    · rw [he]
      -- the last row of the group up to `i` is `i`
      have hlast : ((rowsBelow (keyAt key) (keyAt key i) (i + 1)).foldl
          (decayFun V w m.incAt m.rstAt (fun j => src.getD j 0) fun j => time.getD j 0)
          ((0 : R), (0 : Int))).2 = time.getD i 0 := by
        rw [rowsBelow_succ, if_pos rfl, List.foldl_append]
        rfl
      rw [he] at hlast
      have : time.getD l 0 = time.getD i 0 := hlast
      rw [this]
      rfl
  · rw [if_neg hk, if_neg hk]

/-- With both a filter and a reset mask every row of a group gets 0 (`src/Ema.cpp:1475`). -/
theorem emaDecay_both_masks (V : IT) (w : Int → R) (inv : R) (inc rst : List Bool)
    (key : List Int) (src : List R) (time : List Int) (uniq n : Nat)
    (h : Ok ⟨some inc, some rst⟩ key uniq n) (hs : src.length = n) (ht : time.length = n) :
    ∃ out, emaDecay V w inv ⟨some inc, some rst⟩ key src time uniq n = some out ∧ out.length = n ∧
      ∀ i, i < n → out[i]? = some (some (if 1 ≤ keyAt key i then 0 else inv)) := by
  obtain ⟨out, h1, h2, h3⟩ := guarded_spec
    (fun (c : R × Int) i => if inc.getD i true then
      decayTo V w (if rst.getD i false then (0, 0) else c) (src.getD i 0) (time.getD i 0) else c)
    ((0 : R), (0 : Int)) key (keyAt key) uniq n (some inv)
    (decayCell V w ⟨some inc, some rst⟩ src time)
    (fun (c : R × Int) _ => decayOut ⟨some inc, some rst⟩ c) h.key
    (fun i hi c => by
      have hi1 := h.fit.1 inc rfl
      have hi2 := h.fit.2 rst rfl
      unfold decayCell
      dsimp only
      rw [getElem?_getD inc i true (by omega), getElem?_getD rst i false (by omega),
        getElem?_getD src i 0 (by omega), getElem?_getD time i 0 (by omega)]
      simp only [Option.bind_some, Option.map_some]
      split <;> rfl) h.key_le
  refine ⟨out, h1, h2, fun i hi => ?_⟩
  rw [h3 i hi]
  split <;> rfl

/-- A weight halving with every unit of time. -/
def half (d : Int) : Rat := (1 / 2 : Rat) ^ d

/-- The hypothesis on the weight can be met. -/
theorem half_exponential : Exponential half :=
  ⟨by decide +kernel, fun a b => Rat.zpow_add (by decide +kernel) a b⟩

/-- Two groups, four rows, a filter. -/
example : emaDecay .i64 half (-1) ⟨some [true, true, false, true], none⟩ [1, 2, 1, 1] [8, 5, 100, 3]
    [10, 11, 12, 13] 2 4 = some [some 8, some 5, some 2, some 4] := by decide +kernel

example : ∀ i j, j < i → i < 4 → keyAt [1, 2, 1, 1] i = keyAt [1, 2, 1, 1] j →
    IT.i64.InRange (([10, 11, 12, 13] : List Int).getD i 0 - ([10, 11, 12, 13] : List Int).getD j 0) := by
  intro i j hj hi _
  have : i = 0 ∨ i = 1 ∨ i = 2 ∨ i = 3 := by omega
  have : j = 0 ∨ j = 1 ∨ j = 2 := by omega
  rcases this with rfl | rfl | rfl <;>
    rcases ‹i = 0 ∨ _› with rfl | rfl | rfl | rfl <;> first | omega | decide

example : Ok ⟨some [true, true, false, true], none⟩ [1, 2, 1, 1] 2 4 :=
  ⟨⟨fun l h => by cases h; rfl, fun l h => by cases h⟩, rfl, by decide⟩

/-- Both masks: the decayed sum of the only row is 8, the output 0. -/
theorem emaDecay_both_masks_false :
    emaDecay .i64 half (-1) ⟨some [true], some [false]⟩ [1] [8] [10] 1 1 = some [some 0] := by
  decide +kernel

/-- Unsigned times that decrease wrap around: the weight of the previous row is `w (2^32 - 1)` where the
time since is -1. -/
theorem emaDecay_unsigned_wraps :
    since .u32 10 11 = 4294967295 ∧ ¬ IT.u32.InRange (10 - 11) := by decide

/-- **Overflow**: for times of type `long double` (numpy type 13) the kernel stores 16-byte elements into
an array allocated with 8-byte ones; for all other accepted types the sizes agree. -/
theorem emaSizes_longdouble :
    emaSizes 13 = some (16, 8) ∧ ∀ t a b, emaSizes t = some (a, b) → t ≠ 13 → a = b := by
  refine ⟨rfl, fun t a b h ht => ?_⟩
  unfold emaSizes at h
  rw [if_neg ht] at h
  split at h
  · cases h; rfl
  · cases h

end Riptide.Ema
