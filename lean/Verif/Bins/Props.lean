import Verif.Bins.Lemmas
import Verif.Str.Props
/-! Properties C32 and C33: `searchsorted` and `cut`. -/
namespace Riptide.Bins
open Riptide.Work Spec

/-- The output type holds every result. -/
theorem outType_fits (n : Nat) (h : n < 2 ^ 62) (r : Int) (h0 : 0 ≤ r) (h1 : r ≤ n) : (outType n).InRange r := by
  have e8 : IT.i8.InRange r ↔ -128 ≤ r ∧ r ≤ 127 := Iff.rfl
  have e16 : IT.i16.InRange r ↔ -32768 ≤ r ∧ r ≤ 32767 := Iff.rfl
  have e32 : IT.i32.InRange r ↔ -2147483648 ≤ r ∧ r ≤ 2147483647 := Iff.rfl
  have e64 : IT.i64.InRange r ↔ -9223372036854775808 ≤ r ∧ r ≤ 9223372036854775807 := Iff.rfl
  unfold outType
  repeat' split
  · exact e64.2 (by omega)
  · exact e32.2 (by omega)
  · exact e16.2 (by omega)
  · exact e8.2 (by omega)

/-- The number of bins is such that the sum of two positions does not overflow: this excludes the sizes
between `2^30` and two thousand million, see `search_overflow`. -/
def SizeOk (n : Nat) : Prop := n ≤ 2 ^ 30 ∨ (2000000000 < n ∧ n ≤ 2 ^ 62)

/-- The casts of the first and last bin to the type of the data, and of the value to the type of the bins,
do not move the value across a bin.  This holds when data and bins have one type. -/
structure Agree (c : Casts) (first last : Int) (v : Option Int) : Prop where
  cast : ∃ f l : Int, c.toT (some first) = some (some f) ∧ c.toT (some last) = some (some l) ∧
    ∀ x, v = some x → (f ≤ x ↔ first ≤ x) ∧ (f < x ↔ first < x) ∧ (x ≤ l ↔ x ≤ last) ∧ (x < l ↔ x < last)
  val : ∀ x, v = some x → c.toB v = some v

theorem agree_same (first last : Int) (v : Option Int) : Agree .same first last v :=
  ⟨⟨first, last, rfl, rfl, fun _ _ => ⟨Iff.rfl, Iff.rfl, Iff.rfl, Iff.rfl⟩⟩, fun _ _ => rfl⟩

/-- Two integer types agree on the numbers which both hold. -/
theorem agree_ints (t b : IT) (ht : 0 < t.bits) (hb : 0 < b.bits) (first last x : Int)
    (h1 : t.InRange first) (h2 : t.InRange last) (h3 : b.InRange x) :
    Agree (.ints t b) first last (some x) :=
  ⟨⟨first, last, by show some (some (t.wrap first)) = _; rw [IT.wrap_of_inRange t ht h1],
      by show some (some (t.wrap last)) = _; rw [IT.wrap_of_inRange t ht h2],
      fun _ _ => ⟨Iff.rfl, Iff.rfl, Iff.rfl, Iff.rfl⟩⟩,
    fun _ _ => by show some (some (b.wrap x)) = _; rw [IT.wrap_of_inRange b hb h3]⟩

theorem rd_some (bins : List Int) (i : Nat) :
    rd (bins.map some) (i : Int) = (bins[i]?).map some := by rw [rd_nat, List.getElem?_map]

/-- The reads of the first and the last bin. -/
theorem rd_ends {bins : List Int} {first last : Int} (hf : bins.head? = some first)
    (hl : bins.getLast? = some last) :
    rd (bins.map some) 0 = some (some first) ∧
    rd (bins.map some) (((bins.map some).length : Int) - 1) = some (some last) ∧ 0 < bins.length := by
  have h0 : 0 < bins.length := by
    cases bins with
    | nil => simp at hf
    | cons a l => simp
  refine ⟨?_, ?_, h0⟩
  · have := rd_some bins 0
    rw [List.head?_eq_getElem?] at hf
    rw [hf] at this; exact this
  · have e : (((bins.map some).length : Nat) : Int) - 1 = ((bins.length - 1 : Nat) : Int) := by
      rw [List.length_map]; omega
    rw [e, rd_some, ← List.getLast?_eq_getElem?, hl]; rfl

/-- `searchsorted(side="right")`, one value. -/
theorem searchRight_run {o : IT} {c : Casts} {bins : List Int} {first last : Int}
    (hs : bins.Pairwise (· ≤ ·)) (hf : bins.head? = some first) (hl : bins.getLast? = some last)
    (hov : NoOverflow o bins.length) (v : Option Int) (ha : Agree c first last v) :
    searchRight o c (bins.map some) v = some (rightPoint bins v : Int) := by
  obtain ⟨r0, rl, hn⟩ := rd_ends hf hl
  obtain ⟨⟨f', l', hf', hl', hx⟩, hval⟩ := ha
  unfold searchRight
  dsimp only
  rw [rl, r0]
  simp only [Option.bind_some, hf', hl']
  cases v with
  | none => simp [oLe, oLt, rightPoint]
  | some x =>
    obtain ⟨c1, c2, c3, c4⟩ := hx x rfl
    have hp : bins.Pairwise (fun a b => decide (b ≤ x) = true → decide (a ≤ x) = true) :=
      hs.imp (by intro a b h1 h2; simp only [decide_eq_true_eq] at h2 ⊢; omega)
    have hk := filter_prefix (fun b => decide (b ≤ x)) bins hp
    have hhead := hk 0 first (by rw [← List.head?_eq_getElem?]; exact hf)
    have hlast := hk (bins.length - 1) last (by rw [← List.getLast?_eq_getElem?]; exact hl)
    have hle : (bins.filter fun b => decide (b ≤ x)).length ≤ bins.length := List.length_filter_le _ _
    simp only [decide_eq_true_eq] at hhead hlast
    rw [hval x rfl]
    simp only [oLe, oLt, Bool.and_eq_true, decide_eq_true_eq, c1, c4, Option.bind_some, rightPoint,
      List.length_map]
    split
    · have e : ((bins.length : Nat) : Int) - 1 = ((bins.length - 1 : Nat) : Int) := by omega
      rw [e]
      refine searchLoop_run hov hle ?_ ?_ _ 0 _ (by omega) (by omega) (by omega) (by omega) (by omega)
      · intro i hi
        have := hk i bins[i] (List.getElem?_eq_getElem hi)
        rw [rd_some, List.getElem?_eq_getElem hi]
        simp only [Option.map_some, Option.some.injEq, decide_eq_decide]
        simp only [decide_eq_true_eq] at this
        omega
      · intro i hi
        have := hk i bins[i] (List.getElem?_eq_getElem hi)
        rw [rd_some, List.getElem?_eq_getElem hi]
        simp only [Option.map_some, Option.some.injEq, decide_eq_decide]
        simp only [decide_eq_true_eq] at this
        omega
    · rename_i hno
      split
      · congr 1; omega
      · congr 1; omega

/-- `searchsorted(side="left")`, one value. -/
theorem searchLeft_run {o : IT} {c : Casts} {bins : List Int} {first last : Int}
    (hs : bins.Pairwise (· ≤ ·)) (hf : bins.head? = some first) (hl : bins.getLast? = some last)
    (hov : NoOverflow o bins.length) (v : Option Int) (ha : Agree c first last v) :
    searchLeft o c (bins.map some) v = some (leftPoint bins v : Int) := by
  obtain ⟨r0, rl, hn⟩ := rd_ends hf hl
  obtain ⟨⟨f', l', hf', hl', hx⟩, hval⟩ := ha
  unfold searchLeft
  dsimp only
  rw [rl, r0]
  simp only [Option.bind_some, hf', hl']
  cases v with
  | none => simp [oLe, oLt, leftPoint]
  | some x =>
    obtain ⟨c1, c2, c3, c4⟩ := hx x rfl
    have hp : bins.Pairwise (fun a b => decide (b < x) = true → decide (a < x) = true) :=
      hs.imp (by intro a b h1 h2; simp only [decide_eq_true_eq] at h2 ⊢; omega)
    have hk := filter_prefix (fun b => decide (b < x)) bins hp
    have hhead := hk 0 first (by rw [← List.head?_eq_getElem?]; exact hf)
    have hlast := hk (bins.length - 1) last (by rw [← List.getLast?_eq_getElem?]; exact hl)
    have hle : (bins.filter fun b => decide (b < x)).length ≤ bins.length := List.length_filter_le _ _
    simp only [decide_eq_true_eq] at hhead hlast
    rw [hval x rfl]
    simp only [oLe, oLt, Bool.and_eq_true, decide_eq_true_eq, c2, c3, Option.bind_some, leftPoint,
      List.length_map]
    split
    · have e : ((bins.length : Nat) : Int) - 1 = ((bins.length - 1 : Nat) : Int) := by omega
      rw [e]
      refine searchLoop_run hov hle ?_ ?_ _ 0 _ (by omega) (by omega) (by omega) (by omega) (by omega)
      · intro i hi
        have := hk i bins[i] (List.getElem?_eq_getElem hi)
        rw [rd_some, List.getElem?_eq_getElem hi]
        simp only [Option.map_some, Option.some.injEq, decide_eq_decide]
        simp only [decide_eq_true_eq] at this
        omega
      · intro i hi
        have := hk i bins[i] (List.getElem?_eq_getElem hi)
        rw [rd_some, List.getElem?_eq_getElem hi]
        simp only [Option.map_some, Option.some.injEq, decide_eq_decide]
        simp only [decide_eq_true_eq] at this
        omega
    · rename_i hno
      split
      · congr 1; omega
      · congr 1; omega

/-- **C32.** `searchsorted` returns for every value its left or right insertion point in sorted bins, for
every split over threads, when there is at least one bin, the casts do not move the value across a bin
(in particular when data and bins have one type) and the sum of two positions does not overflow. -/
theorem searchsorted_partial (c : Casts) (valid : Int → Bool) (bins : List Int) (vals : List (Option Int))
    (first last : Int) (hs : bins.Pairwise (· ≤ ·)) (hf : bins.head? = some first)
    (hl : bins.getLast? = some last) (hsize : SizeOk bins.length)
    (ha : ∀ v ∈ vals, Agree c first last v)
    {workers : Nat} {nt : Bool} {par : Option (List Nat)} (h : ChunkSched workers vals.length nt par) :
    binsToCuts .left c valid (bins.map some) vals par =
      some (vals.map fun v => some (leftPoint bins v : Int)) ∧
    binsToCuts .right c valid (bins.map some) vals par =
      some (vals.map fun v => some (rightPoint bins v : Int)) := by
  have hov := noOverflow_outType hsize
  have key : ∀ (one : Option Int → Option Int) (g : Option Int → Int), (∀ v ∈ vals, one v = some (g v)) →
      (elemWork (fun i => (vals[i]?).bind one) vals.length par).bind (runWrites vals.length) =
        some (vals.map fun v => some (g v)) := by
    intro one g hg
    rw [elemWork_exact _ (fun i => g ((vals[i]?).getD none)) (fun i hi => by
      rw [List.getElem?_eq_getElem hi]
      exact hg _ (List.getElem_mem hi)) h]
    congr 1
    apply List.ext_getElem?
    intro i
    by_cases hi : i < vals.length
    · simp [hi]
    · rw [List.getElem?_eq_none (by simp; omega), List.getElem?_eq_none (by simp; omega)]
  unfold binsToCuts
  rw [List.length_map]
  exact ⟨key _ _ fun v hv => searchLeft_run hs hf hl hov v (ha v hv),
    key _ _ fun v hv => searchRight_run hs hf hl hov v (ha v hv)⟩

/-- The insertion points are between zero and the number of bins. -/
theorem points_range (bins : List Int) (v : Option Int) :
    leftPoint bins v ≤ rightPoint bins v ∧ rightPoint bins v ≤ bins.length := by
  cases v with
  | none => exact ⟨Nat.le_refl _, Nat.le_refl _⟩
  | some x =>
    refine ⟨?_, List.length_filter_le _ _⟩
    show (bins.filter _).length ≤ (bins.filter _).length
    rw [← List.countP_eq_length_filter, ← List.countP_eq_length_filter]
    exact List.countP_mono_left fun b _ h => by simp only [decide_eq_true_eq] at h ⊢; omega

example : ([1, 3, 3, 7] : List Int).Pairwise (· ≤ ·) ∧ leftPoint [1, 3, 3, 7] (some 3) = 1 ∧
    rightPoint [1, 3, 3, 7] (some 3) = 3 := by decide

example : binsToCuts .left .same (fun _ => true) [some 1, some 3, some 3, some 7]
    [some 0, some 1, some 3, some 4, some 8, none] none = some [some 0, some 0, some 1, some 3, some 4, some 4] ∧
  binsToCuts .right .same (fun _ => true) [some 1, some 3, some 3, some 7]
    [some 0, some 1, some 3, some 4, some 8, none] none = some [some 0, some 1, some 3, some 3, some 4, some 4] := by
  decide +kernel

/-! ### Where the full statement of C32 fails -/

/-- `int` data with `double` bins `[0.5, 1.5]`: the last bin is truncated to 1, and the right insertion
point of 1 comes out as 2. -/
theorem searchRight_truncates :
    searchRight .i8 (.intDataHalves .i32) [some 1, some 3] (some 2) = some 2 ∧
    rightPoint [1, 3] (some 2) = 1 := by decide +kernel

/-- `double` data with `int` bins `[1, 2, 3]`: the value 2.5 is truncated to 2 and its left insertion point
comes out as 1. -/
theorem searchLeft_truncates :
    searchLeft .i8 (.intBinsHalves .i32) [some 2, some 4, some 6] (some 5) = some 1 ∧
    leftPoint [2, 4, 6] (some 5) = 2 := by decide +kernel

/-- `int8` data with `int64` bins `[0, 1000]`: 1000 wraps to -24, and the left insertion point of 5 comes out
as 2. -/
theorem searchLeft_wraps :
    searchLeft .i8 (.ints .i8 .i64) [some 0, some 1000] (some 5) = some 2 ∧
    leftPoint [0, 1000] (some 5) = 1 := by decide +kernel

/-- Bins sorted as numpy does, NaN last: the values in the middle get the last position. -/
theorem searchRight_nan_bin :
    searchRight .i8 .same [some 1, some 5, none] (some 2) = some 3 := by decide +kernel

/-- A NaN between the bins makes the loop spin for ever: no number of rounds suffices. -/
theorem search_nan_spins (fuel : Nat) :
    searchLoop .i8 (fun m => (rd [some 1, none, some 5] m).map fun b => oLt (some 2) b)
      (fun m => (rd [some 1, none, some 5] m).map fun b => oLe b (some 2)) fuel 0 2 = none := by
  induction fuel with
  | zero => rfl
  | succ n ih =>
    unfold searchLoop
    exact ih

/-- No bins: the last bin is read before the array. -/
theorem search_no_bins (o : IT) (c : Casts) (valid : Int → Bool) (v : Option Int) :
    searchLeft o c [] v = none ∧ searchRight o c [] v = none ∧ cutOne o c valid [] v = none := by
  refine ⟨?_, ?_, ?_⟩ <;> rfl

/-- Two thousand million bins, the largest size handled with 32-bit positions: the second midpoint of a
search for a value near the end overflows. -/
theorem search_overflow (bins : List Int) (hlen : bins.length = 2000000000) (x : Int)
    (hm : ∃ b, bins[999999999]? = some b ∧ b < x) (hhi : ∃ f l, bins.head? = some f ∧ bins.getLast? = some l ∧
      f < x ∧ x ≤ l) :
    searchLeft (outType bins.length) .same (bins.map some) (some x) = none := by
  obtain ⟨b, hb, hbx⟩ := hm
  obtain ⟨f, l, hf, hl, h1, h2⟩ := hhi
  obtain ⟨r0, rl, hn⟩ := rd_ends hf hl
  unfold searchLeft
  dsimp only
  rw [rl, r0]
  simp only [Option.bind_some, Casts.same]
  have ho : outType bins.length = .i32 := by rw [hlen]; decide
  rw [if_pos (by simp [oLt, oLe, h1, h2]), ho, List.length_map, hlen]
  unfold searchLoop
  have hm1 : midOf .i32 0 (((2000000000 : Nat) : Int) - 1) = some 999999999 := by decide
  rw [hm1]
  have hr : rd (bins.map some) 999999999 = some (some b) := by
    have := rd_some bins 999999999
    rw [hb] at this; exact this
  have hlow : ¬ x ≤ b := by omega
  simp only [Option.bind_some, hr, Option.map_some, oLe, oLt, hlow, hbx, decide_false, decide_true,
    if_neg Bool.false_ne_true, if_true]
  rw [if_neg (by decide)]
  unfold searchLoop
  have hm2 : midOf .i32 (999999999 + 1) (((2000000000 : Nat) : Int) - 1) = none := by decide
  rw [hm2]
  rfl

example : ∃ bins : List Int, bins.length = 2000000000 ∧ (∃ b, bins[999999999]? = some b ∧ b < 1) ∧
    ∃ f l, bins.head? = some f ∧ bins.getLast? = some l ∧ f < 1 ∧ 1 ≤ l := by
  obtain ⟨n, hn⟩ : ∃ n : Nat, n = 1999999999 := ⟨_, rfl⟩
  refine ⟨List.replicate n 0 ++ [1], ?_, ⟨0, ?_, by decide⟩, 0, 1, ?_, ?_, by decide, by decide⟩
  · rw [List.length_append, List.length_replicate, hn]; rfl
  · rw [List.getElem?_append_left (by rw [List.length_replicate]; omega), List.getElem?_replicate,
      if_pos (by omega)]
  · rw [List.head?_append, List.head?_replicate, if_neg (by omega)]; rfl
  · rw [List.getLast?_concat]

/-! ## C33: `cut` -/

/-- The casts do not move a value across the first or last edge, as far as `cut` compares them. -/
structure AgreeCut (c : Casts) (first last : Int) (v : Option Int) : Prop where
  cast : ∃ f l : Int, c.toT (some first) = some (some f) ∧ c.toT (some last) = some (some l) ∧
    ∀ x, v = some x → (f ≤ x ↔ first ≤ x) ∧ (x ≤ l ↔ x ≤ last)
  val : ∀ x, v = some x → c.toB v = some v

theorem agreeCut_of_agree {c : Casts} {first last : Int} {v : Option Int} (h : Agree c first last v) :
    AgreeCut c first last v := by
  obtain ⟨⟨f, l, h1, h2, h3⟩, h4⟩ := h
  exact ⟨⟨f, l, h1, h2, fun x hx => ⟨(h3 x hx).1, (h3 x hx).2.2.1⟩⟩, h4⟩

/-- The bin of a value for the edges: 0 for a NaN or an invalid value. -/
def CutBin (valid : Int → Bool) (edges : List Int) : Option Int → Int → Prop
  | none, r => r = 0
  | some x, r => if valid x then IsBin (· < ·) edges x r else r = 0

theorem isBin_unique {edges : List Int} (hs : edges.Pairwise (· < ·)) {x r s : Int}
    (hr : IsBin (· < ·) edges x r) (h : IsBin (· < ·) edges x s) : r = s := by
  have hmono : ∀ (i j : Nat) (a b : Int), edges[i]? = some a → edges[j]? = some b → i < j → a < b := by
    intro i j a b h1 h2 hij
    obtain ⟨hi, rfl⟩ := List.getElem?_eq_some_iff.1 h1
    obtain ⟨hj, rfl⟩ := List.getElem?_eq_some_iff.1 h2
    exact List.pairwise_iff_getElem.1 hs i j hi hj hij
  have hin : ∀ (j : Nat) (b : Int), edges[j]? = some b → ∃ f l, edges.head? = some f ∧
      edges.getLast? = some l ∧ f ≤ b ∧ b ≤ l := by
    intro j b hb
    obtain ⟨hj, -⟩ := List.getElem?_eq_some_iff.1 hb
    have h0 : edges[0]? = some (edges[0]'(by omega)) := List.getElem?_eq_getElem _
    have hl : edges[edges.length - 1]? = some (edges[edges.length - 1]'(by omega)) := List.getElem?_eq_getElem _
    refine ⟨_, _, by rw [List.head?_eq_getElem?]; exact h0, by rw [List.getLast?_eq_getElem?]; exact hl, ?_, ?_⟩
    · rcases Nat.eq_zero_or_pos j with rfl | hj0
      · rw [h0] at hb; cases hb; exact Int.le_refl _
      · exact Int.le_of_lt (hmono 0 j _ _ h0 hb hj0)
    · rcases Nat.lt_or_ge j (edges.length - 1) with hlt | hge
      · exact Int.le_of_lt (hmono j _ _ _ hb hl hlt)
      · have : j = edges.length - 1 := by omega
        subst this; rw [hl] at hb; cases hb; exact Int.le_refl _
  have main : ∀ {r s : Int}, IsBin (· < ·) edges x r → IsBin (· < ·) edges x s → r ≤ s := by
    intro r s hr h
    have out : ∀ {t : Int}, ((∃ e, edges.head? = some e ∧ x < e) ∨ ∃ e, edges.getLast? = some e ∧ e < x) →
        IsBin (· < ·) edges x t → t = 0 := by
      intro t ho ht
      rcases ht with ⟨ht, -⟩ | ⟨-, e, he, h1, h2⟩ | ⟨i, -, hi, a, b, ha, hb, h1, h2⟩
      · exact ht
      · obtain ⟨f, l, hf, hl, h3, h4⟩ := hin 0 e (by rw [← List.head?_eq_getElem?]; exact he)
        rcases ho with ⟨e', he', hx⟩ | ⟨e', he', hx⟩
        · rw [he] at he'; cases he'; omega
        · rw [hl] at he'; cases he'; omega
      · obtain ⟨f, l, hf, hl, h3, h4⟩ := hin _ a ha
        obtain ⟨f', l', hf', hl', h5, h6⟩ := hin _ b hb
        rw [hf] at hf'; cases hf'; rw [hl] at hl'; cases hl'
        rcases ho with ⟨e', he', hx⟩ | ⟨e', he', hx⟩
        · rw [hf] at he'; cases he'; omega
        · rw [hl] at he'; cases he'; omega
    rcases h with ⟨hs0, ho⟩ | ⟨hs1, e, he, h1, h2⟩ | ⟨i, hi, hi0, a, b, ha, hb, h1, h2⟩
    · have := out ho hr; omega
    · rcases hr with ⟨hr0, -⟩ | ⟨hr1, -⟩ | ⟨j, hj, hj0, a', b', ha', hb', h3, h4⟩
      · omega
      · omega
      · rcases Nat.lt_or_ge 1 j with hj1 | hj1
        · have := hmono 0 (j - 1) e a' (by rw [← List.head?_eq_getElem?]; exact he) ha' (by omega)
          omega
        · omega
    · rcases hr with ⟨hr0, -⟩ | ⟨hr1, -⟩ | ⟨j, hj, hj0, a', b', ha', hb', h3, h4⟩
      · omega
      · omega
      · rcases Nat.lt_or_ge i j with hij | hij
        · rcases Nat.lt_or_eq_of_le (show i ≤ j - 1 by omega) with hlt | heq
          · have := hmono i (j - 1) b a' hb ha' hlt
            omega
          · rw [heq, ha'] at hb; cases hb; omega
        · omega
  exact Int.le_antisymm (main hr h) (main h hr)

/-- From the position found to the bin, for any order. -/
theorem bin_of_loop {o : IT} {n : Nat} (hn : 0 < n) (hov : NoOverflow o n) {gt lt le : Int → Option Bool}
    {G L : Nat → Prop} (hgt : ∀ i : Nat, i < n → ∃ b, gt i = some b ∧ (b = true ↔ G i))
    (hlt : ∀ i : Nat, i < n → ∃ b, lt i = some b ∧ (b = true ↔ L i))
    (hle : ∀ i : Nat, i < n → ∃ b, le i = some b ∧ (b = true ↔ ¬ L i))
    (hG : ∀ i j, i < j → j < n → ¬ L i → G j) (hL : ∀ i j, i < j → j < n → ¬ G j → L i)
    (hx : ∀ i, i < n → ¬ (G i ∧ L i)) (hlast : ¬ L (n - 1)) :
    ∃ r : Nat, (cutLoop o gt lt (n + 1) 0 ((n : Int) - 1)).bind (cutEdge le) = some (r : Int) ∧ 0 < r ∧
      ((r = 1 ∧ ¬ L 0) ∨ (r < n ∧ L (r - 1) ∧ ¬ L r)) := by
  have e : (n : Int) - 1 = ((n - 1 : Nat) : Int) := by omega
  obtain ⟨f, h1, h2⟩ := cutLoop_run hov hgt hlt hG hL hx hlast (n + 1) 0 (n - 1) (by omega) (by omega)
    (by intro i hi; omega) (by intro i h1 h2; omega) (by omega)
  obtain ⟨r, h3, h4⟩ := cutEdge_run hle hx hlast h2
  refine ⟨r, ?_, h4⟩
  rw [e]
  replace h1 : cutLoop o gt lt (n + 1) 0 ((n - 1 : Nat) : Int) = some (f : Int) := h1
  rw [h1]; exact h3

/-- `cut`, one value. -/
theorem cutOne_run {o : IT} {c : Casts} {valid : Int → Bool} {edges : List Int} {first last : Int}
    (hs : edges.Pairwise (· < ·)) (hf : edges.head? = some first) (hl : edges.getLast? = some last)
    (hov : NoOverflow o edges.length) (v : Option Int) (ha : AgreeCut c first last v) :
    ∃ r, cutOne o c valid (edges.map some) v = some r ∧ CutBin valid edges v r := by
  obtain ⟨r0, rl, hn⟩ := rd_ends hf hl
  obtain ⟨⟨f', l', hf', hl', hx⟩, hval⟩ := ha
  unfold cutOne
  dsimp only
  rw [rl, r0]
  simp only [Option.bind_some, hf', hl']
  cases v with
  | none => exact ⟨0, by simp, rfl⟩
  | some x =>
    obtain ⟨c1, c2⟩ := hx x rfl
    rw [hval x rfl]
    simp only [oLe, Bool.and_eq_true, decide_eq_true_eq, c1, c2, Option.bind_some, Option.any_some,
      List.length_map]
    unfold CutBin
    by_cases hv : valid x = true
    · simp only [hv, true_and, if_true]
      have hmono : ∀ (i j : Nat) (hi : i < edges.length) (hj : j < edges.length), i < j → edges[i] < edges[j] :=
        fun i j hi hj hij => List.pairwise_iff_getElem.1 hs i j hi hj hij
      have hf0 : edges[0]'hn = first := by
        rw [List.head?_eq_getElem?, List.getElem?_eq_getElem hn] at hf; exact Option.some.inj hf
      have hl0 : edges[edges.length - 1]'(by omega) = last := by
        rw [List.getLast?_eq_getElem?, List.getElem?_eq_getElem (by omega)] at hl; exact Option.some.inj hl
      by_cases hb : first ≤ x ∧ x ≤ last
      · rw [if_pos hb]
        obtain ⟨r, h1, h2, h3⟩ := bin_of_loop (o := o) (n := edges.length) hn hov
          (gt := fun m => (rd (edges.map some) m).map fun b => oLt (some x) b)
          (lt := fun m => (rd (edges.map some) m).map fun b => oLt b (some x))
          (le := fun m => (rd (edges.map some) m).map fun b => oLe (some x) b)
          (G := fun i => ∃ hi : i < edges.length, x < edges[i]) (L := fun i => ∃ hi : i < edges.length, edges[i] < x)
          (by
            intro i hi
            refine ⟨decide (x < edges[i]), ?_, ?_⟩
            · show (rd (edges.map some) i).map _ = _
              rw [rd_some, List.getElem?_eq_getElem hi]; rfl
            · rw [decide_eq_true_eq]; exact ⟨fun h => ⟨hi, h⟩, fun ⟨_, h⟩ => h⟩)
          (by
            intro i hi
            refine ⟨decide (edges[i] < x), ?_, ?_⟩
            · show (rd (edges.map some) i).map _ = _
              rw [rd_some, List.getElem?_eq_getElem hi]; rfl
            · rw [decide_eq_true_eq]; exact ⟨fun h => ⟨hi, h⟩, fun ⟨_, h⟩ => h⟩)
          (by
            intro i hi
            refine ⟨decide (x ≤ edges[i]), ?_, ?_⟩
            · show (rd (edges.map some) i).map _ = _
              rw [rd_some, List.getElem?_eq_getElem hi]; rfl
            · rw [decide_eq_true_eq]
              exact ⟨fun h ⟨_, h'⟩ => by omega, fun h => Int.not_lt.1 fun h' => h ⟨hi, h'⟩⟩)
          (by
            intro i j hij hj h
            have := hmono i j (by omega) hj hij
            have h' : ¬ edges[i] < x := fun h' => h ⟨by omega, h'⟩
            exact ⟨hj, by omega⟩)
          (by
            intro i j hij hj h
            have := hmono i j (by omega) hj hij
            have h' : ¬ x < edges[j] := fun h' => h ⟨hj, h'⟩
            exact ⟨by omega, by omega⟩)
          (by rintro i hi ⟨⟨_, h1⟩, ⟨_, h2⟩⟩; omega)
          (by rintro ⟨_, h⟩; rw [hl0] at h; omega)
        refine ⟨r, h1, ?_⟩
        rcases h3 with ⟨h3, h4⟩ | ⟨h3, ⟨h4, h4'⟩, h5⟩
        · refine .inr (.inl ⟨by omega, first, hf, by omega, fun h => h4 ⟨hn, ?_⟩⟩)
          rw [hf0]; exact h
        · exact .inr (.inr ⟨r, rfl, h2, _, _, List.getElem?_eq_getElem h4, List.getElem?_eq_getElem h3, h4',
            fun h => h5 ⟨h3, h⟩⟩)
      · rw [if_neg hb]
        refine ⟨0, rfl, .inl ⟨rfl, ?_⟩⟩
        by_cases h1 : first ≤ x
        · exact .inr ⟨last, hl, by omega⟩
        · exact .inl ⟨first, hf, by omega⟩
    · have hv' : valid x = false := by simpa using hv
      refine ⟨0, by simp [hv'], by simp [hv']⟩

/-- **C33.** `cut` puts every value in its bin, for every split over threads, when there is at least one
edge, the casts do not move a value across the first or last edge (in particular when data and edges have one
type) and the sum of two positions does not overflow.  "Invalid" is a NaN or an infinity for floats and the
sentinel for integers. -/
theorem cut_partial (c : Casts) (valid : Int → Bool) (edges : List Int) (vals : List (Option Int))
    (first last : Int) (hs : edges.Pairwise (· < ·)) (hf : edges.head? = some first)
    (hl : edges.getLast? = some last) (hsize : SizeOk edges.length)
    (ha : ∀ v ∈ vals, AgreeCut c first last v)
    {workers : Nat} {nt : Bool} {par : Option (List Nat)} (h : ChunkSched workers vals.length nt par) :
    ∃ out : List Int, binsToCuts .cut c valid (edges.map some) vals par = some (out.map some) ∧
      out.length = vals.length ∧
      ∀ (i : Nat) (v : Option Int) (r : Int), vals[i]? = some v → out[i]? = some r → CutBin valid edges v r := by
  have hov := noOverflow_outType hsize
  have hone := fun v hv => cutOne_run (c := c) (valid := valid) hs hf hl hov v (ha v hv)
  let g : Nat → Int := fun i =>
    ((vals[i]?).bind fun v => cutOne (outType edges.length) c valid (edges.map some) v).getD 0
  refine ⟨(List.range vals.length).map g, ?_, by simp, ?_⟩
  · unfold binsToCuts
    rw [List.length_map]
    refine elemWork_exact _ g (fun i hi => ?_) h
    obtain ⟨r, h1, h2⟩ := hone vals[i] (List.getElem_mem hi)
    show (vals[i]?).bind _ = some (((vals[i]?).bind _).getD 0)
    rw [List.getElem?_eq_getElem hi]
    show cutOne _ _ _ _ _ = some ((cutOne _ _ _ _ _).getD 0)
    rw [h1]; rfl
  · intro i v r hv hr
    obtain ⟨hi, rfl⟩ := List.getElem?_eq_some_iff.1 hv
    obtain ⟨r', h1, h2⟩ := hone vals[i] (List.getElem_mem hi)
    rw [List.getElem?_map, List.getElem?_range hi] at hr
    have : g i = r' := by
      show ((vals[i]?).bind _).getD 0 = r'
      rw [List.getElem?_eq_getElem hi]
      show (cutOne _ _ _ _ _).getD 0 = r'
      rw [h1]; rfl
    have e : r = r' := by
      have := Option.some.inj hr
      omega
    rw [e]; exact h2

example : binsToCuts .cut .same (fun x => x != -128) [some (-128), some 3, some 5, some 9]
    [some (-128), some 3, some 4, some 9, some 10, none, some (-100)] none =
    some [some 0, some 1, some 2, some 3, some 0, some 0, some 1] := by decide +kernel

example : ([(-128), 3, 5, 9] : List Int).Pairwise (· < ·) ∧ SizeOk 4 ∧ IsBin (· < ·) [(-128 : Int), 3, 5, 9] 4 2 :=
  ⟨by decide, .inl (by decide), .inr (.inr ⟨2, rfl, by decide, 3, 5, rfl, rfl, by decide, by decide⟩)⟩

/-! ### Where the full statement of C33 fails -/

/-- `int` data with `double` edges `[0.5, 1.5, 2.5]`: 0 is below the first edge and gets bin 1. -/
theorem cut_below_first :
    cutOne .i8 (.intDataHalves .i32) (fun _ => true) [some 1, some 3, some 5] (some 0) = some 1 ∧
    IsBin (· < ·) [(1 : Int), 3, 5] 0 0 :=
  ⟨by decide +kernel, .inl ⟨rfl, .inl ⟨1, rfl, by decide⟩⟩⟩

/-- `int` data with `double` edges `[-2.5, -1.5]`: -1 is above the last edge and gets bin 2, of which there
is none. -/
theorem cut_above_last :
    cutOne .i8 (.intDataHalves .i32) (fun _ => true) [some (-5), some (-3)] (some (-2)) = some 2 ∧
    IsBin (· < ·) [(-5 : Int), -3] (-2) 0 :=
  ⟨by decide +kernel, .inl ⟨rfl, .inr ⟨-3, rfl, by decide⟩⟩⟩

/-- Infinite edges: with the edges `[-inf, 0, inf]` (infinity written as 1000) the value `inf` is in bin 2 by the
rule, but gets bin 0, because only finite values are looked up. -/
theorem cut_infinite :
    cutOne .i8 .same (fun x => x != 1000 && x != -1000) [some (-1000), some 0, some 1000] (some 1000) = some 0 ∧
    IsBin (· < ·) [(-1000 : Int), 0, 1000] 1000 2 :=
  ⟨by decide +kernel, .inr (.inr ⟨2, rfl, by decide, 0, 1000, rfl, rfl, by decide, by decide⟩)⟩

/-- `uint8` data with `int64` edges `[-5, 10]`: -5 wraps to 251, and no value is in a bin. -/
theorem cut_wraps (x : Nat) (hx : x < 256) :
    cutOne .i8 (.ints .u8 .i64) (fun _ => true) [some (-5), some 10] (some x) = some 0 := by
  have : ∀ x : Fin 256,
      cutOne .i8 (.ints .u8 .i64) (fun _ => true) [some (-5), some 10] (some (x.val : Int)) = some 0 := by
    decide +kernel
  exact this ⟨x, hx⟩

/-- With equal edges the bin depends on the length of the array: the value 3 gets bin 1 for `[1, 3, 3, 4]`, but
2 for `[1, 3, 3, 3, 4]`. -/
theorem cut_equal_edges :
    cutOne .i8 .same (fun _ => true) [some 1, some 3, some 3, some 4] (some 3) = some 1 ∧
    cutOne .i8 .same (fun _ => true) [some 1, some 3, some 3, some 3, some 4] (some 3) = some 2 := by decide +kernel

end Riptide.Bins
