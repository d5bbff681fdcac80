import Verif.Stack.ConvertLemmas
import Verif.Stack.TypesProps
/-! # What becomes of the rows of a file in a stacked column -/
namespace Riptide.Stack
open Riptide.Sds Riptide.Convert

/-! ### Single items -/

theorem value_int (t : IT) (n : Nat) : value (.int t) n = if ofBits t n = t.inv then .invalid else .num (ofBits t n) := rfl

/-- One integer type holds the numbers of another one. -/
structure Over (s d : IT) : Prop where
  src : 0 < s.bits
  dst : 0 < d.bits
  lo : d.lo ≤ s.lo
  hi : s.hi ≤ d.hi

theorem Over.inv {s d : IT} (h : Over s d) {x : Int} (hx : s.InRange x) (he : x = d.inv) : x = s.inv := by
  obtain ⟨h1, h2, h3, h4⟩ := h
  obtain ⟨h5, h6⟩ := hx
  have hs := IT.hi_eq s h1
  have hd := IT.hi_eq d h2
  have ps := IT.pow_pos s.bits
  unfold IT.inv at he ⊢
  cases hds : d.signed
  · rw [hds] at he
    cases hss : s.signed
    · simp at he ⊢; omega
    · exfalso
      have l1 : d.lo = 0 := by unfold IT.lo; simp [hds]
      have l2 : s.lo < 0 := by unfold IT.lo; simp [hss]; have := IT.pow_pos (s.bits - 1); omega
      omega
  · rw [hds] at he
    simp at he
    cases hss : s.signed
    · exfalso
      have l1 : d.lo < 0 := by unfold IT.lo; simp [hds]; have := IT.pow_pos (d.bits - 1); omega
      have l2 : s.lo = 0 := by unfold IT.lo; simp [hss]
      omega
    · simp; omega

theorem conv_int {s d : IT} (h : Over s d) {n : Nat} (hn : n < 2 ^ s.bits) :
    ∃ m, convItem (.int s) (.int d) n = some m ∧ m < 2 ^ d.bits ∧ value (.int d) m = value (.int s) n := by
  have hr := ofBits_range h.src hn
  have hd : d.InRange (ofBits s n) := ⟨Int.le_trans h.lo hr.1, Int.le_trans hr.2 h.hi⟩
  unfold convItem
  dsimp only
  by_cases hi : ofBits s n = s.inv
  · rw [if_neg (fun h => h hi)]
    refine ⟨_, rfl, toBits_lt _ _, ?_⟩
    rw [value_int, value_int, ofBits_toBits h.dst (IT.inv_inRange d h.dst), if_pos rfl, if_pos hi]
  · rw [if_pos hi, IT.wrap_of_inRange d h.dst hd]
    refine ⟨_, rfl, toBits_lt _ _, ?_⟩
    rw [value_int, value_int, ofBits_toBits h.dst hd, if_neg hi, if_neg (fun he => hi (h.inv hr he))]

theorem qnan_lt {g : FT} (hg : Spec.Good g) : g.qnan < 2 ^ (1 + g.eb + g.mb) := by
  unfold FT.qnan FT.infMag
  obtain ⟨he, hm, _⟩ := hg
  have h3 : (2 ^ g.eb - 1) * 2 ^ g.mb + 2 ^ g.mb = 2 ^ (g.eb + g.mb) := by
    rw [← Nat.succ_mul, Nat.pow_add]; congr 1; have := two_pow_pos g.eb; omega
  have h2 : 2 ^ (1 + g.eb + g.mb) = 2 * 2 ^ (g.eb + g.mb) := by rw [← Nat.pow_succ']; congr 1; omega
  have h4 : 2 ^ (g.mb - 1) ≤ 2 ^ g.mb := Nat.pow_le_pow_right (by decide) (by omega)
  have h5 := two_pow_pos g.mb
  omega

theorem roundMag_le {f : FT} (hg : Spec.Good f) {x : Int} (h : x.natAbs < 2 ^ (f.mb + 1)) : f.ofInt x < 2 ^ (1 + f.eb + f.mb) := by
  unfold FT.ofInt
  have hp := two_pow_pos (f.eb + f.mb)
  have h2 : 2 ^ (1 + f.eb + f.mb) = 2 * 2 ^ (f.eb + f.mb) := by rw [← Nat.pow_succ']; congr 1; omega
  rw [h2]
  by_cases h0 : x = 0
  · rw [if_pos h0]; omega
  · rw [if_neg h0]
    obtain ⟨hr, h3, h4, hk⟩ := roundMag_small f (n := x.natAbs) (by omega) h
    obtain ⟨he, hm, hb⟩ := hg
    have hbias : 2 * (f.bias + 1) = 2 ^ f.eb := by
      unfold FT.bias
      have := two_pow_pos (f.eb - 1)
      have h2 : 2 ^ f.eb = 2 * 2 ^ (f.eb - 1) := by rw [← Nat.pow_succ']; congr 1; omega
      omega
    have h5 : (x.natAbs.log2 + f.bias + 1) * 2 ^ f.mb ≤ (2 ^ f.eb) * 2 ^ f.mb := Nat.mul_le_mul_right _ (by omega)
    rw [← Nat.pow_add, Nat.add_mul, Nat.one_mul] at h5
    have h6 : f.roundMag x.natAbs < 2 ^ (f.eb + f.mb) := by rw [hr]; omega
    split <;> omega

theorem conv_float {s : IT} {f : FT} (hg : Spec.Good f) (hs : 0 < s.bits) (hb : s.bits ≤ f.mb + 1) {n : Nat} (hn : n < 2 ^ s.bits) :
    ∃ m, convItem (.int s) (.float f) n = some m ∧ m < 2 ^ (1 + f.eb + f.mb) ∧ value (.float f) m = value (.int s) n := by
  have hr := ofBits_range hs hn
  unfold convItem
  dsimp only
  by_cases hi : ofBits s n = s.inv
  · rw [if_neg (fun h => h hi)]
    refine ⟨_, rfl, ?_, ?_⟩
    · exact qnan_lt hg
    · rw [qnan_value hg, value_int, if_pos hi]
  · rw [if_pos hi]
    have hx : (ofBits s n).natAbs < 2 ^ (f.mb + 1) := by
      have h1 : (2 : Nat) ^ s.bits ≤ 2 ^ (f.mb + 1) := Nat.pow_le_pow_right (by decide) hb
      have h4 : ((2 ^ s.bits : Nat) : Int) = (2 : Int) ^ s.bits := by simp
      unfold IT.InRange at hr
      rw [IT.hi_eq s hs] at hr
      have l1 : -((2 : Int) ^ s.bits) < s.lo := by
        unfold IT.lo
        split
        · have : (2 : Int) ^ s.bits = 2 * 2 ^ (s.bits - 1) := by rw [← Int.pow_succ']; congr 1; omega
          have := IT.pow_pos (s.bits - 1)
          omega
        · have := IT.pow_pos s.bits
          omega
      have l2 : s.lo ≤ 0 := by
        unfold IT.lo
        split
        · have := IT.pow_pos (s.bits - 1)
          omega
        · omega
      omega
    refine ⟨_, rfl, roundMag_le hg hx, ?_⟩
    rw [exact_value (ofInt_exact f hg hx), value_int, if_neg hi]

theorem widen_lt {f g : FT} (hw : Wider f g) {b : Nat} (hn : f.isNan b = false) : widen f g b < 2 ^ (1 + g.eb + g.mb) := by
  have h2 : 2 ^ (1 + g.eb + g.mb) = 2 * 2 ^ (g.eb + g.mb) := by rw [← Nat.pow_succ']; congr 1; omega
  have hp := two_pow_pos (g.eb + g.mb)
  have hs : (if f.neg b = true then 2 ^ (g.eb + g.mb) else 0) ≤ 2 ^ (g.eb + g.mb) := by split <;> omega
  have hi := infMag_lt (g := g)
  unfold widen
  dsimp only
  rw [h2]
  generalize (if f.neg b = true then 2 ^ (g.eb + g.mb) else 0) = S at hs
  by_cases h : f.mag b = f.infMag
  · rw [if_pos h]; omega
  · rw [if_neg h]
    by_cases h0 : f.scaledMag (f.mag b) = 0
    · rw [if_pos h0]; omega
    · rw [if_neg h0]
      have hm : f.mag b < f.infMag := by
        unfold FT.isNan at hn
        simp at hn
        omega
      have := (widen_mag hw hm h0).1
      omega

theorem conv_widen {f g : FT} (hw : Wider f g) (n : Nat) :
    ∃ m, convItem (.float f) (.float g) n = some m ∧ m < 2 ^ (1 + g.eb + g.mb) ∧ value (.float g) m = value (.float f) n := by
  unfold convItem
  dsimp only
  cases hn : f.isNan n
  · rw [if_neg (by decide)]
    exact ⟨_, rfl, widen_lt hw hn, widen_value hw hn⟩
  · rw [if_pos rfl]
    refine ⟨_, rfl, ?_, ?_⟩
    · exact qnan_lt hw.good
    · rw [qnan_value hw.good, value_float, hn]
      rfl

theorem f64_good : Spec.Good .f64 := wider_32_64.good
theorem f32_good : Spec.Good .f32 := by unfold Spec.Good; decide

theorem pow_int {t : IT} {k : Nat} (h : t.bits = 8 * k) : 2 ^ t.bits = 256 ^ k := by
  rw [h, Nat.pow_mul]

/-- **C114, single items.** An item which is converted to a type with all its numbers keeps its value: a number is the same number, an infinity
the same infinity, and the invalid of the one type is the invalid of the other. -/
theorem item_value_partial {s d : Nat} {a b : Item} (ha : itemOf s = some a) (hb : itemOf d = some b) (h : inside s d = true) (hne : s ≠ d)
    (h0 : s ≠ 0) {n : Nat} (hn : n < 256 ^ a.size) : ∃ m, convItem a b n = some m ∧ m < 256 ^ b.size ∧ value b m = value a n := by
  have key : ∀ (s d : IT), Over s d → n < 2 ^ s.bits → ∃ m, convItem (.int s) (.int d) n = some m ∧ m < 2 ^ d.bits ∧ value (.int d) m = value (.int s) n :=
    fun s d h hn => conv_int h hn
  unfold itemOf at ha hb
  split at ha <;> first | exact absurd rfl h0 | cases ha | skip
  all_goals (split at hb <;> first | exact absurd rfl hne | cases hb | skip)
  all_goals first
    | exact absurd h (by decide)
    | exact conv_int ⟨by decide, by decide, by decide, by decide⟩ hn
    | exact conv_float f32_good (by decide) (by decide) hn
    | exact conv_float f64_good (by decide) (by decide) hn
    | exact conv_widen wider_32_64 n

theorem unle_lt : ∀ (l : List Nat), (∀ x ∈ l, x < 256) → unle l < 256 ^ l.length
  | [], _ => by simp [unle]
  | b :: l, h => by
    have h1 := unle_lt l (fun x hx => h x (by simp [hx]))
    have h2 := h b (by simp)
    rw [unle, List.length_cons, Nat.pow_succ]
    omega

theorem piece_bytes {k : Nat} {m : List Nat} (hm : ∀ x ∈ m, x < 256) (i : Nat) : ∀ x ∈ piece k m i, x < 256 :=
  fun x hx => hm x (List.mem_of_mem_drop (List.mem_of_mem_take hx))

theorem inside_size {s d : Nat} {a b : Item} (ha : itemOf s = some a) (hb : itemOf d = some b) (h : inside s d = true) :
    0 < a.size ∧ a.size ≤ b.size ∧ (s ≠ d → b ≠ .bool) := by
  unfold itemOf at ha hb
  split at ha <;> cases ha
  all_goals (split at hb <;> cases hb)
  all_goals first
    | exact absurd h (by decide)
    | decide
    | exact ⟨by decide, by decide, fun h => absurd rfl h⟩

/-- **C114.** Converting rows in place gives each item the value it had, in memory for the larger items, and touches nothing behind them.
Missing: `bool` (`false_becomes_invalid`) and the types whose numbers are not all numbers of the other (`wrong_numbers`). -/
theorem rows_converted_partial {s d : Nat} {a b : Item} (ha : itemOf s = some a) (hb : itemOf d = some b) (h : inside s d = true) (hne : s ≠ d)
    (h0 : s ≠ 0) {m : List Nat} (hm : ∀ x ∈ m, x < 256) {len : Nat} (hl : len * b.size ≤ m.length) :
    ∃ m', convertDType s d m (len * a.size) = some m' ∧ m'.length = m.length ∧ m'.drop (len * b.size) = m.drop (len * b.size) ∧
      ∀ i, i < len → value b (item b.size m' i) = value a (item a.size m i) := by
  obtain ⟨p1, p2, p3⟩ := inside_size ha hb h
  have hitem : ∀ i, i < len → ∃ r, convItem a b (item a.size m i) = some r ∧ r < 256 ^ b.size ∧ value b r = value a (item a.size m i) := by
    intro i hi
    apply item_value_partial ha hb h hne h0
    have h1 : (i + 1) * a.size ≤ len * b.size := Nat.mul_le_mul (by omega) p2
    have := unle_lt (piece a.size m i) (piece_bytes hm i)
    rw [piece_length (by omega)] at this
    exact this
  let g : Nat → List Nat := fun i => le b.size ((convItem a b (item a.size m i)).getD 0)
  have hg : ∀ j, j < len → (fun l => (convItem a b (unle l)).map (le b.size)) (piece a.size m j) = some (g j) ∧ (g j).length = b.size := by
    intro j hj
    obtain ⟨r, r1, _, _⟩ := hitem j hj
    refine ⟨?_, le_length _ _⟩
    show (convItem a b (item a.size m j)).map (le b.size) = some (le b.size ((convItem a b (item a.size m j)).getD 0))
    rw [r1]
    rfl
  have hloop := convertLoop_eq p2 (fun l => (convItem a b (unle l)).map (le b.size)) g m len (m.drop (len * b.size)) hl hg
  rw [List.take_append_drop] at hloop
  have hlen := flatMap_length len (fun j hj => (hg j hj).2)
  refine ⟨(List.range len).flatMap g ++ m.drop (len * b.size), ?_, ?_, ?_, ?_⟩
  · have hstr : ¬(s = 18 ∧ d = 19) := by
      rintro ⟨rfl, _⟩
      cases ha
    unfold convertDType
    rw [if_neg hstr, ha, hb]
    dsimp only
    rw [if_neg (p3 hne)]
    unfold convertInplace
    dsimp only
    have h3 : len * a.size ≤ len * b.size := Nat.mul_le_mul_left len p2
    rw [Nat.mul_div_cancel len p1, if_neg (by omega)]
    exact hloop
  · rw [List.length_append, hlen, List.length_drop]
    omega
  · exact List.drop_left' hlen
  · intro i hi
    obtain ⟨r, r1, r2, r3⟩ := hitem i hi
    have := flatMap_piece (fun j hj => (hg j hj).2) (m.drop (len * b.size)) hi
    have e : item b.size ((List.range len).flatMap g ++ m.drop (len * b.size)) i = r := by
      show unle (piece b.size ((List.range len).flatMap g ++ m.drop (len * b.size)) i) = r
      rw [this]
      show unle (le b.size ((convItem a b (item a.size m i)).getD 0)) = r
      rw [r1]
      exact unle_le _ _ r2
    rw [e, r3]

/-- Whatever the types (but `bool`), what was invalid stays invalid. -/
theorem invalid_kept {s d : Nat} {a b : Item} (ha : itemOf s = some a) (hb : itemOf d = some b) (h0 : s ≠ 0) {n m : Nat}
    (hc : convItem a b n = some m) (hv : value a n = .invalid) : value b m = .invalid := by
  have ii : ∀ s d : IT, 0 < d.bits → convItem (.int s) (.int d) n = some m → value (.int s) n = .invalid → value (.int d) m = .invalid := by
    intro s d hd hc hv
    rw [value_int] at hv
    unfold convItem at hc
    dsimp only at hc
    split at hv
    · rename_i he
      rw [if_neg (fun h => h he)] at hc
      cases hc
      rw [value_int, ofBits_toBits hd (IT.inv_inRange d hd), if_pos rfl]
    · cases hv
  have fi : ∀ (s : IT) (f : FT), Spec.Good f → convItem (.int s) (.float f) n = some m → value (.int s) n = .invalid → value (.float f) m = .invalid := by
    intro s f hf hc hv
    rw [value_int] at hv
    unfold convItem at hc
    dsimp only at hc
    split at hv
    · rename_i he
      rw [if_neg (fun h => h he)] at hc
      cases hc
      exact qnan_value hf
    · cases hv
  have nan : ∀ f : FT, value (.float f) n = .invalid → f.isNan n = true := by
    intro f hv
    rw [value_float] at hv
    split at hv
    · assumption
    · split at hv <;> cases hv
  have ff : ∀ (f g : FT), Spec.Good g → convItem (.float f) (.float g) n = some m → value (.float f) n = .invalid → value (.float g) m = .invalid := by
    intro f g hg hc hv
    unfold convItem at hc
    dsimp only at hc
    rw [if_pos (nan f hv)] at hc
    cases hc
    exact qnan_value hg
  have fg : ∀ (f : FT) (d : IT), 0 < d.bits → convItem (.float f) (.int d) n = some m → value (.float f) n = .invalid → value (.int d) m = .invalid := by
    intro f d hd hc hv
    unfold convItem at hc
    dsimp only at hc
    rw [if_pos (nan f hv)] at hc
    cases hc
    rw [value_int, ofBits_toBits hd (IT.inv_inRange d hd), if_pos rfl]
  unfold itemOf at ha hb
  split at ha <;> first | exact absurd rfl h0 | cases ha | skip
  all_goals (split at hb <;> first | cases hb | skip)
  all_goals first
    | exact ii _ _ (by decide) hc hv
    | exact fi _ _ f32_good hc hv
    | exact fi _ _ f64_good hc hv
    | exact ff _ _ f32_good hc hv
    | exact ff _ _ f64_good hc hv
    | exact fg _ _ (by decide) hc hv
    | (exfalso; revert hc; unfold convItem; nofun)

/-- `False` is taken as invalid when a column of `bool` is stacked with any other numbers; `True` is 1. -/
theorem false_becomes_invalid {d : Nat} {b : Item} (hb : itemOf d = some b) (hd : d ≠ 0) :
    (∃ m, convItem .bool b 0 = some m ∧ value .bool 0 = .num 0 ∧ value b m = .invalid) ∧
    (∃ m, convItem .bool b 1 = some m ∧ value b m = .num 1) := by
  have one : ∀ f : FT, Spec.Good f → value (.float f) (f.ofInt 1) = .num 1 := by
    intro f hf
    have h1 : (1 : Int).natAbs < 2 ^ (f.mb + 1) := by
      rw [Nat.pow_succ]
      have := two_pow_pos f.mb
      show 1 < _
      omega
    have h2 := exact_value (ofInt_exact f hf h1)
    exact h2
  unfold itemOf at hb
  split at hb <;> first | exact absurd rfl hd | cases hb | skip
  all_goals refine ⟨⟨_, rfl, by simp [value], ?_⟩, ⟨_, rfl, ?_⟩⟩
  all_goals first
    | decide +kernel
    | exact qnan_value f32_good
    | exact qnan_value f64_good
    | exact one _ f32_good
    | exact one _ f64_good

/-- Numbers which change: -1 becomes invalid, 2^64 - 2 becomes -2, 2^53 + 1 becomes 2^53. -/
theorem wrong_numbers :
    (∃ n m, convItem (.int .i64) (.int .u64) n = some m ∧ value (.int .i64) n = .num (-1) ∧ value (.int .u64) m = .invalid) ∧
    (∃ n m, convItem (.int .u64) (.int .i64) n = some m ∧ value (.int .u64) n = .num (2 ^ 64 - 2) ∧ value (.int .i64) m = .num (-2)) ∧
    (∃ n m, convItem (.int .i64) (.float .f64) n = some m ∧ value (.int .i64) n = .num (2 ^ 53 + 1) ∧ value (.float .f64) m = .num (2 ^ 53)) :=
  ⟨⟨2 ^ 64 - 1, _, rfl, by decide +kernel, by decide +kernel⟩, ⟨2 ^ 64 - 2, _, rfl, by decide +kernel, by decide +kernel⟩,
    ⟨2 ^ 53 + 1, _, rfl, by decide +kernel, by decide +kernel⟩⟩

/-- Without a function for the conversion, and for types with smaller items, the bytes stay as they were. -/
theorem not_converted {s d : Nat} (h : canConvert s d = false) (m : List Nat) (bytes : Nat) : convertDType s d m bytes = some m := by
  unfold convertDType
  have h1 : ¬(s = 18 ∧ d = 19) := by
    rintro ⟨rfl, rfl⟩
    cases h
  rw [if_neg h1]
  split
  · rename_i a b ha hb
    by_cases hc : b = .bool
    · rw [if_pos hc]
    · exfalso
      unfold itemOf at ha hb
      split at ha <;> first | cases ha | skip
      all_goals (split at hb <;> first | cases hb | skip)
      all_goals first
        | exact absurd rfl hc
        | exact absurd h (by decide)
  · rfl

example : ∃ m', convertDType 3 11 [1, 0, 0, 128, 255, 255, 9, 9, 9, 9, 9, 9, 7] (3 * 2) = some m' ∧ m'.length = 13 ∧ m'.drop 12 = [7] ∧
    ∀ i, i < 3 → value (.float .f32) (item 4 m' i) = value (.int .i16) (item 2 [1, 0, 0, 128, 255, 255, 9, 9, 9, 9, 9, 9, 7] i) :=
  rows_converted_partial (s := 3) (d := 11) (a := .int .i16) (b := .float .f32) rfl rfl (by decide) (by decide) (by decide) (by decide) (len := 3) (by decide)
example : convertDType 3 11 [1, 0, 0, 128, 255, 255, 9, 9, 9, 9, 9, 9, 7] (3 * 2) = some [0, 0, 128, 63, 0, 0, 192, 127, 0, 0, 128, 191, 7] := by decide +kernel
example : convertDType 2 5 [1, 255, 9, 9, 9, 9, 9, 9] 2 = some [1, 0, 0, 0, 0, 0, 0, 128] := by decide +kernel
example : convertDType 11 12 [0, 0, 128, 63, 9, 9, 9, 9] 4 = some [0, 0, 0, 0, 0, 0, 240, 63] := by decide +kernel
example : convertDType 11 12 [1, 0, 0, 128, 9, 9, 9, 9] 4 = some [0, 0, 0, 0, 0, 0, 160, 182] := by decide +kernel
example : convertDType 11 12 [0, 0, 128, 255, 9, 9, 9, 9] 4 = some [0, 0, 0, 0, 0, 0, 240, 255] := by decide +kernel
example : convertDType 12 11 [1, 2, 3, 4, 5, 6, 7, 8] 8 = some [1, 2, 3, 4, 5, 6, 7, 8] := by decide +kernel
example : convertDType 14 15 [1, 2, 3] 1 = some [1, 2, 3] := not_converted (by decide) _ _
example : convertDType 2 5 [1, 255, 9, 9, 9, 9, 9] 2 = none := by decide +kernel

/-! ### Strings -/

theorem copyBack_eq {α : Type} : ∀ (n src dst : Nat) (m : List α), n ≤ src → src ≤ dst → dst ≤ m.length →
    copyBack n src dst m = some (m.take (dst - n) ++ (m.drop (src - n)).take n ++ m.drop dst)
  | 0, src, dst, m, _, _, h3 => by simp [copyBack]
  | n + 1, src, dst, m, h1, h2, h3 => by
    have hs : src - 1 < m.length := by omega
    rw [copyBack, List.getElem?_eq_getElem hs]
    dsimp only
    rw [if_pos (by omega), copyBack_eq n (src - 1) (dst - 1) _ (by omega) (by omega) (by rw [List.length_set]; omega)]
    congr 1
    have e1 : (m.set (dst - 1) m[src - 1]).take (dst - 1 - n) = m.take (dst - (n + 1)) := by
      rw [List.take_set_of_le (by omega)]
      congr 1
      omega
    have e2 : ((m.set (dst - 1) m[src - 1]).drop (src - 1 - n)).take n = (m.drop (src - 1 - n)).take n := by
      apply List.ext_getElem?
      intro i
      by_cases hi : i < n
      · rw [List.getElem?_take_of_lt hi, List.getElem?_take_of_lt hi, List.getElem?_drop, List.getElem?_drop, List.getElem?_set_ne (by omega)]
      · rw [List.getElem?_eq_none (by rw [List.length_take]; omega), List.getElem?_eq_none (by rw [List.length_take]; omega)]
    have e3 : (m.set (dst - 1) m[src - 1]).drop (dst - 1) = m[src - 1] :: m.drop dst := by
      rw [List.drop_eq_getElem_cons (by rw [List.length_set]; omega), List.getElem_set_self, show dst - 1 + 1 = dst by omega]
      congr 1
      exact List.drop_set_of_lt (by omega)
    have e4 : (m.drop (src - (n + 1))).take (n + 1) = (m.drop (src - 1 - n)).take n ++ [m[src - 1]] := by
      rw [show src - (n + 1) = src - 1 - n by omega, List.take_add_one, List.getElem?_drop, show src - 1 - n + n = src - 1 by omega,
        List.getElem?_eq_getElem hs]
      rfl
    rw [e1, e2, e3, e4]
    simp

theorem zeroBack_eq {α : Type} (z : α) : ∀ (n dst : Nat) (m : List α), n ≤ dst → dst ≤ m.length →
    zeroBack z n dst m = some (m.take (dst - n) ++ List.replicate n z ++ m.drop dst)
  | 0, dst, m, _, h => by simp [zeroBack]
  | n + 1, dst, m, h1, h2 => by
    rw [zeroBack, if_pos (by omega), zeroBack_eq z n (dst - 1) _ (by omega) (by rw [List.length_set]; omega)]
    congr 1
    have e1 : (m.set (dst - 1) z).take (dst - 1 - n) = m.take (dst - (n + 1)) := by
      rw [List.take_set_of_le (by omega)]
      congr 1
      omega
    have e3 : (m.set (dst - 1) z).drop (dst - 1) = z :: m.drop dst := by
      rw [List.drop_eq_getElem_cons (by rw [List.length_set]; omega), List.getElem_set_self, show dst - 1 + 1 = dst by omega]
      congr 1
      exact List.drop_set_of_lt (by omega)
    rw [e1, e3, List.replicate_succ']
    simp

theorem stretchLoop_eq {α : Type} (z : α) (w gap : Nat) (m : List α) : ∀ (i : Nat) (t : List α), i * (w + gap) ≤ m.length →
    stretchLoop z w gap i (m.take (i * (w + gap)) ++ t) = some ((List.range i).flatMap (fun j => piece w m j ++ List.replicate gap z) ++ t)
  | 0, t, _ => by simp [stretchLoop]
  | i + 1, t, h => by
    have h2 : (i + 1) * (w + gap) = i * (w + gap) + w + gap := by rw [Nat.succ_mul]; omega
    have h3 : (i + 1) * w = i * w + w := Nat.succ_mul i w
    have h1 : i * w ≤ i * (w + gap) := Nat.mul_le_mul_left i (by omega)
    have hl : (m.take ((i + 1) * (w + gap)) ++ t).length = (i + 1) * (w + gap) + t.length := by
      rw [List.length_append, List.length_take, Nat.min_eq_left h]
    rw [stretchLoop, zeroBack_eq z gap _ _ (by omega) (by omega)]
    dsimp only
    have e1 : (m.take ((i + 1) * (w + gap)) ++ t).take ((i + 1) * (w + gap) - gap) = m.take ((i + 1) * (w + gap) - gap) := by
      rw [List.take_append_of_le_length (by rw [List.length_take]; omega), List.take_take, Nat.min_eq_left (by omega)]
    have e2 : (m.take ((i + 1) * (w + gap)) ++ t).drop ((i + 1) * (w + gap)) = t := List.drop_left' (by rw [List.length_take]; omega)
    rw [e1, e2, copyBack_eq _ _ _ _ (by omega) (by omega) (by simp; omega)]
    dsimp only
    have k : (m.take ((i + 1) * (w + gap) - gap)).length = (i + 1) * (w + gap) - gap := by rw [List.length_take]; omega
    rw [List.append_assoc (m.take ((i + 1) * (w + gap) - gap))]
    have e3 : (m.take ((i + 1) * (w + gap) - gap) ++ (List.replicate gap z ++ t)).take ((i + 1) * (w + gap) - gap - w) = m.take (i * (w + gap)) := by
      rw [List.take_append_of_le_length (by omega), List.take_take]
      congr 1
      omega
    have e4 : ((m.take ((i + 1) * (w + gap) - gap) ++ (List.replicate gap z ++ t)).drop ((i + 1) * w - w)).take w = piece w m i := by
      unfold piece
      rw [show (i + 1) * w - w = i * w by omega, List.drop_append_of_le_length (by omega), List.take_append_of_le_length (by rw [List.length_drop]; omega),
        List.drop_take, List.take_take]
      congr 1
      omega
    have e5 : (m.take ((i + 1) * (w + gap) - gap) ++ (List.replicate gap z ++ t)).drop ((i + 1) * (w + gap) - gap) = List.replicate gap z ++ t :=
      List.drop_left' k
    rw [e3, e4, e5, List.append_assoc, stretchLoop_eq z w gap m i (piece w m i ++ (List.replicate gap z ++ t)) (by omega), List.range_succ,
      List.flatMap_append, List.append_assoc]
    simp

/-- What `StringFixup` does to whole rows. -/
theorem stringFixup_rows {α : Type} (z : α) (m : List α) {rows cols small wide : Nat} (hs : small ≤ wide) (hl : rows * (wide * cols) ≤ m.length) :
    ∃ m', stringFixup z m rows cols small wide = some m' ∧ m'.length = m.length ∧ m'.drop (rows * (wide * cols)) = m.drop (rows * (wide * cols)) ∧
      ∀ i, i < rows → piece (wide * cols) m' i = piece (small * cols) m i ++ List.replicate (wide * cols - small * cols) z := by
  have hc : small * cols ≤ wide * cols := Nat.mul_le_mul_right cols hs
  unfold stringFixup
  by_cases h : wide * cols > small * cols ∧ rows > 0
  · rw [if_pos h]
    have e : small * cols + (wide * cols - small * cols) = wide * cols := by omega
    have hloop := stretchLoop_eq z (small * cols) (wide * cols - small * cols) m rows (m.drop (rows * (wide * cols))) (by rw [e]; exact hl)
    rw [e, List.take_append_drop] at hloop
    have hg : ∀ j, j < rows → (piece (small * cols) m j ++ List.replicate (wide * cols - small * cols) z).length = wide * cols := by
      intro j hj
      have : (j + 1) * (small * cols) ≤ rows * (wide * cols) := Nat.mul_le_mul (by omega) hc
      rw [List.length_append, piece_length (by omega), List.length_replicate]
      exact e
    have hlen := flatMap_length rows hg
    refine ⟨_, hloop, ?_, List.drop_left' hlen, fun i hi => flatMap_piece hg _ hi⟩
    rw [List.length_append, hlen, List.length_drop]
    omega
  · rw [if_neg h]
    refine ⟨m, rfl, rfl, rfl, ?_⟩
    intro i hi
    have : wide * cols = small * cols := by omega
    rw [this]
    simp

/-- **C115, widths.** In a column of one dimension each string is followed by zeros up to the width of the column, and nothing behind the rows
is touched.  Missing: columns of more dimensions (`cells_wrong`). -/
theorem strings_widened_partial {α : Type} (z : α) (m : List α) {rows small wide : Nat} (hs : small ≤ wide) (hl : rows * wide ≤ m.length) :
    ∃ m', stringFixup z m rows 1 small wide = some m' ∧ m'.length = m.length ∧ m'.drop (rows * wide) = m.drop (rows * wide) ∧
      ∀ i, i < rows → piece wide m' i = piece small m i ++ List.replicate (wide - small) z := by
  have := stringFixup_rows z m (cols := 1) hs (by rw [Nat.mul_one]; exact hl)
  simp only [Nat.mul_one] at this
  exact this

/-- In a column of two dimensions the zeros come after the whole row instead of after each string: "a" and "b" become "ab" and "". -/
theorem cells_wrong : ∃ m m' : List Nat, stringFixup 0 m 1 2 1 2 = some m' ∧ piece 1 m 0 = [97] ∧ piece 1 m 1 = [98] ∧
    piece 2 m' 0 = [97, 98] ∧ piece 2 m' 1 = [0, 0] :=
  ⟨[97, 98, 7, 7], [97, 98, 0, 0], by decide, by decide, by decide, by decide, by decide⟩

/-- **C115, characters.** Bytes become characters, one after the other. -/
theorem string_chars (m : List Nat) (hm : ∀ x ∈ m, x < 256) {bytes : Nat} (hl : bytes * 4 ≤ m.length) :
    ∃ m', convertDType 18 19 m bytes = some m' ∧ m'.length = m.length ∧ m'.drop (bytes * 4) = m.drop (bytes * 4) ∧
      ∀ i, i < bytes → item 4 m' i = item 1 m i := by
  let g : Nat → List Nat := fun i => le 4 (item 1 m i)
  have hg : ∀ j, j < bytes → (fun l => some (le 4 (unle l))) (piece 1 m j) = some (g j) ∧ (g j).length = 4 :=
    fun j _ => ⟨rfl, le_length _ _⟩
  have hloop := convertLoop_eq (by decide : 1 ≤ 4) (fun l => some (le 4 (unle l))) g m bytes (m.drop (bytes * 4)) hl hg
  rw [List.take_append_drop] at hloop
  have hlen := flatMap_length bytes (fun j hj => (hg j hj).2)
  refine ⟨(List.range bytes).flatMap g ++ m.drop (bytes * 4), ?_, ?_, List.drop_left' hlen, ?_⟩
  · unfold convertDType
    rw [if_pos ⟨rfl, rfl⟩]
    exact hloop
  · rw [List.length_append, hlen, List.length_drop]
    omega
  · intro i hi
    show unle (piece 4 ((List.range bytes).flatMap g ++ m.drop (bytes * 4)) i) = _
    rw [flatMap_piece (fun j hj => (hg j hj).2) _ hi]
    show unle (le 4 (item 1 m i)) = item 1 m i
    apply unle_le
    have := unle_lt (piece 1 m i) (piece_bytes hm i)
    rw [piece_length (by omega)] at this
    exact Nat.lt_of_lt_of_le this (by decide)

/-- When the column is wider than four times the byte strings, they are not stretched: the strings "a" and "b" in a column of two characters
become "ab" and whatever was in memory. -/
theorem string_rows_wrong : ∃ m m' : List Nat, convertDType 18 19 m 2 = some m' ∧ piece 1 m 0 = [97] ∧ piece 1 m 1 = [98] ∧
    piece 8 m' 0 = [97, 0, 0, 0, 98, 0, 0, 0] ∧ piece 8 m' 1 = piece 8 m 1 :=
  ⟨[97, 98, 7, 7, 7, 7, 7, 7, 1, 2, 3, 4, 5, 6, 7, 8], [97, 0, 0, 0, 98, 0, 0, 0, 1, 2, 3, 4, 5, 6, 7, 8], by decide, by decide, by decide, by decide, by decide⟩

example : ∃ m', stringFixup 0 [97, 98, 99, 100, 5, 6, 7, 8] 2 1 2 3 = some m' ∧ m'.length = 8 ∧ m'.drop 6 = [7, 8] ∧
    ∀ i, i < 2 → piece 3 m' i = piece 2 [97, 98, 99, 100, 5, 6, 7, 8] i ++ [0] :=
  strings_widened_partial 0 [97, 98, 99, 100, 5, 6, 7, 8] (by decide) (by decide)
example : stringFixup 0 [97, 98, 99, 100, 5, 6, 7, 8] 2 1 2 3 = some [97, 98, 0, 99, 100, 0, 7, 8] := by decide
example : stringFixup 0 [97, 98, 99, 100, 5] 2 1 2 3 = none := by decide
example : stringFixup 0 [97, 98, 99, 100, 5] 2 1 2 2 = some [97, 98, 99, 100, 5] := by decide
example : ∃ m', convertDType 18 19 [97, 98, 9, 9, 9, 9, 9, 9, 7] 2 = some m' ∧ m'.length = 9 ∧ m'.drop 8 = [7] ∧
    ∀ i, i < 2 → item 4 m' i = item 1 [97, 98, 9, 9, 9, 9, 9, 9, 7] i := string_chars _ (by decide) (bytes := 2) (by decide)

end Riptide.Stack
