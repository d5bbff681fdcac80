import Verif.Bins.CallProps
/-! # Where `BinsToCutsBSearch` goes wrong (C139) -/
namespace Riptide.Bins.Call
open Riptide.Work Riptide.Binary Riptide.Unary
open Riptide.Convert.Call (Arr)
open Riptide.Convert.Call.Spec (At)
open Riptide.Bins.Call.Spec (Ext point Right Ordered Proper Packed Answers Item Has number whole shape)

/-- An array in C order with these items, for the examples. -/
def mk (ty item : Nat) (dims : List Nat) (l : List Int) : Arr :=
  ⟨⟨dims, cStrides item dims, item⟩, ty, fun o => if 0 ≤ o ∧ o % item = 0 then l[(o / item).toNat]? else none⟩

theorem mk_packed {ty item : Nat} {dims : List Nat} {l : List Int} (hi : 0 < item) (hl : l.length = prod dims) (h : ∀ x ∈ l, Item ty x) :
    Packed (mk ty item dims l) := by
  refine ⟨.inl (alloc_c dims item), cStrides_length item dims, ?_⟩
  intro idx hb
  have h1 : At (mk ty item dims l) idx = l[cPos idx dims]? := by
    show (if _ then _ else _) = _
    rw [show offs idx (mk ty item dims l).lay.strides = (cPos idx dims : Int) * item from offs_c item idx dims hb]
    have h0 : (0 : Int) ≤ (cPos idx dims : Int) * item := Int.mul_nonneg (by omega) (by omega)
    rw [if_pos ⟨h0, Int.mul_emod_left _ _⟩, Int.mul_ediv_cancel _ (by omega)]
    rfl
  have hlt := cPos_lt idx dims hb
  rw [← hl] at hlt
  refine ⟨l[cPos idx dims], ?_, h _ (List.getElem_mem hlt)⟩
  rw [h1]
  exact List.getElem?_eq_getElem hlt

theorem mk_bins {ty item : Nat} {l : List Int} {qs : List Ext} (hi : 0 < item) (hn : l.map (number ty) = qs.map some) (h : ∀ x ∈ l, Item ty x) :
    Spec.Bins (mk ty item [qs.length] l) qs := by
  have hlen : l.length = qs.length := by simpa using congrArg List.length hn
  refine ⟨⟨rfl, by simp [mk, cStrides, prod]⟩, ?_⟩
  intro i q hq
  have h1 : At (mk ty item [qs.length] l) [i] = l[i]? := by
    show (if _ then _ else _) = _
    have e : offs [i] (mk ty item [qs.length] l).lay.strides = (i : Int) * item := by simp [mk, cStrides, prod, offs]
    rw [e]
    have h0 : (0 : Int) ≤ (i : Int) * item := Int.mul_nonneg (by omega) (by omega)
    rw [if_pos ⟨h0, Int.mul_emod_left _ _⟩, Int.mul_ediv_cancel _ (by omega)]
    rfl
  have h2 : (l.map (number ty))[i]? = some (some q) := by rw [hn, List.getElem?_map, hq]; rfl
  rw [List.getElem?_map] at h2
  obtain ⟨x, hx, hx2⟩ := Option.map_eq_some_iff.1 h2
  exact ⟨x, by rw [h1, hx], h x (List.mem_of_getElem? hx), hx2⟩

/-- The list has items of the type. -/
def itemsOf (ty : Nat) (l : List Int) : Bool :=
  match whole ty, Spec.real ty with
  | some t, _ => l.all fun x => decide (t.InRange x)
  | none, some f => l.all fun x => decide (0 ≤ x ∧ x < (2 ^ (1 + f.eb + f.mb) : Nat))
  | none, none => false

theorem items_of {ty : Nat} {l : List Int} (h : itemsOf ty l = true) : ∀ x ∈ l, Item ty x := by
  intro x hx
  unfold itemsOf at h
  unfold Item
  cases h1 : whole ty with
  | some t =>
    rw [h1] at h
    exact of_decide_eq_true (List.all_eq_true.1 h x hx)
  | none =>
    cases h2 : Spec.real ty with
    | some f =>
      rw [h1, h2] at h
      exact of_decide_eq_true (List.all_eq_true.1 h x hx)
    | none =>
      rw [h1, h2] at h
      cases h

/-- The items of the reply. -/
def answers : Reply → Option (List (Option Int))
  | .done _ _ items => some items
  | _ => none

/-! ### The theorems are about real calls -/

attribute [local irreducible] call Answers

/-- -0.5, 0.5 and 1.5. -/
def halves : List Int := [0xBFE0000000000000, 0x3FE0000000000000, 0x3FF8000000000000]

/-- The numbers they stand for. -/
def halfEdges : List Ext := [.fin (-1/2), .fin (1/2), .fin (3/2)]

theorem halves_bins : Spec.Bins (mk 12 8 [3] halves) halfEdges :=
  mk_bins (qs := halfEdges) (by decide) (by decide +kernel) (items_of (by decide +kernel))

theorem halves_sorted : Sorted 0 (mk 12 8 [3] halves) halfEdges :=
  ⟨halves_bins, by unfold halfEdges; simp, by unfold Ordered halfEdges; decide +kernel, .inl (by decide)⟩

theorem below_two {v : Int} (h1 : (-1/2 : Rat) ≤ v) (h2 : (v : Rat) ≤ 3/2) : v.natAbs < 2 ^ 53 := by
  have e1 : ((-1 : Int) : Rat) < v := by
    have : ((-1 : Int) : Rat) < -1/2 := by decide +kernel
    grind
  have e2 : (v : Rat) < ((2 : Int) : Rat) := by
    have : (3/2 : Rat) < ((2 : Int) : Rat) := by decide +kernel
    grind
  have e1 := Rat.intCast_lt_intCast.1 e1
  have e2 := Rat.intCast_lt_intCast.1 e2
  omega

/-- The integers from -2 to 3 in two rows are put in bins with the edges -0.5, 0.5 and 1.5. -/
example : Answers (mk 7 8 [2, 3] [-2, -1, 0, 1, 2, 3]) (outSize halfEdges.length) (Right 0 7 halfEdges)
    (call 0 (mk 7 8 [2, 3] [-2, -1, 0, 1, 2, 3]) (mk 12 8 [3] halves) none) := by
  refine search_rounded_partial (a := mk 7 8 [2, 3] [-2, -1, 0, 1, 2, 3]) (p := -1/2) (r := 3/2) (workers := 1) (nt := true) (.inl rfl) (by decide)
    (.inr rfl) (by decide) (mk_packed (by decide) rfl (items_of (by decide +kernel))) halves_sorted ?_ ?_ ?_ ?_ ?_ ?_ ?_
  · rfl
  · rfl
  · show IT.InRange _ _; decide +kernel
  · show IT.InRange _ _; decide +kernel
  · exact ⟨fun _ => ⟨.inl (by decide +kernel), .inl (by decide +kernel)⟩, fun h => absurd h (by decide), fun h => absurd h (by decide)⟩
  · intro idx v _ _ h1 h2
    exact below_two h1 h2
  · exact .direct (.inr rfl)

example : answers (call 0 (mk 7 8 [2, 3] [-2, -1, 0, 1, 2, 3]) (mk 12 8 [3] halves) none) = some [some 0, some 0, some 1, some 2, some 0, some 0] := by
  decide +kernel

/-- Two integer types: int16 values in int64 bins, insertion points on the right. -/
example : Answers (mk 3 2 [4] [-5, 0, 7, 900]) (outSize 3) (Right 2 3 [.fin (-5 : Int), .fin (7 : Int), .fin (7 : Int)])
    (call 2 (mk 3 2 [4] [-5, 0, 7, 900]) (mk 7 8 [3] [-5, 7, 7]) none) := by
  refine search_whole_partial (a := mk 3 2 [4] [-5, 0, 7, 900]) (workers := 1) (nt := true) (.inr (.inr rfl)) (by decide) (by decide) (by decide) (by decide)
    (mk_packed (by decide) rfl (items_of (by decide +kernel)))
    ⟨mk_bins (qs := [.fin (-5 : Int), .fin (7 : Int), .fin (7 : Int)]) (by decide) (by decide +kernel) (items_of (by decide +kernel)), by simp,
      by unfold Ordered; decide +kernel, .inl (by decide)⟩ ⟨?_, ?_⟩ (.direct (.inr rfl))
  · intro q hq
    cases hq
    exact ⟨-5, items_of (l := [-5]) (by decide +kernel) _ (by simp), rfl⟩
  · intro q hq
    cases hq
    exact ⟨7, items_of (l := [7]) (by decide +kernel) _ (by simp), rfl⟩

example : answers (call 2 (mk 3 2 [4] [-5, 0, 7, 900]) (mk 7 8 [3] [-5, 7, 7]) none) = some [some 1, some 1, some 3, some 3] := by decide +kernel

/-- `float` values, a NaN and an infinity among them, in `float` bins. -/
example : Answers (mk 11 4 [3] [0x7FC00000, 0x7F800000, 0x3F800000]) (outSize 2) (Right 1 11 [.fin 0, .fin 2])
    (call 1 (mk 11 4 [3] [0x7FC00000, 0x7F800000, 0x3F800000]) (mk 11 4 [2] [0, 0x40000000]) none) :=
  search_same_partial (a := mk 11 4 [3] [0x7FC00000, 0x7F800000, 0x3F800000]) (b := mk 11 4 [2] [0, 0x40000000]) (workers := 1) (nt := true) (.inr (.inl rfl)) rfl (by decide)
    (mk_packed (by decide) rfl (items_of (by decide +kernel)))
    ⟨mk_bins (qs := [.fin 0, .fin 2]) (by decide) (by decide +kernel) (items_of (by decide +kernel)), by simp,
      by unfold Ordered; decide +kernel, .inl (by decide)⟩ (.direct (.inr rfl))

example : answers (call 1 (mk 11 4 [3] [0x7FC00000, 0x7F800000, 0x3F800000]) (mk 11 4 [2] [0, 0x40000000]) none) = some [some 2, some 2, some 1] := by
  decide +kernel

/-- `float` values in `double` bins whose ends are numbers of type `float`; the middle one, 0.1, is not. -/
example : Answers (mk 11 4 [2] [0x3DCCCCCC, 0x3DCCCCCD]) (outSize 3)
    (Right 1 11 [.fin 0, .fin (3602879701896397 / 36028797018963968), .fin 1])
    (call 1 (mk 11 4 [2] [0x3DCCCCCC, 0x3DCCCCCD]) (mk 12 8 [3] [0, 0x3FB999999999999A, 0x3FF0000000000000]) none) := by
  refine search_float_partial (a := mk 11 4 [2] [0x3DCCCCCC, 0x3DCCCCCD]) (workers := 1) (nt := true) (.inr (.inl rfl)) rfl rfl
    (mk_packed (by decide) rfl (items_of (by decide +kernel)))
    ⟨mk_bins (qs := [.fin 0, .fin (3602879701896397 / 36028797018963968), .fin 1]) (by decide) (by decide +kernel) (items_of (by decide +kernel)), by simp,
      by unfold Ordered; decide +kernel, .inl (by decide)⟩ ⟨?_, ?_⟩ (.direct (.inr rfl))
  · intro q hq
    cases hq
    exact ⟨0, items_of (l := [0]) (by decide +kernel) _ (by simp), by decide +kernel⟩
  · intro q hq
    cases hq
    exact ⟨0x3F800000, items_of (l := [0x3F800000]) (by decide +kernel) _ (by simp), by decide +kernel⟩

example : answers (call 1 (mk 11 4 [2] [0x3DCCCCCC, 0x3DCCCCCD]) (mk 12 8 [3] [0, 0x3FB999999999999A, 0x3FF0000000000000]) none) =
    some [some 1, some 2] := by decide +kernel

/-! ### What is refused -/

/-- Bins of type `bool`, unsigned ones of 8, 16 or 32 bits, `long double` and all later types are refused, unless both arrays are of one type of text. -/
theorem bins_refused (m : Int) (a b : Arr) (par : Option (List Nat)) (h : b.ty ∉ binTypes) (hs : ¬ (a.ty = b.ty ∧ (a.ty = 18 ∨ a.ty = 19))) :
    call m a b par = .refused := by
  have hb : binType b.ty = none := by
    unfold binType
    split <;> first | rfl | (rename_i e; rw [e] at h; exact absurd (by decide) h)
  unfold call
  rw [if_neg hs, hb]
  cases modeOf m <;> cases dataType a.ty <;> rfl

example : (2 : Nat) ∉ binTypes ∧ (4 : Nat) ∉ binTypes ∧ (6 : Nat) ∉ binTypes ∧ (0 : Nat) ∉ binTypes := by decide

/-- So are values of later types than `long double`. -/
theorem values_refused (m : Int) (a b : Arr) (par : Option (List Nat)) (h : 13 < a.ty) (hs : ¬ (a.ty = b.ty ∧ (a.ty = 18 ∨ a.ty = 19))) :
    call m a b par = .refused := by
  have ha : dataType a.ty = none := by
    unfold dataType
    split <;> first | rfl | (rename_i e; rw [e] at h; exact absurd h (by decide))
  unfold call
  rw [if_neg hs, ha]
  cases modeOf m <;> rfl

/-- And every mode but the three. -/
theorem mode_refused (m : Int) (a b : Arr) (par : Option (List Nat)) (h : m < 0 ∨ 2 < m) (hs : ¬ (a.ty = b.ty ∧ (a.ty = 18 ∨ a.ty = 19))) :
    call m a b par = .refused := by
  have hm : modeOf m = none := by
    unfold modeOf
    rw [if_neg (by omega), if_neg (by omega), if_neg (by omega)]
  unfold call
  rw [if_neg hs, hm]

/-- Strings are never refused for the mode: the number of the mode is not looked at. -/
theorem text_any_mode (m m' : Int) (a b : Arr) (par : Option (List Nat)) (h : a.ty = b.ty ∧ (a.ty = 18 ∨ a.ty = 19)) :
    call m a b par = .text ∧ call m' a b par = .text := by
  unfold call
  rw [if_pos h, if_pos h]
  exact ⟨rfl, rfl⟩

/-! ### Where the answers are wrong or undefined -/

/-- **C139, counterexample.** Without bins the item before the array is read, even when there are no values. -/
theorem no_bins_undefined {m : Int} (hm : m = 0 ∨ m = 1 ∨ m = 2) {a b : Arr} (ha : a.ty ≤ 13) (hb : b.ty ∈ binTypes) (h0 : b.lay.len = 0)
    (hmem : b.mem (-(b.lay.item : Int)) = none) (par : Option (List Nat)) : call m a b par = .undef := by
  obtain ⟨mode, h1⟩ := mode_of hm
  obtain ⟨T, h2⟩ := data_type ha
  obtain ⟨B, h3⟩ := bin_type hb
  rw [call_run ha h1 h2 h3]
  unfold run ends
  simp only [h0]
  have e : cell b (((0 : Nat) : Int) - 1) = none := by
    unfold cell
    rw [show (((0 : Nat) : Int) - 1) * (b.lay.item : Int) = -(b.lay.item : Int) by omega]
    exact hmem
  rw [e]

example : call 1 (mk 7 8 [0] []) (mk 7 8 [0] []) none = .undef := no_bins_undefined (.inr (.inl rfl)) (by decide) (by decide) rfl (by decide) _

/-- **C139, counterexample.** `False` is in no bin: between -1 and 5 it gets bin 0, as if it were outside. -/
theorem cut_false_wrong : answers (call 0 (mk 0 1 [2] [0, 1]) (mk 1 1 [2] [-1, 5]) none) = some [some 0, some 1] ∧
    ¬ Right 0 0 [.fin (-1), .fin 5] 0 0 := by
  refine ⟨by decide +kernel, ?_⟩
  intro h
  have := (h.1 rfl).2 (.inl rfl) (.fin 0) (by decide +kernel)
  rcases this with ⟨_, ⟨e, h1, h2⟩ | ⟨e, h1, h2⟩⟩ | ⟨h1, _⟩ | ⟨i, h1, h2, _⟩
  · cases h1; exact absurd h2 (by decide +kernel)
  · cases h1; exact absurd h2 (by decide +kernel)
  · exact absurd h1 (by decide)
  · omega

/-- **C139, counterexample.** int8 values and an int64 end, 300, which becomes 44: 50 is put behind all the bins. -/
theorem wrapped_end_wrong : answers (call 1 (mk 1 1 [1] [50]) (mk 7 8 [2] [0, 300]) none) = some [some 2] ∧
    point false [.fin 0, .fin 300] (number 1 50) = 1 := by decide +kernel

/-- **C139, counterexample.** Integers and the edges 0.5 and 1.5: 0, which is outside, gets bin 1; on the right 1 is put behind 1.5. -/
theorem rounded_end_wrong :
    answers (call 0 (mk 5 4 [1] [0]) (mk 12 8 [2] [0x3FE0000000000000, 0x3FF8000000000000]) none) = some [some 1] ∧
    answers (call 2 (mk 5 4 [1] [1]) (mk 12 8 [2] [0x3FE0000000000000, 0x3FF8000000000000]) none) = some [some 2] ∧
    [0x3FE0000000000000, 0x3FF8000000000000].map (number 12) = [some (.fin (1/2)), some (.fin (3/2))] ∧
    ¬ Right 0 5 [.fin (1/2), .fin (3/2)] 0 1 ∧ point true [.fin (1/2), .fin (3/2)] (number 5 1) = 1 := by
  refine ⟨by decide +kernel, by decide +kernel, by decide +kernel, ?_, by decide +kernel⟩
  intro h
  have := (h.1 rfl).2 (.inr (by decide +kernel)) (.fin 0) (by decide +kernel)
  rcases this with ⟨h1, _⟩ | ⟨_, e, h1, h2, _⟩ | ⟨i, h1, h2, a, b, h3, h4, h5, _⟩
  · exact absurd h1 (by decide)
  · cases h1; exact absurd h2 (by decide +kernel)
  · have : i = 1 := by omega
    subst this
    cases h3
    exact absurd h5 (by decide +kernel)

/-- **C139, counterexample.** Integer values and an end which is a NaN, infinite or too large: the cast is undefined, with any values. -/
theorem end_undefined : call 1 (mk 5 4 [1] [0]) (mk 12 8 [2] [0, 0x7FF8000000000000]) none = .undef ∧
    call 1 (mk 5 4 [1] [0]) (mk 12 8 [2] [0, 0x7FF0000000000000]) none = .undef ∧
    call 1 (mk 5 4 [1] [0]) (mk 12 8 [2] [0, 0x4202A05F20000000]) none = .undef ∧
    number 12 0x4202A05F20000000 = some (.fin 10000000000) := by decide +kernel

/-- **C139, counterexample.** The largest int64 as last bin becomes 2⁶³ as a `double`, so that the value 2⁶³ is taken to be between the ends, and its
cast is undefined. -/
theorem value_undefined : call 1 (mk 12 8 [1] [0x43E0000000000000]) (mk 7 8 [2] [0, 2 ^ 63 - 1]) none = .undef ∧
    number 12 0x43E0000000000000 = some (.fin (2 ^ 63)) := by decide +kernel

/-- **C139, counterexample.** 2⁵³+1 in `double` bins 2⁵³ and 2⁵³+2 is taken for 2⁵³. -/
theorem large_value_wrong : answers (call 1 (mk 7 8 [1] [2 ^ 53 + 1]) (mk 12 8 [2] [0x4340000000000000, 0x4340000000000001]) none) = some [some 0] ∧
    [0x4340000000000000, 0x4340000000000001].map (number 12) = [some (.fin (2 ^ 53)), some (.fin (2 ^ 53 + 2))] ∧
    point false [.fin (2 ^ 53), .fin (2 ^ 53 + 2)] (number 7 (2 ^ 53 + 1)) = 1 := by decide +kernel

/-- **C139, counterexample.** The `double` 0.1 is below the `float` 0.1, but is put behind it. -/
theorem narrow_bins_wrong : answers (call 2 (mk 12 8 [1] [0x3FB999999999999A]) (mk 11 4 [3] [0, 0x3DCCCCCD, 0x3F800000]) none) = some [some 2] ∧
    [0, 0x3DCCCCCD, 0x3F800000].map (number 11) = [some (.fin 0), some (.fin (13421773 / 134217728)), some (.fin 1)] ∧
    point true [.fin 0, .fin (13421773 / 134217728), .fin 1] (number 12 0x3FB999999999999A) = 1 := by decide +kernel

/-- **C139, counterexample.** The `float` 0.1 is above the `double` 0.1, but as the first bin becomes a `float` it is put before it. -/
theorem narrow_end_wrong : answers (call 1 (mk 11 4 [1] [0x3DCCCCCD]) (mk 12 8 [2] [0x3FB999999999999A, 0x3FF0000000000000]) none) = some [some 0] ∧
    [0x3FB999999999999A, 0x3FF0000000000000].map (number 12) = [some (.fin (3602879701896397 / 36028797018963968)), some (.fin 1)] ∧
    point false [.fin (3602879701896397 / 36028797018963968), .fin 1] (number 11 0x3DCCCCCD) = 1 := by decide +kernel

/-- **C139, counterexample.** A NaN among the bins is never above and never below a value: the search does not end (here: it uses up its steps). -/
theorem nan_bin_undefined : call 1 (mk 12 8 [1] [0x3FF0000000000000]) (mk 12 8 [3] [0, 0x7FF8000000000000, 0x4000000000000000]) none = .undef := by
  decide +kernel

/-- Every second of the items 1, 100, 2, 100. -/
def sparse (ty : Nat) : Arr := { mk ty 8 [2] [1, 100, 2, 100] with lay := ⟨[2], [16], 8⟩ }

/-- **C139, counterexample.** The distances of the items are ignored, in the values and in the bins: of the values 1 and 2 the second is read as 100, and
with the bins 1 and 2 the value 50 is put between 1 and 100. -/
theorem sparse_wrong :
    answers (call 1 (sparse 7) (mk 7 8 [2] [0, 10]) none) = some [some 1, some 2] ∧
    answers (call 1 (mk 7 8 [1] [50]) (sparse 7) none) = some [some 1] ∧
    At (sparse 7) [0] = some 1 ∧ At (sparse 7) [1] = some 2 ∧
    point false [.fin 0, .fin 10] (number 7 2) = 1 ∧ point false [.fin 1, .fin 2] (number 7 50) = 2 := by decide +kernel

end Riptide.Bins.Call
