import Verif.Arrays.StackCallSpec
import Verif.Arrays.InfoProps
import Verif.Arrays.StackProps
import Verif.Convert.CallKern
/-! Lemmas for C156. -/
namespace Riptide.Nums.Stack
open Riptide.Nums Riptide.Arrays Riptide.Nums.Info Spec
open Riptide.Convert.Call (Wide Conv safeKern convItem castItem badOf intOf whole_ct real_ct whole_bits same_type safe_item_ints safe_item_to_float safe_item_from_float item_to_bool safe_item_from_bool item_floats)
open Riptide.Convert.Call.Spec (whole real size)
open Riptide.GroupBy.Entry (CT inOf ctOf)
open Riptide.Mask.Call.Spec (inC)

/-- The bytes and the kind of a type which is converted. -/
theorem type_facts {ty : Nat} (h : ty ≤ 13) : ∃ T, inOf ty = some T ∧ T.size = size ty ∧
    (∀ t, intOf T = some t → t.bits = 8 * size ty ∧ 0 < t.bits ∧ (whole ty = some t ∨ ty = 0 ∧ t = .i8)) ∧
    (intOf T = none → whole ty = none ∧ ty ≠ 0) := by
  have : ty = 0 ∨ ty = 1 ∨ ty = 2 ∨ ty = 3 ∨ ty = 4 ∨ ty = 5 ∨ ty = 6 ∨ ty = 7 ∨ ty = 8 ∨ ty = 9 ∨ ty = 10 ∨ ty = 11 ∨ ty = 12 ∨ ty = 13 := by omega
  rcases this with rfl | rfl | rfl | rfl | rfl | rfl | rfl | rfl | rfl | rfl | rfl | rfl | rfl | rfl <;>
    refine ⟨_, rfl, rfl, ?_, ?_⟩ <;> first
      | (intro t ht; cases ht; done)
      | (intro t ht; cases ht; decide)
      | (intro ht; cases ht; done)
      | (intro _; decide)

/-- A value is read back. -/
theorem value_back {ty : Nat} {v : Int} (h : ty ≤ 13) (hv : Value ty v) : valueOf ty (v % 2 ^ (8 * size ty)).toNat = v := by
  obtain ⟨T, hT, hs, hi, hn⟩ := type_facts h
  have h0 := Int.emod_nonneg v (Int.ne_of_gt (IT.pow_pos (8 * size ty)))
  unfold valueOf
  rw [hT, Option.bind_some]
  cases ht : intOf T with
  | some t =>
    obtain ⟨hb, hp, hw⟩ := hi t ht
    simp only
    rw [Int.toNat_of_nonneg h0, ← hb, wrap_emod]
    refine IT.wrap_of_inRange t hp ?_
    unfold Value at hv
    rcases hw with hw | ⟨rfl, rfl⟩
    · rw [hw] at hv
      exact hv
    · rw [show whole 0 = none from rfl] at hv
      simp only [if_pos] at hv
      rcases hv with rfl | rfl <;> decide
  | none =>
    obtain ⟨hw, hz⟩ := hn ht
    simp only
    rw [Int.toNat_of_nonneg h0]
    unfold Value at hv
    rw [hw] at hv
    simp only [if_neg hz] at hv
    exact Int.emod_eq_of_lt hv.1 hv.2

theorem load_val {ty : Nat} {m : Mem} {o v : Int} (h : ty ≤ 13) (hv : HasVal ty false m o v) : loadItem ty m o = some v := by
  obtain ⟨T, hT, hs, _⟩ := type_facts h
  unfold loadItem
  rw [hT]
  simp only
  rw [hs, load_bits hv.2, Option.map_some, value_back h hv.1]

theorem allAt_map {α β : Type} {P : Int → α → Prop} {Q : Int → β → Prop} {f : α → β} (hf : ∀ o x, P o x → Q o (f x)) :
    ∀ (os : List Int) (xs : List α), AllAt P os xs → AllAt Q os (xs.map f)
  | [], [], _ => trivial
  | o :: os, x :: xs, h => ⟨hf o x h.1, allAt_map hf os xs h.2⟩
  | [], _ :: _, h => h.elim
  | _ :: _, [], h => h.elim

/-- What passes with the check of rows passes without it. -/
theorem entry_loose {a : Arr} {m : Mem} {e : Entry} (h1 : entry true true true (.array a m) = .ok e) : entry false true true (.array a m) = .ok e := by
  unfold entry at h1 ⊢
  simp only at h1 ⊢
  cases ht : taken true true a m with
  | none => rw [ht] at h1; cases h1
  | some p =>
    obtain ⟨b, mb, c⟩ := p
    rw [ht] at h1
    simp only at h1 ⊢
    unfold entryOf at h1 ⊢
    split at h1
    · cases h1
    · rename_i h20
      rw [if_neg h20]
      split at h1
      · cases h1
      · rename_i s ss hs
        split at h1
        · cases h1
        · split at h1
          · cases h1
          · rename_i hne
            rw [if_neg (by simp), if_neg hne]
            exact h1

/-- One array: its entry has its values one after the other. -/
theorem entry_vals {checkrows : Bool} {a : Arr} {m : Mem} {vs : List Int} (h : Numbers a m vs) : ∃ e, entry checkrows true true (.array a m) = .ok e ∧
    e.there = true ∧ e.type = a.type ∧ e.ndim = 1 ∧ e.len = vs.length ∧ e.item = a.lay.item ∧
    ∀ (i : Nat) v, vs[i]? = some v → Value a.type v ∧ loadItem e.type e.data ((i * e.item : Nat) : Int) = some v := by
  obtain ⟨n, hn⟩ := h.oneDim
  obtain ⟨e, h1, h2, h3, h4⟩ := entry_good (x := .array a m) hn
  obtain ⟨g1, g2, g3, g4, g5, g6⟩ := h2
  have hb : Bits a.lay.item a m (vs.map fun v => (v % 2 ^ (8 * size a.type)).toNat) := by
    unfold Bits
    rw [h.item]
    exact allAt_map (fun o v hv => hv.2) _ _ h.vals
  obtain ⟨k1, k2⟩ := g6 _ hb
  obtain ⟨k3, k4⟩ := allAt_get h.vals
  refine ⟨e, ?_, g1, g2, g4, by rw [g5, ← k1, List.length_map], g3, ?_⟩
  · cases checkrows with
    | true => exact h1
    | false => exact entry_loose h1
  · intro i v hv
    have hlt := (List.getElem?_eq_some_iff.1 hv).1
    have ho : (inC a.lay.dims a.lay.strides)[i]? = some _ := List.getElem?_eq_getElem (by omega)
    have hval := k4 i _ v ho hv
    refine ⟨hval.1, ?_⟩
    rw [g2, g3]
    refine load_val h.type ⟨hval.1, ?_⟩
    have := k2 i _ (by rw [List.getElem?_map, hv]; rfl)
    rw [h.native] at this
    rwa [h.item] at this ⊢

/-- The entries of a list, one after the other. -/
theorem entries_each {checkrows convert : Bool} {room : Nat → Bool} {P : Arg → Entry → Prop} : ∀ (l : List Arg) (i : Nat),
    (∀ x ∈ l, ∀ j, ∃ e, entry checkrows convert (room j) x = .ok e ∧ P x e) →
    ∃ es, entries checkrows convert room i l = .ok es ∧ es.length = l.length ∧ ∀ (k : Nat) x, l[k]? = some x → ∃ e, es[k]? = some e ∧ P x e
  | [], _, _ => ⟨[], rfl, rfl, by simp⟩
  | x :: l, i, h => by
    obtain ⟨e, h1, h2⟩ := h x (by simp) i
    obtain ⟨es, g1, g2, g3⟩ := entries_each l (i + 1) (fun y hy => h y (by simp [hy]))
    refine ⟨e :: es, ?_, by simp [g2], ?_⟩
    · unfold entries
      rw [h1]
      simp only
      rw [g1]
    · intro k y hk
      cases k with
      | zero => exact ⟨e, rfl, by simp at hk; rw [← hk]; exact h2⟩
      | succ k => exact g3 k y (by simpa using hk)

/-- What one item becomes. -/
theorem carried_item (w : Wide) {ti to : Nat} {x : Int} (h1 : ti ≤ 13) (h2 : to ≤ 13) (hx : Value ti x) (ha : Able w ti to x) :
    ∃ c, safeKern ti to = some c ∧ ∃ y, convItem w c x = some y ∧ Carried w ti to x y := by
  rcases ha with rfl | ⟨hi, ho, hfi, hff⟩
  · obtain ⟨e, _, e2⟩ := same_type w h1
    exact ⟨_, e, x, e2 x, .same _ _⟩
  by_cases hne : ti = to
  · subst hne
    obtain ⟨e, _, e2⟩ := same_type w h1
    exact ⟨_, e, x, e2 x, .same _ _⟩
  have kind : ∀ ty, ty ≤ 12 → ty = 0 ∨ (∃ t, whole ty = some t) ∨ (ty = 11 ∨ ty = 12) ∧ ∃ f, real ty = some f := by
    intro ty hty
    by_cases h0 : ty = 0
    · exact .inl h0
    · right
      by_cases h10 : ty ≤ 10
      · left
        unfold whole
        rw [if_pos (by omega)]
        exact ⟨_, rfl⟩
      · right
        have : ty = 11 ∨ ty = 12 := by omega
        refine ⟨this, ?_⟩
        rcases this with rfl | rfl <;> exact ⟨_, rfl⟩
  have pat : ∀ f, real ti = some f → 0 ≤ x := by
    intro f hf
    have h11 := Riptide.Convert.Call.real_num hf
    unfold Value at hx
    rw [show whole ti = none from by rcases h11 with rfl | rfl <;> rfl] at hx
    simp only [if_neg (show ti ≠ 0 by omega)] at hx
    exact hx.1
  rcases kind ti hi with h0 | ⟨s, hs⟩ | ⟨hr, f, hf⟩
  · subst h0
    have hx' : x = 0 ∨ x = 1 := by simpa [Value, whole] using hx
    obtain ⟨b1, b2⟩ := safe_item_from_bool w (to := to) hx'
    rcases kind to ho with h0' | ⟨d, hd⟩ | ⟨_, g, hg⟩
    · omega
    · obtain ⟨c, c1, c2⟩ := b1 d hd
      exact ⟨c, c1, x, c2, .boolToInt hd⟩
    · obtain ⟨c, c1, y, c2, c3⟩ := b2 g hg
      exact ⟨c, c1, y, c2, .boolToFloat hg c3⟩
  · have hx' : s.InRange x := by simpa only [Value, hs] using hx
    rcases kind to ho with h0' | ⟨d, hd⟩ | ⟨_, g, hg⟩
    · subst h0'
      obtain ⟨c, c1, _, c3⟩ := (item_to_bool w (ti := ti) hne).1 s hs
      exact ⟨c, c1, _, c3 x, .intToBool hs⟩
    · obtain ⟨c, c1, y, c2, c3, c4⟩ := safe_item_ints w hs hd hx'
      exact ⟨c, c1, y, c2, .ints hs hd hne c3 c4⟩
    · obtain ⟨c, c1, y, c2, c3, c4⟩ := safe_item_to_float w hs hg x
      exact ⟨c, c1, y, c2, .intToFloat hs hg c3 c4⟩
  · have hp := pat f hf
    obtain ⟨n, rfl⟩ : ∃ n : Nat, x = n := ⟨x.toNat, by omega⟩
    rcases kind to ho with h0' | ⟨d, hd⟩ | ⟨hr', g, hg⟩
    · subst h0'
      obtain ⟨c, c1, _, c3⟩ := (item_to_bool w (ti := ti) hne).2 f hf
      exact ⟨c, c1, _, c3 n, .floatToBool hf⟩
    · obtain ⟨c, c1, y, c2, c3, c4⟩ := safe_item_from_float w hf hd n (fun hfin => by simpa using hfi f d hf hd (by simpa using hfin))
      exact ⟨c, c1, y, c2, .floatToInt hf hd c3 c4⟩
    · obtain ⟨k1, k2⟩ := hff f g hf hg
      obtain ⟨i1, i2, i3, _⟩ := item_floats w
      rcases hr with rfl | rfl
      · rcases hr' with rfl | rfl
        · omega
        · obtain ⟨y, hy⟩ := Option.isSome_iff_exists.1 k1
          exact ⟨_, i1, y, (i3 n).1.trans hy, .up hy⟩
      · rcases hr' with rfl | rfl
        · obtain ⟨y, hy⟩ := Option.isSome_iff_exists.1 k2
          exact ⟨_, i2, y, (i3 n).2.trans hy, .down hy⟩
        · omega

/-- Choosing for each item of a list. -/
theorem each_choose {α β : Type} {R : α → β → Prop} : ∀ (l : List α), (∀ x ∈ l, ∃ y, R x y) → ∃ k : List β, Each R l k
  | [], _ => ⟨[], rfl, by simp⟩
  | x :: l, h => by
    obtain ⟨y, hy⟩ := h x (by simp)
    obtain ⟨k, h1, h2⟩ := each_choose l (fun z hz => h z (by simp [hz]))
    refine ⟨y :: k, by simp [h1], ?_⟩
    intro i a b ha hb
    cases i with
    | zero => simp at ha hb; rw [← ha, ← hb]; exact hy
    | succ i => exact h2 i a b (by simpa using ha) (by simpa using hb)

theorem flatten_range {α : Type} (yss : List (List α)) : yss.flatten =
    (List.range yss.length).flatMap fun t => (yss.getD t []) := by
  rw [List.flatMap_def]
  congr 1
  apply List.ext_getElem (by simp)
  intro i h1 h2
  simp [List.getD, h1]

/-- Stacking rows which are known. -/
theorem stack_known {α : Type} {f : Nat → Nat → Option α} {lens : List Nat} {yss : List (List α)} {calls : List Nat} {workers : Nat} {nt : Bool} [Inhabited α]
    (hl : yss.map (·.length) = lens) (hf : ∀ (t i : Nat) ys y, yss[t]? = some ys → ys[i]? = some y → f t i = some y) (h : StackSched workers nt lens calls) :
    hstack f lens calls = some (yss.flatten.map some) := by
  subst hl
  rw [hstack_rows f (fun t i => (yss.getD t []).getD i default) _ calls workers nt ?_ h]
  · congr 2
    rw [flatten_range, List.length_map]
    rw [List.flatMap_def, List.flatMap_def]
    congr 1
    apply List.map_congr_left
    intro t ht
    have ht := List.mem_range.1 ht
    have e : (yss.map (·.length)).getD t 0 = (yss.getD t []).length := by simp [List.getD, ht]
    rw [e]
    generalize yss.getD t [] = ys
    apply List.ext_getElem (by simp)
    intro i h1 h2
    simp [List.getD, h2]
  · intro t i ht hi
    rw [List.length_map] at ht
    have e : (yss.map (·.length)).getD t 0 = (yss.getD t []).length := by simp [List.getD, ht]
    rw [e] at hi
    refine hf t i (yss.getD t []) _ (by simp [List.getD, ht]) ?_
    generalize yss.getD t [] = ys at hi ⊢
    simp [List.getD, hi]

theorem load_str {m : Mem} {o : Int} {x : List (BitVec 8)} (h : Has m o x) : loadStr m o x.length = some x := by
  unfold loadStr
  have : (List.range x.length).mapM (fun (j : Nat) => m (o + j)) = some ((List.range x.length).map fun j => x.getD j 0) := by
    apply mapM_some
    intro j hj
    have hj := List.mem_range.1 hj
    rw [h j hj]
    simp [List.getD, hj]
  rw [this]
  congr 1
  apply List.ext_getElem (by simp)
  intro i h1 h2
  simp [List.getD, h2]

end Riptide.Nums.Stack
