import Verif.Arrays.StackCallLemmas
/-! # What `HStack`, `HomogenizeArrays` and `GetUpcastNum` answer (C156) -/
namespace Riptide.Nums.Stack
open Riptide.Nums Riptide.Arrays Riptide.Nums.Info Spec
open Riptide.Convert.Call (Wide Conv safeKern convItem castItem badOf intOf)
open Riptide.Convert.Call.Spec (whole real size)
open Riptide.GroupBy.Entry (CT inOf ctOf)
open Riptide.Mask.Call.Spec (inC)

/-- There is memory for all. -/
def plenty : Room := ⟨true, fun _ => true, true, true⟩

/-- The list of arrays which is passed. -/
def listOf {α : Type} (args : List (Arr × Mem × α)) : Obj := .items (args.map fun x => .array x.1 x.2.1)

/-- What is known of the entry of an array of numbers. -/
def Good (x : Arr × Mem × List Int) (e : Entry) : Prop := e.there = true ∧ e.type = x.1.type ∧ e.ndim = 1 ∧ e.len = x.2.2.length ∧ e.item = x.1.lay.item ∧
  ∀ (i : Nat) v, x.2.2[i]? = some v → Value x.1.type v ∧ loadItem e.type e.data ((i * e.item : Nat) : Int) = some v

theorem build_good {checkrows : Bool} (args : List (Arr × Mem × List Int)) (h : ∀ x ∈ args, Numbers x.1 x.2.1 x.2.2)
    (hc : checkrows = true → ∃ n, ∀ x ∈ args, x.2.2.length = n) :
    ∃ es total, build true (fun _ => true) checkrows true (listOf args) = .ok es total ∧ Each Good args es := by
  obtain ⟨es, h1, h2, h3⟩ : ∃ es, entries checkrows true (fun _ => true) 0 (args.map fun x => .array x.1 x.2.1) = .ok es ∧ es.length = args.length ∧
      ∀ (k : Nat) x, args[k]? = some x → ∃ e, es[k]? = some e ∧ Good x e := by
    generalize 0 = i
    induction args generalizing i with
    | nil => exact ⟨[], rfl, rfl, by simp⟩
    | cons x args ih =>
      obtain ⟨es, g1, g2, g3⟩ := ih (fun y hy => h y (by simp [hy])) (fun hr => (hc hr).imp fun n hn y hy => hn y (by simp [hy])) (i + 1)
      obtain ⟨e, k1, k2⟩ := entry_vals (checkrows := checkrows) (h x (by simp))
      refine ⟨e :: es, ?_, by simp [g2], ?_⟩
      · rw [List.map_cons]
        unfold entries
        rw [k1]
        simp only
        rw [g1]
      · intro k y hk
        cases k with
        | zero => exact ⟨e, rfl, by simp at hk; rw [← hk]; exact k2⟩
        | succ k => exact g3 k y (by simpa using hk)
  refine ⟨es, (es.map (·.item)).sum, ?_, h2, ?_⟩
  · unfold build listOf
    simp only [Obj.list]
    rw [if_neg (by decide), h1]
    simp only
    rw [if_pos]
    cases checkrows with
    | false => unfold sameRows; split <;> rfl
    | true =>
      obtain ⟨n, hn⟩ := hc rfl
      have hall : ∀ e ∈ es, e.len = n := by
        intro e he
        obtain ⟨k, hk, rfl⟩ := List.getElem_of_mem he
        obtain ⟨e', h4, h5⟩ := h3 k _ (List.getElem?_eq_getElem (by omega))
        rw [List.getElem?_eq_getElem hk] at h4
        rw [Option.some.inj h4, h5.2.2.2.1]
        exact hn _ (List.getElem_mem _)
      unfold sameRows
      cases es with
      | nil => rfl
      | cons e es =>
        simp only [Bool.not_true, Bool.false_or, List.all_eq_true, decide_eq_true_eq]
        intro y hy
        rw [hall y hy, hall e (by simp)]
  · intro i x e hx he
    obtain ⟨e', h4, h5⟩ := h3 i x hx
    rw [he] at h4
    rw [Option.some.inj h4]
    exact h5

theorem good_types {args : List (Arr × Mem × List Int)} {es : List Entry} (h : Each Good args es) :
    (es.map fun e => (e.type : Int)) = args.map fun x => (x.1.type : Int) := by
  apply List.ext_getElem (by simp [h.1])
  intro i h1 h2
  simp only [List.length_map] at h1 h2
  simp only [List.getElem_map]
  rw [(h.2 i _ _ (List.getElem?_eq_getElem h2) (List.getElem?_eq_getElem h1)).2.1]

theorem good_lens {args : List (Arr × Mem × List Int)} {es : List Entry} (h : Each Good args es) :
    es.map (·.len) = args.map fun x => x.2.2.length := by
  apply List.ext_getElem (by simp [h.1])
  intro i h1 h2
  simp only [List.length_map] at h1 h2
  simp only [List.getElem_map]
  exact (h.2 i _ _ (List.getElem?_eq_getElem h2) (List.getElem?_eq_getElem h1)).2.2.2.1

/-- C156. Arrays of numbers of one dimension, whatever their strides are: the answer has their values one after the other, in the type which was passed or the
common one, whatever the order in which the threads do the arrays. Missing: arrays of bytes in the other order, slices of one item, floats beyond the target type. -/
theorem hstack_nums_partial (w : Wide) (args : List (Arr × Mem × List Int)) (r : Nat) (given : Int) (calls : List Nat) (workers : Nat) (nt : Bool)
    (hr : r ≤ 13) (hg : given = r ∨ given = -1 ∧ upcast (args.map fun x => (x.1.type : Int)) = r)
    (ha : ∀ x ∈ args, Numbers x.1 x.2.1 x.2.2 ∧ ∀ v ∈ x.2.2, Able w x.1.type r v)
    (h : StackSched workers nt (args.map fun x => x.2.2.length) calls) :
    ∃ yss, hstackCall w plenty (listOf args) given calls = .nums r (yss.flatten.map some) ∧ Each (fun x ys => Each (Carried w x.1.type r) x.2.2 ys) args yss := by
  obtain ⟨es, total, hb, he⟩ := build_good (checkrows := false) args (fun x hx => (ha x hx).1) (by simp)
  obtain ⟨yss, hy1, hy2⟩ := each_choose (R := fun (x : Arr × Mem × List Int) ys =>
      Each (fun v y => Carried w x.1.type r v y ∧ ∃ c, safeKern x.1.type r = some c ∧ convItem w c v = some y) x.2.2 ys) args (by
    intro x hx
    refine each_choose _ ?_
    intro v hv
    obtain ⟨hn, hab⟩ := ha x hx
    obtain ⟨i, hi, rfl⟩ := List.getElem_of_mem hv
    obtain ⟨e, _, _, _, _, _, _, k⟩ := entry_vals (checkrows := false) hn
    obtain ⟨hval, _⟩ := k i _ (List.getElem?_eq_getElem hi)
    obtain ⟨c, c1, y, c2, c3⟩ := carried_item w hn.type hr hval (hab _ hv)
    exact ⟨y, c3, c, c1, c2⟩)
  refine ⟨yss, ?_, hy1, fun i x ys hx hys => ⟨(hy2 i x ys hx hys).1, fun j v y hv hyy => ((hy2 i x ys hx hys).2 j v y hv hyy).1⟩⟩
  have hlist : stackList w plenty given es calls = stackNums w plenty r es calls := by
    unfold stackList
    rcases hg with rfl | ⟨rfl, hu⟩
    · rw [if_pos (by omega)]
      simp
    · rw [if_neg (by simp)]
      have hcm : common es = r := by unfold common; rw [good_types he, hu]
      rw [hcm, if_pos (by omega)]
      simp
  unfold hstackCall
  rw [if_neg (by rcases hg with rfl | ⟨rfl, _⟩ <;> omega)]
  rw [show build plenty.table plenty.copies false true (listOf args) = .ok es total from hb]
  simp only
  rw [hlist]
  have hnb : es.any bad = false := by
    rw [List.any_eq_false]
    intro e hmem
    obtain ⟨i, hi, rfl⟩ := List.getElem_of_mem hmem
    have hi' : i < args.length := by rw [← he.1]; exact hi
    have hgood := he.2 i _ _ (List.getElem?_eq_getElem hi') (List.getElem?_eq_getElem hi)
    have := (ha _ (List.getElem_mem hi')).1.type
    unfold bad
    rw [hgood.2.1, hgood.2.2.1]
    simp
    omega
  have hs : hstack (numRow w r es) (es.map (·.len)) calls = some (yss.flatten.map some) := by
    refine stack_known (workers := workers) (nt := nt) ?_ ?_ (by rw [good_lens he]; exact h)
    · rw [good_lens he]
      apply List.ext_getElem (by simp [hy1])
      intro i h1 h2
      simp only [List.length_map] at h1 h2
      simp only [List.getElem_map]
      exact (hy2 i _ _ (List.getElem?_eq_getElem h2) (List.getElem?_eq_getElem h1)).1
    · intro t i ys y hys hyy
      have ht := (List.getElem?_eq_some_iff.1 hys).1
      have ht' : t < args.length := by rw [← hy1]; exact ht
      have hx := List.getElem?_eq_getElem ht'
      have hte : t < es.length := by rw [he.1]; exact ht'
      have hee := List.getElem?_eq_getElem hte
      have hgood := he.2 t _ _ hx hee
      obtain ⟨k1, k2⟩ := hy2 t _ _ hx hys
      have hi := (List.getElem?_eq_some_iff.1 hyy).1
      have hv := List.getElem?_eq_getElem (show i < args[t].2.2.length by omega)
      obtain ⟨_, c, c1, c2⟩ := k2 i _ _ hv hyy
      have hld := (hgood.2.2.2.2.2 i _ hv).2
      unfold numRow
      rw [hee, Option.bind_some, hgood.2.1, c1, Option.bind_some]
      rw [hgood.2.1] at hld
      rw [hld, Option.bind_some, c2]
  unfold stackNums
  cases es with
  | nil =>
    simp only [List.any_nil]
    rw [hs]
    rfl
  | cons e es =>
    simp only [plenty]
    rw [hnb, hs]
    rfl

theorem upcast_whole (ds : List Int) (hd : ∀ d ∈ ds, 0 ≤ d ∧ d ≤ 6) (hne : ds ≠ []) : 0 ≤ upcast ds ∧ upcast ds ≤ 7 := by
  have hk := mxOk_fold ds (fun d h => by have := hd d h; omega)
  unfold upcast
  generalize hm : ds.foldl mxStep ⟨-1, -1, -1, -1, -1, 0⟩ = m at hk
  obtain ⟨f, i, u, s, o, a⟩ := m
  obtain ⟨hs, ho, ha, hf, hi, hu, hle, mf, mi, mu⟩ := hk
  dsimp only at hs ho ha hf hi hu mf mi mu hle
  subst hs ho ha
  have hf' : f = -1 := by
    rcases mf with h | h
    · exact h
    · have := hd f h
      simp only [List.mem_cons, List.not_mem_nil, or_false] at hf
      omega
  have hi' : i ∈ ([-1, 0, 1, 3, 5] : List Int) := by
    simp only [List.mem_cons, List.not_mem_nil, or_false] at hi ⊢
    rcases mi with h | h
    · omega
    · have := hd i h; omega
  have hu' : u ∈ ([-1, 2, 4, 6] : List Int) := by
    simp only [List.mem_cons, List.not_mem_nil, or_false] at hu ⊢
    rcases mu with h | h
    · omega
    · have := hd u h; omega
  have hsome : i ≠ -1 ∨ u ≠ -1 := by
    cases ds with
    | nil => exact absurd rfl hne
    | cons d ds =>
      have := hle d (by simp)
      have := hd d (by simp)
      omega
  have : ∀ i ∈ ([-1, 0, 1, 3, 5] : List Int), ∀ u ∈ ([-1, 2, 4, 6] : List Int), (i ≠ -1 ∨ u ≠ -1) →
    0 ≤ mxResult ⟨-1, i, u, -1, -1, 0⟩ ∧ mxResult ⟨-1, i, u, -1, -1, 0⟩ ≤ 7 := by decide +kernel
  rw [hf']
  exact this i hi' u hu' hsome

theorem whole_bounds {ty : Nat} {t : IT} (h : whole ty = some t) :
    Arrays.Spec.bounds ty = some (t.lo, t.hi) ∧ Arrays.Spec.sentinel ty = some t.inv ∧ ty ≠ 0 := by
  have hr : 1 ≤ ty ∧ ty ≤ 10 := by unfold whole at h; split at h <;> first | assumption | cases h
  have : ty = 1 ∨ ty = 2 ∨ ty = 3 ∨ ty = 4 ∨ ty = 5 ∨ ty = 6 ∨ ty = 7 ∨ ty = 8 ∨ ty = 9 ∨ ty = 10 := by omega
  rcases this with rfl | rfl | rfl | rfl | rfl | rfl | rfl | rfl | rfl | rfl <;> cases h <;> decide

/-- A type which has all values of the other one keeps them. -/
theorem carried_holds (w : Wide) {ti to : Nat} {x y : Int} (hto : to ≤ 10) (hh : Arrays.Spec.holds ti to = true) (hx : Value ti x) (h : Carried w ti to x y) :
    y = Arrays.Spec.carry ti to x := by
  have norf : ∀ f, real to = some f → False := by
    intro f hf
    have := Riptide.Convert.Call.real_num hf
    omega
  cases h with
  | same => rw [carry_self]
  | ints hs hd hne hok hin =>
    rename_i s d
    obtain ⟨b1, b2, _⟩ := whole_bounds hs
    obtain ⟨c1, c2, _⟩ := whole_bounds hd
    unfold Arrays.Spec.carry
    rw [b2, c2]
    unfold Arrays.Spec.holds at hh
    rw [b1, c1] at hh
    simp only [decide_eq_true_eq] at hh
    unfold Value at hx
    rw [hs] at hx
    simp only at hx
    by_cases he : x = s.inv
    · rw [if_pos (by rw [he]), hok.1 he]
      rfl
    · rw [if_neg (by intro e; exact he (Option.some.inj e).symm)]
      exact hok.2 he ⟨Int.le_trans hh.1 hx.1, Int.le_trans hx.2 hh.2⟩
  | boolToInt _ =>
    unfold Arrays.Spec.carry
    rw [if_neg (by simp [Arrays.Spec.sentinel])]
  | intToBool hs =>
    rename_i s
    have hr : 1 ≤ ti ∧ ti ≤ 10 := by unfold whole at hs; split at hs <;> first | assumption | cases hs
    have : ti = 1 ∨ ti = 2 ∨ ti = 3 ∨ ti = 4 ∨ ti = 5 ∨ ti = 6 ∨ ti = 7 ∨ ti = 8 ∨ ti = 9 ∨ ti = 10 := by omega
    exfalso
    rcases this with rfl | rfl | rfl | rfl | rfl | rfl | rfl | rfl | rfl | rfl <;> revert hh <;> decide
  | intToFloat _ hf _ _ => exact absurd hf fun hf => norf _ hf
  | boolToFloat hf _ => exact absurd hf fun hf => norf _ hf
  | floatToBool hf =>
    exfalso
    rcases Riptide.Convert.Call.real_num hf with rfl | rfl <;> revert hh <;> decide
  | floatToInt hf _ _ _ =>
    exfalso
    have : to = 0 ∨ to = 1 ∨ to = 2 ∨ to = 3 ∨ to = 4 ∨ to = 5 ∨ to = 6 ∨ to = 7 ∨ to = 8 ∨ to = 9 ∨ to = 10 := by omega
    rcases Riptide.Convert.Call.real_num hf with rfl | rfl <;>
      rcases this with rfl | rfl | rfl | rfl | rfl | rfl | rfl | rfl | rfl | rfl | rfl <;> revert hh <;> decide
  | up _ => omega
  | down _ => omega

/-- C156. Booleans and integers of up to 32 bits without a type which is passed: all values are kept, and invalid ones stay invalid. -/
theorem hstack_keeps (w : Wide) (args : List (Arr × Mem × List Int)) (calls : List Nat) (workers : Nat) (nt : Bool)
    (ha : ∀ x ∈ args, Numbers x.1 x.2.1 x.2.2 ∧ x.1.type ≤ 6) (hne : args ≠ [])
    (h : StackSched workers nt (args.map fun x => x.2.2.length) calls) :
    ∃ r : Nat, (∀ x ∈ args, Arrays.Spec.holds x.1.type r = true) ∧
      hstackCall w plenty (listOf args) (-1) calls = .nums r ((args.flatMap fun x => x.2.2.map (Arrays.Spec.carry x.1.type r)).map some) := by
  have hds : ∀ d ∈ args.map (fun x => (x.1.type : Int)), 0 ≤ d ∧ d ≤ 6 := by
    intro d hd
    obtain ⟨x, hx, rfl⟩ := List.mem_map.1 hd
    have := (ha x hx).2
    omega
  obtain ⟨u1, u2⟩ := upcast_whole (args.map fun x => (x.1.type : Int)) hds (by simpa using hne)
  obtain ⟨r, hr⟩ : ∃ r : Nat, upcast (args.map fun x => (x.1.type : Int)) = r := ⟨_, (Int.toNat_of_nonneg u1).symm⟩
  have hr7 : r ≤ 7 := by omega
  have hh : ∀ x ∈ args, Arrays.Spec.holds x.1.type r = true := by
    intro x hx
    rw [← hr]
    refine upcast_holds_small _ (fun d hd => ?_) _ (List.mem_map.2 ⟨x, hx, rfl⟩)
    have := hds d hd
    omega
  refine ⟨r, hh, ?_⟩
  obtain ⟨yss, h1, h2, h3⟩ := hstack_nums_partial w args r (-1) calls workers nt (by omega) (.inr ⟨rfl, hr⟩) (by
    intro x hx
    obtain ⟨n1, n2⟩ := ha x hx
    have nor : ∀ f, real x.1.type = some f → False := by
      intro f hf
      have := Riptide.Convert.Call.real_num hf
      omega
    exact ⟨n1, fun v _ => .inr ⟨by omega, by omega, fun f d hf => absurd hf fun hf => nor f hf, fun f d hf => absurd hf fun hf => nor f hf⟩⟩) h
  rw [h1]
  congr 2
  rw [List.flatMap_def]
  congr 1
  apply List.ext_getElem (by simp [h2])
  intro t t1 t2
  have t3 : t < args.length := by rw [← h2]; exact t1
  simp only [List.getElem_map]
  obtain ⟨k1, k2⟩ := h3 t _ _ (List.getElem?_eq_getElem t3) (List.getElem?_eq_getElem t1)
  apply List.ext_getElem (by simp [k1])
  intro i i1 i2
  have i3 : i < args[t].2.2.length := by rw [← k1]; exact i1
  simp only [List.getElem_map]
  have hn := (ha _ (List.getElem_mem t3)).1
  obtain ⟨_, _, _, _, _, _, _, hv⟩ := entry_vals (checkrows := false) hn
  exact carried_holds w (by omega) (hh _ (List.getElem_mem t3)) (hv i _ (List.getElem?_eq_getElem i3)).1
    (k2 i _ _ (List.getElem?_eq_getElem i3) (List.getElem?_eq_getElem i1))

/-- C156. `HomogenizeArrays` of arrays of numbers of one dimension with as many rows: those of the type are given back, the others are made anew with their
values. Missing: as for `HStack`, and booleans beside other types, whose false becomes invalid. -/
theorem homogenize_nums_partial (w : Wide) (args : List (Arr × Mem × List Int)) (r n : Nat) (given : Int)
    (hr : r ≤ 13) (hg : given = r ∨ given = -1 ∧ upcast (args.map fun x => (x.1.type : Int)) = r)
    (ha : ∀ x ∈ args, Numbers x.1 x.2.1 x.2.2 ∧ x.2.2.length = n ∧ (x.1.type ≠ 0 ∨ r = 0) ∧ ∀ v ∈ x.2.2, Able w x.1.type r v) :
    ∃ ps, homogenizeCall w true (fun _ => true) (listOf args) (.number given) = .list ps ∧ ps.length = args.length ∧
      ∀ (t : Nat) x p, args[t]? = some x → ps[t]? = some p → (x.1.type = r → p = .same t) ∧
        (x.1.type ≠ r → ∃ ys, p = .made r ys ∧ Each (Carried w x.1.type r) x.2.2 ys) := by
  obtain ⟨es, total, hb, he⟩ := build_good (checkrows := true) args (fun x hx => (ha x hx).1) (fun _ => ⟨n, fun x hx => (ha x hx).2.1⟩)
  have hty : (asType (.number given)).1 = given ∧ (asType (.number given)).2 = false := by
    unfold asType
    simp only
    rw [if_pos (by rcases hg with rfl | ⟨rfl, _⟩ <;> omega)]
    refine ⟨?_, rfl⟩
    refine IT.wrap_of_inRange _ (by decide) ?_
    rw [IT.InRange, show IT.i32.lo = -2147483648 from by decide, show IT.i32.hi = 2147483647 from by decide]
    rcases hg with rfl | ⟨rfl, _⟩ <;> omega
  obtain ⟨ps, hp1, hp2⟩ := each_choose (R := fun (q : (Arr × Mem × List Int) × Nat) p =>
      (q.1.1.type = r → p = Piece.same q.2) ∧ (q.1.1.type ≠ r → ∃ ys, p = .made r ys ∧
        Each (fun v y => Carried w q.1.1.type r v y ∧ ∃ c, safeKern q.1.1.type r = some c ∧ convItem w c v = some y) q.1.2.2 ys)) args.zipIdx (by
    intro q hq
    have hx : q.1 ∈ args := (List.mem_zipIdx' hq).2 ▸ List.getElem_mem _
    by_cases hq0 : q.1.1.type = r
    · exact ⟨.same q.2, fun _ => rfl, fun h => absurd hq0 h⟩
    · obtain ⟨ys, hys⟩ := each_choose (R := fun v y => Carried w q.1.1.type r v y ∧ ∃ c, safeKern q.1.1.type r = some c ∧ convItem w c v = some y) q.1.2.2 (by
        intro v hv
        obtain ⟨hn, _, _, hab⟩ := ha _ hx
        obtain ⟨i, hi, rfl⟩ := List.getElem_of_mem hv
        obtain ⟨e, _, _, _, _, _, _, k⟩ := entry_vals (checkrows := false) hn
        obtain ⟨hval, _⟩ := k i _ (List.getElem?_eq_getElem hi)
        obtain ⟨c, c1, y, c2, c3⟩ := carried_item w hn.type hr hval (hab _ hv)
        exact ⟨y, c3, c, c1, c2⟩)
      exact ⟨.made r ys, fun h => absurd h hq0, fun _ => ⟨ys, rfl, hys⟩⟩)
  rw [List.length_zipIdx] at hp1
  refine ⟨ps, ?_, hp1, ?_⟩
  · unfold homogenizeCall
    rw [hb]
    simp only
    rw [hty.1, hty.2, if_neg (by rcases hg with rfl | ⟨rfl, _⟩ <;> omega)]
    have hrr : (if given = -1 then common es else given) = r := by
      rcases hg with rfl | ⟨rfl, hu⟩
      · rw [if_neg (by omega)]
      · rw [if_pos rfl]
        unfold common
        rw [good_types he, hu]
    rw [hrr]
    unfold homList
    rw [if_neg (by omega), if_neg (by omega)]
    have hm : es.zipIdx.mapM (fun x => homPiece w r x.2 x.1) = some (ps.map some) := by
      have hmp : ps.map some = es.zipIdx.map fun x => ps[x.2]? := by
        apply List.ext_getElem (by simp [hp1, he.1])
        intro i h1 h2
        simp only [List.length_map] at h1
        simp [h1]
      rw [hmp]
      apply mapM_some
      intro q hq
      obtain ⟨hi, hqe⟩ := List.mem_zipIdx' hq
      obtain ⟨e, i⟩ := q
      simp only at hi hqe ⊢
      have hi' : i < args.length := by rw [← he.1]; exact hi
      have hip : i < ps.length := by omega
      have hgood := he.2 i _ e (List.getElem?_eq_getElem hi') (by rw [List.getElem?_eq_getElem hi, hqe])
      obtain ⟨hsame, hmade⟩ := hp2 i (args[i], i) ps[i] (by simp [hi']) (List.getElem?_eq_getElem hip)
      simp only at hsame hmade
      rw [List.getElem?_eq_getElem hip]
      unfold homPiece
      by_cases hq0 : args[i].1.type = r
      · rw [if_neg (by rw [hgood.2.1, hq0]; simp), if_pos hgood.1, hsame hq0]
      · obtain ⟨ys, hys, hk1, hk2⟩ := hmade hq0
        have h13 := (ha _ (List.getElem_mem hi')).1.type
        have hb0 := (ha _ (List.getElem_mem hi')).2.2.1
        rw [if_pos (by rw [hgood.2.1]; omega), if_neg (by rw [hgood.1]; simp), if_neg (by omega), hys]
        obtain ⟨c, hc⟩ : ∃ c, safeKern args[i].1.type r = some c := by
          have := (Riptide.Convert.Call.kernel_exists h13 hr).1
          exact Option.isSome_iff_exists.1 this
        rw [hgood.2.1, show ((r : Int)).toNat = r from by simp, hc]
        simp only
        have hmm : (List.range e.len).mapM (fun (j : Nat) => (loadItem args[i].1.type e.data ((j * e.item : Nat) : Int)).bind (homItem w args[i].1.type c)) =
            some ((List.range e.len).map fun j => ys.getD j 0) := by
          apply mapM_some
          intro j hj
          have hj := List.mem_range.1 hj
          rw [hgood.2.2.2.1] at hj
          have hv := List.getElem?_eq_getElem hj
          have hjy : j < ys.length := by omega
          have hyy := List.getElem?_eq_getElem hjy
          obtain ⟨_, c', c1, c2⟩ := hk2 j _ _ hv hyy
          rw [hc] at c1
          rw [← Option.some.inj c1] at c2
          have hld := (hgood.2.2.2.2.2 j _ hv).2
          rw [hgood.2.1] at hld
          rw [hld, Option.bind_some]
          have : homItem w args[i].1.type c args[i].2.2[j] = convItem w c args[i].2.2[j] := by
            unfold homItem
            split
            · rw [if_neg (by omega)]
            · rfl
          rw [this, c2]
          simp [List.getD, hjy]
        rw [hmm, Option.map_some]
        congr 3
        rw [hgood.2.2.2.1, ← hk1]
        apply List.ext_getElem (by simp)
        intro j j1 j2
        simp [List.getD, j2]
    rw [hm]
    simp only [Bool.false_or]
    rw [if_neg (by simp), List.filterMap_map]
    congr 1
    simp
  · intro t x p hx hp
    obtain ⟨k1, k2⟩ := hp2 t (x, t) p (by simp [hx]) hp
    refine ⟨k1, fun hne => ?_⟩
    obtain ⟨ys, y1, y2, y3⟩ := k2 hne
    exact ⟨ys, y1, y2, fun i v y hv hy => (y3 i v y hv hy).1⟩

end Riptide.Nums.Stack
