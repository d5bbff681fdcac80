import Verif.Binary.Loops
/-! What holds of comparisons of two arrays. -/
namespace Riptide.Binary
open Riptide.Work Spec

theorem vecCompare_eq {n : Nat} (w : Nat) (vec : List (BitVec n) → List (BitVec n) → List (BitVec 8))
    (cmp : BitVec n → BitVec n → Bool) (mode : Mode) (a b : List (BitVec n)) (len : Nat) (x y : Nat → BitVec n)
    (hw : 0 < w) (hwn : w ≤ 256 / n)
    (hvec : ∀ l r : List (BitVec n), l.length = w → r.length = w → vec l r = List.zipWith (fun p q => byteOf (cmp p q)) l r)
    (ha : Feeds (mode = .first) len a x) (hb : Feeds (mode = .second) len b y) :
    vecCompare w vec cmp mode a b len = some ((List.range len).map fun (i : Nat) => byteOf (cmp (x i) (y i))) := by
  cases mode with
  | none =>
    simp only [Feeds, reduceCtorEq, decide_false, Bool.false_eq_true, if_false] at ha hb
    rw [vecCompare]
    apply blockLoop_eq w len _ _ _ hw
    · intro i hi
      rw [loadu_feeds w i len a x ha hi, loadu_feeds w i len b y hb hi]
      simp only [Option.bind_eq_bind, Option.bind_some, Option.pure_def]
      rw [hvec _ _ (by simp) (by simp), zipWith_range']
    · intro i hi
      rw [ha i hi, hb i hi]; rfl
  | first =>
    simp only [Feeds, reduceCtorEq, decide_false, decide_true, Bool.false_eq_true, if_false, if_true] at ha hb
    obtain ⟨v, rfl, hv⟩ := ha
    rw [vecCompare]
    rw [loadu_scalar w v hwn]
    simp only [Option.bind_eq_bind, Option.bind_some]
    apply blockLoop_eq w len _ _ _ hw
    · intro i hi
      rw [loadu_feeds w i len b y hb hi]
      simp only [Option.bind_some, Option.pure_def]
      rw [hvec _ _ (by simp) (by simp), replicate_range' v (i * w) w, zipWith_range']
      simp only [hv]
    · intro i hi
      rw [hb i hi, hv i]
      have : (List.replicate (256 / n) v)[0]? = some v := by
        rw [List.getElem?_replicate, if_pos (by omega)]
      rw [this]; rfl
  | second =>
    simp only [Feeds, reduceCtorEq, decide_false, decide_true, Bool.false_eq_true, if_false, if_true] at ha hb
    obtain ⟨v, rfl, hv⟩ := hb
    rw [vecCompare]
    rw [loadu_scalar w v hwn]
    simp only [Option.bind_eq_bind, Option.bind_some]
    apply blockLoop_eq w len _ _ _ hw
    · intro i hi
      rw [loadu_feeds w i len a x ha hi]
      simp only [Option.bind_some, Option.pure_def]
      rw [hvec _ _ (by simp) (by simp), replicate_range' v (i * w) w, zipWith_range']
      simp only [hv]
    · intro i hi
      rw [ha i hi, hv i]
      have : (List.replicate (256 / n) v)[0]? = some v := by
        rw [List.getElem?_replicate, if_pos (by omega)]
      rw [this]; rfl

theorem compareAny_eq {n : Nat} (cmp : BitVec n → BitVec n → Bool) (mode : Mode) (a b : List (BitVec n)) (len : Nat)
    (x y : Nat → BitVec n) (hn : 0 < 256 / n) (ha : Feeds (mode = .first) len a x) (hb : Feeds (mode = .second) len b y) :
    compareAny cmp mode a b len = some ((List.range len).map fun (i : Nat) => byteOf (cmp (x i) (y i))) := by
  cases mode with
  | none =>
    simp only [Feeds, reduceCtorEq, decide_false, Bool.false_eq_true, if_false] at ha hb
    exact mapM_some_range _ _ _ fun i hi => by rw [ha i hi, hb i hi]; rfl
  | first =>
    simp only [Feeds, reduceCtorEq, decide_false, decide_true, Bool.false_eq_true, if_false, if_true] at ha hb
    obtain ⟨v, rfl, hv⟩ := ha
    have : (List.replicate (256 / n) v)[0]? = some v := by
        rw [List.getElem?_replicate, if_pos (by omega)]
    rw [compareAny]
    rw [this]
    exact mapM_some_range _ _ _ fun i hi => by rw [hb i hi, hv i]; rfl
  | second =>
    simp only [Feeds, reduceCtorEq, decide_false, decide_true, Bool.false_eq_true, if_false, if_true] at ha hb
    obtain ⟨v, rfl, hv⟩ := hb
    have : (List.replicate (256 / n) v)[0]? = some v := by
        rw [List.getElem?_replicate, if_pos (by omega)]
    rw [compareAny]
    rw [this]
    exact mapM_some_range _ _ _ fun i hi => by rw [ha i hi, hv i]; rfl

theorem four_blocks {α : Type} (x : Nat → α) (i : Nat) :
    (List.range' (4 * i * 8) 8).map x ++ (List.range' ((4 * i + 1) * 8) 8).map x ++ (List.range' ((4 * i + 2) * 8) 8).map x
      ++ (List.range' ((4 * i + 3) * 8) 8).map x = (List.range' (i * 32) 32).map x := by
  simp only [← List.map_append]
  congr 1
  have h1 : 4 * i * 8 = i * 32 := by omega
  have h2 : (4 * i + 1) * 8 = i * 32 + 8 := by omega
  have h3 : (4 * i + 2) * 8 = i * 32 + 16 := by omega
  have h4 : (4 * i + 3) * 8 = i * 32 + 24 := by omega
  rw [h1, h2, h3, h4]
  have e1 := List.range'_append (s := i * 32) (m := 8) (n := 8) (step := 1)
  have e2 := List.range'_append (s := i * 32) (m := 16) (n := 8) (step := 1)
  have e3 := List.range'_append (s := i * 32) (m := 24) (n := 8) (step := 1)
  simp only [Nat.one_mul] at e1 e2 e3
  rw [e1, e2, e3]

theorem compareInt32S_eq (mode : Mode) (a b : List (BitVec 32)) (len : Nat) (x y : Nat → BitVec 32)
    (ha : Feeds (mode = .first) len a x) (hb : Feeds (mode = .second) len b y) :
    compareInt32S mode a b len = some ((List.range len).map fun (i : Nat) => byteOf (sCmp .eq (x i) (y i))) := by
  have hl : ∀ (m : List (BitVec 32)) (z : Nat → BitVec 32), (∀ i : Nat, i < len → m[i]? = some (z i)) →
      ∀ i j : Nat, i * 32 + 32 ≤ len → j < 4 → loadu 8 (4 * i + j) m = some ((List.range' ((4 * i + j) * 8) 8).map z) :=
    fun m z h i j hi hj => loadu_feeds 8 _ len m z h (by omega)
  cases mode with
  | none =>
    simp only [Feeds, reduceCtorEq, decide_false, Bool.false_eq_true, if_false] at ha hb
    rw [compareInt32S]
    apply blockLoop_eq 32 len _ _ _ (by decide)
    · intro i hi
      have h0a := hl a x ha i 0 hi (by decide)
      have h0b := hl b y hb i 0 hi (by decide)
      rw [Nat.add_zero] at h0a h0b
      rw [h0a, h0b, hl a x ha i 1 hi (by decide), hl b y hb i 1 hi (by decide),
        hl a x ha i 2 hi (by decide), hl b y hb i 2 hi (by decide), hl a x ha i 3 hi (by decide), hl b y hb i 3 hi (by decide)]
      simp only [Option.bind_eq_bind, Option.bind_some, Option.pure_def]
      rw [comp32iEqs_lanes _ _ _ _ _ _ _ _ (by simp) (by simp) (by simp) (by simp) (by simp) (by simp) (by simp) (by simp),
        four_blocks, four_blocks, zipWith_range']
    · intro i hi
      rw [ha i hi, hb i hi]; rfl
  | first =>
    simp only [Feeds, reduceCtorEq, decide_false, decide_true, Bool.false_eq_true, if_false, if_true] at ha hb
    obtain ⟨v, rfl, hv⟩ := ha
    rw [compareInt32S]
    rw [loadu_scalar 8 v (by decide)]
    simp only [Option.bind_eq_bind, Option.bind_some]
    apply blockLoop_eq 32 len _ _ _ (by decide)
    · intro i hi
      have h0b := hl b y hb i 0 hi (by decide)
      rw [Nat.add_zero] at h0b
      rw [h0b, hl b y hb i 1 hi (by decide), hl b y hb i 2 hi (by decide), hl b y hb i 3 hi (by decide)]
      simp only [Option.bind_some, Option.pure_def]
      rw [comp32iEqs_lanes _ _ _ _ _ _ _ _ (by simp) (by simp) (by simp) (by simp) (by simp) (by simp) (by simp) (by simp),
        four_blocks]
      have : List.replicate 8 v ++ List.replicate 8 v ++ List.replicate 8 v ++ List.replicate 8 v
          = (List.range' (i * 32) 32).map fun _ => v := by
        rw [← replicate_range', List.replicate_append_replicate, List.replicate_append_replicate, List.replicate_append_replicate]
      rw [this, zipWith_range']
      simp only [hv]
    · intro i hi
      rw [hb i hi, hv i]
      have : (List.replicate (256 / 32) v)[0]? = some v := by simp
      rw [this]; rfl
  | second =>
    simp only [Feeds, reduceCtorEq, decide_false, decide_true, Bool.false_eq_true, if_false, if_true] at ha hb
    obtain ⟨v, rfl, hv⟩ := hb
    rw [compareInt32S]
    rw [loadu_scalar 8 v (by decide)]
    simp only [Option.bind_eq_bind, Option.bind_some]
    apply blockLoop_eq 32 len _ _ _ (by decide)
    · intro i hi
      have h0a := hl a x ha i 0 hi (by decide)
      rw [Nat.add_zero] at h0a
      rw [h0a, hl a x ha i 1 hi (by decide), hl a x ha i 2 hi (by decide), hl a x ha i 3 hi (by decide)]
      simp only [Option.bind_some, Option.pure_def]
      rw [comp32iEqs_lanes _ _ _ _ _ _ _ _ (by simp) (by simp) (by simp) (by simp) (by simp) (by simp) (by simp) (by simp),
        four_blocks]
      have : List.replicate 8 v ++ List.replicate 8 v ++ List.replicate 8 v ++ List.replicate 8 v
          = (List.range' (i * 32) 32).map fun _ => v := by
        rw [← replicate_range', List.replicate_append_replicate, List.replicate_append_replicate, List.replicate_append_replicate]
      rw [this, zipWith_range']
      simp only [hv]
    · intro i hi
      rw [ha i hi, hv i]
      have : (List.replicate (256 / 32) v)[0]? = some v := by simp
      rw [this]; rfl

/-- The comparison a loop applies to each row. -/
def Kernel.rowCmp (k : Kernel) (op : Cmp) (x y : BitVec k.bits) : Bool :=
  match k with
  | .float => cmpF (n := 32) .f32 op x y
  | .double => cmpF (n := 64) .f64 op x y
  | .int32S => sCmp (n := 32) .eq x y
  | .int32 => sCmp (n := 32) op x y
  | .int64 => sCmp (n := 64) op x y
  | .int8 => sCmp (n := 8) op x y
  | .int16 => sCmp (n := 16) op x y
  | .any8 => uCmp (n := 8) op x y
  | .any16 => uCmp (n := 16) op x y
  | .any32 => uCmp (n := 32) op x y
  | .any64 => uCmp (n := 64) op x y
  | .signedUnsigned => cmpSU op x y
  | .unsignedSigned => cmpUS op x y

theorem fpred_cmpF {n : Nat} (f : FT) (op : Cmp) (x y : BitVec n) : fpred f op x.toNat y.toNat = cmpF f op x y := by
  cases op <;> simp only [fpred, cmpF, FT.eq, FT.lt] <;>
    cases f.isNan x.toNat <;> cases f.isNan y.toNat <;> simp
  all_goals
    rw [Bool.eq_iff_iff]
    simp only [decide_eq_true_eq, Bool.or_eq_true]
    omega

/-- Every loop compares every row, whatever the length and whether or not an operand is a scalar. -/
theorem run_eq (k : Kernel) (op : Cmp) (mode : Mode) (a b : List (BitVec k.bits)) (len : Nat) (x y : Nat → BitVec k.bits)
    (ha : Feeds (mode = .first) len a x) (hb : Feeds (mode = .second) len b y) :
    k.run op mode a b len = some ((List.range len).map fun (i : Nat) => byteOf (k.rowCmp op (x i) (y i))) := by
  cases k with
  | float =>
    refine vecCompare_eq (n := 32) 8 _ _ mode a b len x y (by decide) (by decide) (fun l r hl hr => ?_) ha hb
    rw [compF_lanes (by decide) _ _ _ _ hl hr]
    exact zipWith_congr' (fun p q => by rw [fpred_cmpF]) _ _
  | double =>
    refine vecCompare_eq (n := 64) 4 _ _ mode a b len x y (by decide) (by decide) (fun l r hl hr => ?_) ha hb
    rw [compF_lanes (by decide) _ _ _ _ hl hr]
    exact zipWith_congr' (fun p q => by rw [fpred_cmpF]) _ _
  | int32S => exact compareInt32S_eq mode a b len x y ha hb
  | int32 =>
    exact vecCompare_eq (n := 32) 8 _ _ mode a b len x y (by decide) (by decide)
      (fun l r hl hr => comp32i_lanes (by decide) op l r hl hr) ha hb
  | int64 =>
    exact vecCompare_eq (n := 64) 4 _ _ mode a b len x y (by decide) (by decide)
      (fun l r hl hr => comp32i_lanes (by decide) op l r hl hr) ha hb
  | int8 =>
    exact vecCompare_eq (n := 8) 32 _ _ mode a b len x y (by decide) (by decide)
      (fun l r hl hr => comp8i_lanes op l r hl hr) ha hb
  | int16 =>
    exact vecCompare_eq (n := 16) 16 _ _ mode a b len x y (by decide) (by decide)
      (fun l r hl hr => comp16i_lanes op l r hl hr) ha hb
  | any8 => exact compareAny_eq (n := 8) _ mode a b len x y (by decide) ha hb
  | any16 => exact compareAny_eq (n := 16) _ mode a b len x y (by decide) ha hb
  | any32 => exact compareAny_eq (n := 32) _ mode a b len x y (by decide) ha hb
  | any64 => exact compareAny_eq (n := 64) _ mode a b len x y (by decide) ha hb
  | signedUnsigned => exact compareAny_eq (n := 64) _ mode a b len x y (by decide) ha hb
  | unsignedSigned => exact compareAny_eq (n := 64) _ mode a b len x y (by decide) ha hb

/-! ## C90 -/

theorem sCmp_rel {n : Nat} (op : Cmp) (a b : BitVec n) : sCmp op a b = rel op a.toInt b.toInt := by
  cases op <;> rfl

theorem uCmp_rel {n : Nat} (op : Cmp) (a b : BitVec n) : uCmp op a b = rel op a.toNat b.toNat := by
  cases op <;> simp only [uCmp, rel] <;> congr 1 <;> rw [eq_iff_iff] <;> omega

/-- Whether equal, is the same for signed and unsigned numbers. -/
theorem sCmp_eqLike {n : Nat} (op : Cmp) (a b : BitVec n) (h : eqLike op = true) : sCmp op a b = rel op a.toNat b.toNat := by
  have : (a.toInt = b.toInt) ↔ ((a.toNat : Int) = b.toNat) := by
    rw [BitVec.toInt_inj]
    constructor
    · rintro rfl; rfl
    · intro h; exact BitVec.eq_of_toNat_eq (by omega)
  cases op <;> simp [eqLike] at h <;> simp only [sCmp, rel, this, ne_eq]

theorem msb_or (x y : BitVec 64) : (x ||| y).msb = (x.msb || y.msb) := by simp

theorem cmpSU_rel (op : Cmp) (x y : BitVec 64) : cmpSU op x y = rel op x.toInt y.toNat := by
  have hx := BitVec.toInt_lt (x := x)
  have hy := y.isLt
  have hxm : x.msb = decide (x.toInt < 0) := BitVec.msb_eq_toInt
  have hym : y.msb = decide (2 ^ 63 ≤ y.toNat) := BitVec.msb_eq_decide _
  have hyi : y.msb = false → y.toInt = y.toNat := fun h => BitVec.toInt_eq_toNat_of_msb h
  rw [cmpSU.eq_def, msb_or]
  by_cases h : x.msb = true ∨ y.msb = true
  · have hlt : x.toInt < y.toNat := by
      rcases h with h | h
      · rw [h] at hxm; have := of_decide_eq_true hxm.symm; omega
      · rw [h] at hym; have := of_decide_eq_true hym.symm; omega
    rw [if_pos (by simpa using h)]
    cases op <;> simp [rel] <;> omega
  · rw [if_neg (by simpa using h), sCmp_rel, hyi (by simp at h; exact h.2)]

theorem cmpUS_rel (op : Cmp) (x y : BitVec 64) (hop : eqLike op = false ∨ (x.msb = false ∧ y.msb = false)) :
    cmpUS op x y = rel op x.toNat y.toInt := by
  have hx := BitVec.toInt_lt (x := y)
  have hxm : y.msb = decide (y.toInt < 0) := BitVec.msb_eq_toInt
  have hym : x.msb = decide (2 ^ 63 ≤ x.toNat) := BitVec.msb_eq_decide _
  have hyi : y.msb = false → y.toInt = y.toNat := fun h => BitVec.toInt_eq_toNat_of_msb h
  have hxi : x.msb = false → x.toInt = x.toNat := fun h => BitVec.toInt_eq_toNat_of_msb h
  by_cases h : x.msb = true ∨ y.msb = true
  · have hlt : y.toInt < x.toNat := by
      rcases h with h | h
      · rw [h] at hym; have := of_decide_eq_true hym.symm; omega
      · rw [h] at hxm; have := of_decide_eq_true hxm.symm; omega
    have ho : eqLike op = false := by
      rcases hop with ho | ⟨h1, h2⟩
      · exact ho
      · rcases h with h | h
        · rw [h1] at h; nomatch h
        · rw [h2] at h; nomatch h
    have hm : (x ||| y).msb = true := by rw [msb_or]; simpa using h
    cases op <;> simp [eqLike] at ho <;> simp only [cmpUS, hm, if_true, rel] <;> simp <;> omega
  · have h1 : x.msb = false := by cases hb : x.msb <;> simp_all
    have h2 : y.msb = false := by cases hb : y.msb <;> simp_all
    have hm : (x ||| y).msb = false := by rw [msb_or, h1, h2]; rfl
    rw [hyi h2]
    cases op <;> simp only [cmpUS, hm, Bool.false_eq_true, if_false, uCmp_rel, sCmp_rel, hyi h2, hxi h1]

/-- Whether the type with number `d` is one of the four 64-bit integer types. -/
def wide (d : Nat) : Prop := 7 ≤ d ∧ d ≤ 10

/-- When a comparison of 64-bit numbers of different signedness is right. -/
def MixedOk {n : Nat} (op : Cmp) (mode : Mode) (t1 t2 : Nat) (x y : BitVec n) : Prop :=
  t1 % 2 = t2 % 2 ∨ (x.msb = false ∧ y.msb = false) ∨ (mode ≠ .first ∧ (t1 % 2 = 1 ∨ eqLike op = false))

theorem cmpF_relF {n : Nat} (f : FT) (op : Cmp) (x y : BitVec n) : cmpF f op x y = relF f op x.toNat y.toNat := by
  cases op <;> simp only [relF, cmpF, FT.eq, FT.lt, rel] <;>
    cases f.isNan x.toNat <;> cases f.isNan y.toNat <;> simp
  all_goals
    rw [Bool.eq_iff_iff]
    simp only [decide_eq_true_eq, Bool.or_eq_true]
    omega

theorem toInt_of_msb {n : Nat} {x : BitVec n} (h : x.msb = false) : x.toInt = x.toNat := BitVec.toInt_eq_toNat_of_msb h

/-- The loop chosen for integers compares the numbers. -/
theorem rowCmp_int (op : Cmp) (mode : Mode) (t1 t2 : Nat) (k : Kernel) (hk : getComparison op mode t1 t2 = some k)
    (i1 i2 : IT) (h1 : tyOf t1 = some (.int i1)) (h2 : tyOf t2 = some (.int i2)) (hs : t1 = t2 ∨ (wide t1 ∧ wide t2))
    (x y : BitVec k.bits) (hm : MixedOk op mode t1 t2 x y) :
    k.bits = i1.bits ∧ k.bits = i2.bits ∧ k.rowCmp op x y = rel op (valOf i1 x) (valOf i2 y) := by
  rcases hs with rfl | ⟨w1, w2⟩
  · have hi : i1 = i2 := by rw [h1] at h2; injection h2 with h2; injection h2
    subst hi
    clear h2 hm
    have hd : t1 ≤ 10 := by
      unfold tyOf at h1; split at h1 <;> first | (simp at h1; done) | omega
    have hlit : t1 = 0 ∨ t1 = 1 ∨ t1 = 2 ∨ t1 = 3 ∨ t1 = 4 ∨ t1 = 5 ∨ t1 = 6 ∨ t1 = 7 ∨ t1 = 8 ∨ t1 = 9 ∨ t1 = 10 := by omega
    rcases hlit with rfl | rfl | rfl | rfl | rfl | rfl | rfl | rfl | rfl | rfl | rfl <;>
      (injection h1 with h1; injection h1 with h1; subst h1) <;>
      simp only [getComparison, ne_eq, not_true_eq_false, false_and, and_false, if_false, ite_self] at hk <;>
      (try split at hk) <;> (injection hk with hk; subst hk)
    all_goals
      refine ⟨rfl, rfl, ?_⟩
      first
      | exact sCmp_rel _ _ _
      | exact uCmp_rel _ _ _
      | (rename_i h; exact sCmp_eqLike _ _ _ h)
      | (rename_i h; subst h; exact sCmp_rel .eq x y)
  · have hl1 : t1 = 7 ∨ t1 = 8 ∨ t1 = 9 ∨ t1 = 10 := by unfold wide at w1; omega
    have hl2 : t2 = 7 ∨ t2 = 8 ∨ t2 = 9 ∨ t2 = 10 := by unfold wide at w2; omega
    have hsu : ∀ x y : BitVec 64, x.msb = false → y.msb = false →
        uCmp op x y = rel op (valOf .i64 x) (valOf .u64 y) ∧ uCmp op x y = rel op (valOf .u64 x) (valOf .i64 y)
        ∧ sCmp op x y = rel op (valOf .i64 x) (valOf .u64 y) ∧ sCmp op x y = rel op (valOf .u64 x) (valOf .i64 y) := by
      intro x y hx hy
      simp only [uCmp_rel, sCmp_rel, valOf, IT.i64, IT.u64, if_true, Bool.false_eq_true, if_false, toInt_of_msb hx, toInt_of_msb hy,
        and_self]
    rcases hl1 with rfl | rfl | rfl | rfl <;> rcases hl2 with rfl | rfl | rfl | rfl <;>
      (injection h1 with h1; injection h1 with h1; subst h1; injection h2 with h2; injection h2 with h2; subst h2) <;>
      cases mode <;>
      simp [getComparison] at hk <;>
      (try split at hk) <;> (try injection hk with hk) <;> subst hk
    all_goals
      refine ⟨rfl, rfl, ?_⟩
      first
      | exact sCmp_rel _ _ _
      | exact uCmp_rel _ _ _
      | exact cmpSU_rel _ _ _
      | (rename_i h; exact sCmp_eqLike _ _ _ h)
      | (refine cmpUS_rel _ _ _ ?_
         simp [MixedOk] at hm
         rcases hm with hm | hm
         · exact .inr hm
         · exact .inl hm)
      | (simp [MixedOk] at hm
         first
         | exact (hsu x y hm.1 hm.2).1
         | exact (hsu x y hm.1 hm.2).2.1
         | exact (hsu x y hm.1 hm.2).2.2.1
         | exact (hsu x y hm.1 hm.2).2.2.2)

/-- C90: comparing integers of the same type, or 64-bit integers when `MixedOk` holds of every row, gives 1 exactly
in the rows where the relation holds between the numbers, for every length, with or without a scalar, and
under every schedule of the workers. -/
theorem compare_int_partial (op : Cmp) (mode : Mode) (t1 t2 : Nat) (k : Kernel) (hk : getComparison op mode t1 t2 = some k)
    (i1 i2 : IT) (h1 : tyOf t1 = some (.int i1)) (h2 : tyOf t2 = some (.int i2)) (hs : t1 = t2 ∨ (wide t1 ∧ wide t2))
    (len : Nat) (a b : List (BitVec k.bits)) (x y : Nat → BitVec k.bits)
    (ha : Feeds (mode = .first) len a x) (hb : Feeds (mode = .second) len b y)
    (hm : ∀ i, i < len → MixedOk op mode t1 t2 (x i) (y i))
    {workers : Nat} {nt : Bool} {par : Option (List Nat)} (h : ChunkSched workers len nt par) :
    twoStub (k.run op mode) mode a b len par
      = some ((List.range len).map fun (i : Nat) => some (if rel op (valOf i1 (x i)) (valOf i2 (y i)) then 1#8 else 0#8)) := by
  rw [twoStub_eq (k.run op mode) mode a b len x y
    (fun (i : Nat) => if rel op (valOf i1 (x i)) (valOf i2 (y i)) then 1#8 else 0#8) ?_ ha hb h]
  · rw [List.map_map]; rfl
  · intro a' b' s l hl ha' hb'
    rw [run_eq k op mode a' b' l _ _ ha' hb']
    congr 1
    apply List.map_congr_left
    intro i hi
    rw [(rowCmp_int op mode t1 t2 k hk i1 i2 h1 h2 hs _ _ (hm (s + i) (by have := List.mem_range.1 hi; omega))).2.2]
    rfl

/-- Numbers of one integer type are always compared correctly. -/
theorem compare_same_type (op : Cmp) (mode : Mode) (t : Nat) (it : IT) (ht : tyOf t = some (.int it)) :
    ∃ k : Kernel, getComparison op mode t t = some k ∧ k.bits = it.bits ∧
    ∀ (len : Nat) (a b : List (BitVec k.bits)) (x y : Nat → BitVec k.bits),
    Feeds (mode = .first) len a x → Feeds (mode = .second) len b y →
    ∀ (workers : Nat) (nt : Bool) (par : Option (List Nat)), ChunkSched workers len nt par →
    twoStub (k.run op mode) mode a b len par
      = some ((List.range len).map fun (i : Nat) => some (if rel op (valOf it (x i)) (valOf it (y i)) then 1#8 else 0#8)) := by
  have hex : ∃ k : Kernel, getComparison op mode t t = some k := by
    unfold tyOf at ht
    split at ht <;> first | (simp at ht; done) | (simp only [getComparison, ne_eq, not_true_eq_false, false_and, and_false, if_false, ite_self]; (try split) <;> exact ⟨_, rfl⟩)
  obtain ⟨k, hk⟩ := hex
  refine ⟨k, hk, (rowCmp_int op mode t t k hk it it ht ht (.inl rfl) 0 0 (.inl rfl)).1, ?_⟩
  intro len a b x y ha hb workers nt par h
  exact compare_int_partial op mode t t k hk it it ht ht (.inl rfl) len a b x y ha hb (fun i _ => .inl rfl) h

/-- Floating point numbers of one type are compared as IEEE 754 says: with a NaN only `!=` holds, and
the vector loop and the loop over the rest agree. -/
theorem compare_float (op : Cmp) (mode : Mode) (t : Nat) (f : FT) (ht : tyOf t = some (.flt f)) :
    ∃ k : Kernel, getComparison op mode t t = some k ∧ k.bits = 1 + f.eb + f.mb ∧
    ∀ (len : Nat) (a b : List (BitVec k.bits)) (x y : Nat → BitVec k.bits),
    Feeds (mode = .first) len a x → Feeds (mode = .second) len b y →
    ∀ (workers : Nat) (nt : Bool) (par : Option (List Nat)), ChunkSched workers len nt par →
    twoStub (k.run op mode) mode a b len par
      = some ((List.range len).map fun (i : Nat) => some (if relF f op (x i).toNat (y i).toNat then 1#8 else 0#8)) := by
  have key : ∃ k : Kernel, getComparison op mode t t = some k ∧ k.bits = 1 + f.eb + f.mb ∧
      ∀ x y : BitVec k.bits, k.rowCmp op x y = relF f op x.toNat y.toNat := by
    unfold tyOf at ht
    split at ht <;> (first | (simp at ht; done) | skip)
    · injection ht with ht; injection ht with ht; subst ht
      refine ⟨.float, by simp [getComparison], rfl, fun x y => cmpF_relF _ _ _ _⟩
    · injection ht with ht; injection ht with ht; subst ht
      refine ⟨.double, by simp [getComparison], rfl, fun x y => cmpF_relF _ _ _ _⟩
  obtain ⟨k, hk, hb, hrow⟩ := key
  refine ⟨k, hk, hb, ?_⟩
  intro len a b x y ha hb workers nt par h
  rw [twoStub_eq (k.run op mode) mode a b len x y
    (fun (i : Nat) => if relF f op (x i).toNat (y i).toNat then 1#8 else 0#8) ?_ ha hb h]
  · rw [List.map_map]; rfl
  · intro a' b' s l hl ha' hb'
    rw [run_eq k op mode a' b' l _ _ ha' hb']
    simp only [hrow]
    rfl

/-- Two arrays of other, different types have no loop: the caller converts them first. -/
theorem compare_other_types (op : Cmp) (t1 t2 : Nat) (h : t1 ≠ t2) (hw : ¬ (wide t1 ∧ wide t2)) :
    getComparison op .none t1 t2 = none := by
  rw [getComparison, if_pos ⟨rfl, h, fun hh => hw ⟨⟨hh.1, hh.2.1⟩, ⟨hh.2.2.1, hh.2.2.2⟩⟩⟩]

/-- An array of unsigned 64-bit integers is found equal to an array of signed ones where it must not be:
`2^64 - 1` equals `-1`.  The other way round the answer is right. -/
theorem compare_equal_wrong :
    getComparison .eq .none 10 9 = some .unsignedSigned ∧
    twoStub (Kernel.unsignedSigned.run .eq .none) .none [BitVec.allOnes 64] [BitVec.ofInt 64 (-1)] 1 none = some [some 1#8] ∧
    getComparison .eq .none 9 10 = some .signedUnsigned ∧
    twoStub (Kernel.signedUnsigned.run .eq .none) .none [BitVec.ofInt 64 (-1)] [BitVec.allOnes 64] 1 none = some [some 0#8] := by
  decide +kernel

/-- A signed scalar against an unsigned array is compared as unsigned: `-1 < 5` is false. An unsigned scalar against a
signed array takes the loop for a signed array and an unsigned scalar with equal types: `2^64 - 1 < 5` is true. -/
theorem compare_scalar_first_wrong :
    getComparison .lt .first 9 10 = some .any64 ∧
    twoStub (Kernel.any64.run .lt .first) .first (List.replicate 4 (BitVec.ofInt 64 (-1))) [5#64] 1 none = some [some 0#8] ∧
    getComparison .lt .first 10 9 = some .int64 ∧
    twoStub (Kernel.int64.run .lt .first) .first (List.replicate 4 (BitVec.allOnes 64)) [5#64] 1 none = some [some 1#8] := by
  decide +kernel

/-- The guard of `compare_int_partial` is exact: wherever it fails some comparison is wrong. -/
theorem compare_guard_exact (op : Cmp) (mode : Mode) (t1 t2 : Nat) (w1 : wide t1) (w2 : wide t2)
    (h : ¬ ∀ x y : BitVec 64, MixedOk op mode t1 t2 x y) :
    ∃ (k : Kernel) (x y : BitVec 64) (i1 i2 : IT), getComparison op mode t1 t2 = some k ∧ tyOf t1 = some (.int i1) ∧ tyOf t2 = some (.int i2) ∧
      ∃ hb : k.bits = 64, k.rowCmp op (hb ▸ x) (hb ▸ y) ≠ rel op (valOf i1 x) (valOf i2 y) := by
  have hl1 : t1 = 7 ∨ t1 = 8 ∨ t1 = 9 ∨ t1 = 10 := by unfold wide at w1; omega
  have hl2 : t2 = 7 ∨ t2 = 8 ∨ t2 = 9 ∨ t2 = 10 := by unfold wide at w2; omega
  clear w1 w2
  rcases hl1 with rfl | rfl | rfl | rfl <;> rcases hl2 with rfl | rfl | rfl | rfl <;> cases mode <;> cases op <;>
    first
    | (exfalso; refine h fun x y => ?_; simp [MixedOk, eqLike]; done)
    | exact ⟨_, BitVec.allOnes 64, BitVec.allOnes 64, _, _, rfl, rfl, rfl, rfl, by decide⟩
    | exact ⟨_, BitVec.allOnes 64, 5#64, _, _, rfl, rfl, rfl, rfl, by decide⟩

/-- All widths of blocks meet the hypotheses: 35 bytes, the last three in the loop over the rest. -/
example : ∃ par, ChunkSched 0 35 false par ∧
    twoStub (Kernel.int8.run .lt .second) .second ((List.range 35).map fun (i : Nat) => BitVec.ofNat 8 i)
      (List.replicate 32 34#8) 35 par = some (((List.range 35).map fun (i : Nat) => some (if i < 34 then 1#8 else 0#8))) :=
  ⟨none, .direct (.inl (by decide)), by decide +kernel⟩

end Riptide.Binary
