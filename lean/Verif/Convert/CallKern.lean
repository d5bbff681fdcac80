import Verif.Convert.CallSpec
import Verif.Convert.Props
/-! Which function converts which types, and what it makes of one item (C135). -/
namespace Riptide.Convert.Call
open Riptide.GroupBy.Entry
open Riptide.Convert.Call.Spec (whole real)

theorem whole_ct {ty : Nat} {t : IT} (h : whole ty = some t) :
    ∃ T, inOf ty = some T ∧ ctOf ty = some T ∧ intOf T = some t ∧ fltOf T = none := by
  unfold whole at h
  split at h
  · rename_i hr
    have : ty = 1 ∨ ty = 2 ∨ ty = 3 ∨ ty = 4 ∨ ty = 5 ∨ ty = 6 ∨ ty = 7 ∨ ty = 8 ∨ ty = 9 ∨ ty = 10 := by omega
    rcases this with rfl | rfl | rfl | rfl | rfl | rfl | rfl | rfl | rfl | rfl <;>
    · have := Option.some.inj h
      subst this
      exact ⟨_, rfl, rfl, by decide, rfl⟩
  · cases h

theorem real_ct {ty : Nat} {f : FT} (h : real ty = some f) :
    ∃ T, inOf ty = some T ∧ ctOf ty = some T ∧ intOf T = none ∧ fltOf T = some f ∧ (T = .f32 ∨ T = .f64) := by
  unfold real at h
  split at h
  · rename_i hr
    subst hr
    have := Option.some.inj h
    subst this
    exact ⟨.f32, rfl, rfl, rfl, rfl, .inl rfl⟩
  · split at h
    · rename_i hr
      subst hr
      have := Option.some.inj h
      subst this
      exact ⟨.f64, rfl, rfl, rfl, rfl, .inr rfl⟩
    · cases h

theorem whole_bits {ty : Nat} {t : IT} (h : whole ty = some t) : 1 < t.bits := by
  unfold whole at h
  split at h
  · have := Option.some.inj h
    subst this
    show 1 < (if _ then _ else _)
    split
    · decide
    · split
      · decide
      · split <;> decide
  · cases h

theorem real_good {ty : Nat} {f : FT} (h : real ty = some f) : Convert.Spec.Good f := by
  unfold real at h
  split at h
  · have := Option.some.inj h; subst this; exact good_f32
  · split at h
    · have := Option.some.inj h; subst this; exact good_f64
    · cases h

theorem real_num {ty : Nat} {f : FT} (h : real ty = some f) : ty = 11 ∨ ty = 12 := by
  unfold real at h
  (repeat' split at h) <;> first | omega | cases h

theorem step_int {T : CT} {t : IT} (h : intOf T = some t) (U : CT) : step2Safe T U = if U = .bool then .toBool T else .safe T U := by
  unfold step2Safe
  cases T <;> first | rfl | cases h

theorem cast_int_int (w : Wide) {T U : CT} {t u : IT} (h : intOf T = some t) (g : intOf U = some u) (x : Int) :
    castItem w T U x = some (u.wrap x) := by
  simp only [castItem, h, g]

theorem cast_int_flt (w : Wide) {T U : CT} {t : IT} {f : FT} (h : intOf T = some t) (g : intOf U = none) (g2 : fltOf U = some f) (x : Int) :
    castItem w T U x = some (f.ofInt x : Int) := by
  simp only [castItem, h, g, g2]

theorem cast_flt_int (w : Wide) {T U : CT} {u : IT} {f : FT} (h : intOf T = none) (h2 : fltOf T = some f) (g : intOf U = some u) (x : Int) :
    castItem w T U x = f.toInt u x.toNat := by
  simp only [castItem, h, h2, g]

theorem bad_int (w : Wide) {T : CT} {t : IT} (h : intOf T = some t) : badOf w T = t.inv := by
  simp only [badOf, h]

theorem bad_flt (w : Wide) {T : CT} {f : FT} (h : intOf T = none) (h2 : fltOf T = some f) : badOf w T = (f.qnan : Int) := by
  simp only [badOf, h, h2]

theorem int_ne_bool {U : CT} {u : IT} (h : intOf U = some u) : U ≠ .bool := by rintro rfl; cases h
theorem flt_ne_bool {U : CT} {u : FT} (h : fltOf U = some u) : U ≠ .bool := by rintro rfl; cases h

theorem safeKern_ne {ti to : Nat} {T U : CT} (h : ti ≠ to) (h1 : inOf ti = some T) (h2 : ctOf to = some U) :
    safeKern ti to = some (step2Safe T U) := by
  unfold safeKern
  rw [if_neg h, h1, h2]

theorem unsafeKern_ne {ti to : Nat} {T U : CT} (h : ti ≠ to) (h1 : inOf ti = some T) (h2 : ctOf to = some U) :
    unsafeKern ti to = some (if U = .bool then .toBool T else .cast T U) := by
  unfold unsafeKern
  rw [if_neg h, h1, h2]

theorem ct_some {ty : Nat} (h : ty ≤ 13) : ∃ T, ctOf ty = some T ∧ T.size = Spec.size ty ∧ 0 < T.size := by
  have : ty = 0 ∨ ty = 1 ∨ ty = 2 ∨ ty = 3 ∨ ty = 4 ∨ ty = 5 ∨ ty = 6 ∨ ty = 7 ∨ ty = 8 ∨ ty = 9 ∨ ty = 10 ∨ ty = 11 ∨ ty = 12 ∨ ty = 13 := by omega
  rcases this with rfl | rfl | rfl | rfl | rfl | rfl | rfl | rfl | rfl | rfl | rfl | rfl | rfl | rfl <;> exact ⟨_, rfl, rfl, by decide⟩

theorem size_eq {ty : Nat} (h : ty ≤ 13) : sizeOf ty = Spec.size ty ∧ 0 < sizeOf ty := by
  obtain ⟨T, h1, h2, h3⟩ := ct_some h
  unfold sizeOf
  rw [h1]
  exact ⟨h2, h3⟩

theorem in_some {ty : Nat} (h : ty ≤ 13) : ∃ T, inOf ty = some T := by
  unfold inOf
  split
  · exact ⟨_, rfl⟩
  · obtain ⟨T, h1, _⟩ := ct_some h
    exact ⟨T, h1⟩

/-- C135. There is a function for every two types which the calls let through: the test for a missing one never fails. -/
theorem kernel_exists {ti to : Nat} (h1 : ti ≤ 13) (h2 : to ≤ 13) : (safeKern ti to).isSome = true ∧ (unsafeKern ti to).isSome = true := by
  obtain ⟨T, hT⟩ := in_some h1
  obtain ⟨U, hU, _⟩ := ct_some h2
  obtain ⟨V, hV, _⟩ := ct_some h1
  by_cases h : ti = to
  · unfold safeKern unsafeKern copyKern
    rw [if_pos h, if_pos h, hV]
    exact ⟨rfl, rfl⟩
  · rw [safeKern_ne h hT hU, unsafeKern_ne h hT hU]
    exact ⟨rfl, rfl⟩

/-- C135. The same type: every item is copied as it is, by both calls, with the size of the type. -/
theorem same_type (w : Wide) {ty : Nat} (h : ty ≤ 13) : safeKern ty ty = some (.copy (Spec.size ty)) ∧ unsafeKern ty ty = some (.copy (Spec.size ty)) ∧
    ∀ x, convItem w (.copy (Spec.size ty)) x = some x := by
  obtain ⟨V, hV, hs, _⟩ := ct_some h
  unfold safeKern unsafeKern copyKern
  rw [if_pos rfl, if_pos rfl, hV]
  refine ⟨?_, ?_, fun x => rfl⟩ <;> simp [hs]

/-- C135. Integers to integers: invalid to invalid, and values of the target type are kept. -/
theorem safe_item_ints (w : Wide) {ti to : Nat} {s d : IT} (h1 : whole ti = some s) (h2 : whole to = some d) {x : Int} (hx : s.InRange x) :
    ∃ c, safeKern ti to = some c ∧ ∃ y, convItem w c x = some y ∧ Convert.Spec.IntOk s d x y ∧ d.InRange y := by
  have hd := whole_bits h2
  by_cases h : ti = to
  · subst h
    rw [h1] at h2
    have := Option.some.inj h2
    subst this
    have hle : ti ≤ 13 := by unfold whole at h1; split at h1 <;> first | omega | cases h1
    obtain ⟨e, _, e2⟩ := same_type w hle
    exact ⟨_, e, x, e2 x, ⟨fun h => h, fun _ _ => rfl⟩, hx⟩
  · obtain ⟨T, a1, a2, a3, a4⟩ := whole_ct h1
    obtain ⟨U, b1, b2, b3, b4⟩ := whole_ct h2
    refine ⟨_, safeKern_ne h a1 b2, ?_⟩
    rw [step_int a3, if_neg (int_ne_bool b3)]
    show ∃ y, (if x ≠ badOf w T then castItem w T U x else some (badOf w U)) = some y ∧ _
    rw [bad_int w a3, bad_int w b3, cast_int_int w a3 b3]
    by_cases hb : x = s.inv
    · refine ⟨d.inv, by simp [hb], ⟨fun _ => rfl, fun h => absurd hb h⟩, d.inv_inRange (by omega)⟩
    · refine ⟨d.wrap x, by simp [hb], ⟨fun h => absurd h hb, fun _ hr => d.wrap_of_inRange (by omega) hr⟩, d.wrap_inRange (by omega) x⟩

/-- C135. Integers to floats: invalid to NaN, and numbers which the format has are exact. -/
theorem safe_item_to_float (w : Wide) {ti to : Nat} {s : IT} {f : FT} (h1 : whole ti = some s) (h2 : real to = some f) (x : Int) :
    ∃ c, safeKern ti to = some c ∧ ∃ y : Nat, convItem w c x = some y ∧ (x = s.inv → f.isNan y = true) ∧
      (x ≠ s.inv → x.natAbs < 2 ^ (f.mb + 1) → Convert.Spec.Exact f y x) := by
  have h : ti ≠ to := by
    rintro rfl
    unfold whole at h1
    unfold real at h2
    split at h1
    · rw [if_neg (by omega), if_neg (by omega)] at h2; cases h2
    · cases h1
  obtain ⟨T, a1, a2, a3, a4⟩ := whole_ct h1
  obtain ⟨U, b1, b2, b3, b4, b5⟩ := real_ct h2
  refine ⟨_, safeKern_ne h a1 b2, safeIntFloat s f x, ?_, convert_int_to_float s f (real_good h2) x⟩
  rw [step_int a3, if_neg (flt_ne_bool b4)]
  show (if x ≠ badOf w T then castItem w T U x else some (badOf w U)) = _
  rw [bad_int w a3, bad_flt w b3 b4, cast_int_flt w a3 b3 b4]
  unfold safeIntFloat
  split <;> rfl

/-- C135. Floats to integers: NaN and infinities to invalid, and other numbers lose their fraction if they fit. -/
theorem safe_item_from_float (w : Wide) {ti to : Nat} {f : FT} {d : IT} (h1 : real ti = some f) (h2 : whole to = some d) (x : Nat)
    (hx : f.isFinite x = true → d.InRange (f.trunc x)) :
    ∃ c, safeKern ti to = some c ∧ ∃ y, convItem w c x = some y ∧ (f.isFinite x = false → y = d.inv) ∧ (f.isFinite x = true → y = f.trunc x) := by
  have h : ti ≠ to := by
    rintro rfl
    unfold whole at h2
    unfold real at h1
    split at h2
    · rw [if_neg (by omega), if_neg (by omega)] at h1; cases h1
    · cases h2
  obtain ⟨T, a1, a2, a3, a4, a5⟩ := real_ct h1
  obtain ⟨U, b1, b2, b3, b4⟩ := whole_ct h2
  refine ⟨_, safeKern_ne h a1 b2, ?_⟩
  have hs : step2Safe T U = .safeFloat T U := by
    unfold step2Safe
    rw [if_neg (int_ne_bool b3)]
    rcases a5 with rfl | rfl
    · simp only; rw [if_neg (by rintro rfl; cases b3)]
    · simp only; rw [if_neg (by rintro rfl; cases b3)]
  rw [hs]
  show ∃ y, (if finiteOf w T (x : Int) then castItem w T U (x : Int) else some (badOf w U)) = some y ∧ _
  rw [bad_int w b3, cast_flt_int w a3 a4 b3]
  have hf : finiteOf w T (x : Int) = f.isFinite x := by simp only [finiteOf, a4]; rfl
  rw [hf]
  obtain ⟨c1, c2⟩ := convert_float_to_int f d x
  unfold safeFloatInt at c1 c2
  cases hfx : f.isFinite x with
  | false => exact ⟨d.inv, by simp, fun _ => rfl, fun h => by cases h⟩
  | true =>
    have := c2 hfx (hx hfx)
    rw [hfx] at this
    exact ⟨f.trunc x, this, fun h => (by cases h), fun _ => rfl⟩

/-- C135. To booleans, by both calls: whether the number is not zero. NaN and the invalid integers are not zero, so they become true, although
the code says "if output is boolean, bad means false". -/
theorem item_to_bool (w : Wide) {ti : Nat} (h0 : ti ≠ 0) :
    (∀ s, whole ti = some s → ∃ c, safeKern ti 0 = some c ∧ unsafeKern ti 0 = some c ∧ ∀ x, convItem w c x = some (if x = 0 then 0 else 1)) ∧
    (∀ f, real ti = some f → ∃ c, safeKern ti 0 = some c ∧ unsafeKern ti 0 = some c ∧
      ∀ x : Nat, convItem w c x = some (if f.eq x 0 = true then 0 else 1)) := by
  refine ⟨fun s h1 => ?_, fun f h1 => ?_⟩
  · obtain ⟨T, a1, a2, a3, a4⟩ := whole_ct h1
    refine ⟨.toBool T, ?_, ?_, fun x => ?_⟩
    · rw [safeKern_ne h0 a1 (show ctOf 0 = some .bool from rfl)]; simp [step2Safe]
    · rw [unsafeKern_ne h0 a1 (show ctOf 0 = some .bool from rfl)]; rfl
    · show some (if zeroOf w T x then _ else _) = _
      have : zeroOf w T x = decide (x = 0) := by
        unfold zeroOf
        rw [a4]
        simp only
        rw [if_neg (by rintro rfl; cases a3)]
      rw [this]; simp
  · obtain ⟨T, a1, a2, a3, a4, a5⟩ := real_ct h1
    refine ⟨.toBool T, ?_, ?_, fun x => ?_⟩
    · rw [safeKern_ne h0 a1 (show ctOf 0 = some .bool from rfl)]; simp [step2Safe]
    · rw [unsafeKern_ne h0 a1 (show ctOf 0 = some .bool from rfl)]; rfl
    · show some (if zeroOf w T (x : Int) then _ else _) = _
      have : zeroOf w T (x : Int) = f.eq x 0 := by
        simp only [zeroOf, a4]; rfl
      rw [this]

/-- C135. From booleans: 0 and 1 in every integer and float type. -/
theorem safe_item_from_bool (w : Wide) {to : Nat} {x : Int} (hx : x = 0 ∨ x = 1) :
    (∀ d, whole to = some d → ∃ c, safeKern 0 to = some c ∧ convItem w c x = some x) ∧
    (∀ f, real to = some f → ∃ c, safeKern 0 to = some c ∧ ∃ y : Nat, convItem w c x = some y ∧ Convert.Spec.Exact f y x) := by
  refine ⟨fun d h2 => ?_, fun f h2 => ?_⟩
  · obtain ⟨U, b1, b2, b3, b4⟩ := whole_ct h2
    have h : 0 ≠ to := by rintro rfl; cases h2
    refine ⟨_, safeKern_ne h (show inOf 0 = some .i8 from rfl) b2, ?_⟩
    rw [step_int (show intOf .i8 = some .i8 from rfl), if_neg (int_ne_bool b3)]
    show (if x ≠ badOf w .i8 then castItem w .i8 U x else some (badOf w U)) = some x
    rw [bad_int w (show intOf .i8 = some .i8 from rfl), cast_int_int w (show intOf .i8 = some .i8 from rfl) b3,
      if_pos (by rcases hx with rfl | rfl <;> decide)]
    rcases hx with rfl | rfl
    · have := (convert_bool d (whole_bits h2) false).1
      unfold safeBoolInt at this
      rw [if_pos (by decide)] at this
      exact congrArg some this
    · have := (convert_bool d (whole_bits h2) true).1
      unfold safeBoolInt at this
      rw [if_pos (by decide)] at this
      exact congrArg some this
  · obtain ⟨U, b1, b2, b3, b4, b5⟩ := real_ct h2
    have h : 0 ≠ to := by rintro rfl; cases h2
    refine ⟨_, safeKern_ne h (show inOf 0 = some .i8 from rfl) b2, safeIntFloat .i8 f x, ?_, ?_⟩
    · rw [step_int (show intOf .i8 = some .i8 from rfl), if_neg (flt_ne_bool b4)]
      show (if x ≠ badOf w .i8 then castItem w .i8 U x else some (badOf w U)) = _
      rw [bad_int w (show intOf .i8 = some .i8 from rfl), bad_flt w b3 b4, cast_int_flt w (show intOf .i8 = some .i8 from rfl) b3 b4]
      unfold safeIntFloat
      split <;> rfl
    · refine (convert_int_to_float .i8 f (real_good h2) x).2 (by rcases hx with rfl | rfl <;> decide) ?_
      have : 1 < 2 ^ (f.mb + 1) := Nat.one_lt_two_pow (by omega)
      rcases hx with rfl | rfl
      · show 0 < _; omega
      · exact this

/-- C135. `ConvertUnsafe` of integers: values of the target type are kept, others are reduced, and the invalid value is nothing special. -/
theorem unsafe_item_ints (w : Wide) {ti to : Nat} {s d : IT} (h1 : whole ti = some s) (h2 : whole to = some d) {x : Int} (hx : s.InRange x) :
    ∃ c, unsafeKern ti to = some c ∧ ∃ y, convItem w c x = some y ∧ (d.InRange x → y = x) ∧ d.InRange y ∧ ∃ q, y = x + q * 2 ^ d.bits := by
  have hd := whole_bits h2
  by_cases h : ti = to
  · subst h
    rw [h1] at h2
    have := Option.some.inj h2
    subst this
    have hle : ti ≤ 13 := by unfold whole at h1; split at h1 <;> first | omega | cases h1
    obtain ⟨_, e, e2⟩ := same_type w hle
    exact ⟨_, e, x, e2 x, fun _ => rfl, hx, 0, by omega⟩
  · obtain ⟨T, a1, a2, a3, a4⟩ := whole_ct h1
    obtain ⟨U, b1, b2, b3, b4⟩ := whole_ct h2
    refine ⟨_, unsafeKern_ne h a1 b2, ?_⟩
    rw [if_neg (int_ne_bool b3)]
    refine ⟨d.wrap x, cast_int_int w a3 b3 x, d.wrap_of_inRange (by omega), d.wrap_inRange (by omega) x, -((x - d.lo) / 2 ^ d.bits), ?_⟩
    unfold IT.wrap
    have := Int.mul_ediv_add_emod (x - d.lo) (2 ^ d.bits)
    rw [Int.neg_mul, Int.mul_comm]
    omega

/-- C135. `ConvertUnsafe` of floats to integers is the cast of the language: undefined for NaN, infinities and numbers which do not fit, and defined
otherwise. -/
theorem unsafe_item_from_float (w : Wide) {ti to : Nat} {f : FT} {d : IT} (h1 : real ti = some f) (h2 : whole to = some d) (x : Nat) :
    ∃ c, unsafeKern ti to = some c ∧ convItem w c x = if f.isFinite x = true ∧ d.InRange (f.trunc x) then some (f.trunc x) else none := by
  have h : ti ≠ to := by
    rintro rfl
    unfold whole at h2
    unfold real at h1
    split at h2
    · rw [if_neg (by omega), if_neg (by omega)] at h1; cases h1
    · cases h2
  obtain ⟨T, a1, a2, a3, a4, a5⟩ := real_ct h1
  obtain ⟨U, b1, b2, b3, b4⟩ := whole_ct h2
  refine ⟨_, unsafeKern_ne h a1 b2, ?_⟩
  rw [if_neg (int_ne_bool b3)]
  show castItem w T U (x : Int) = _
  rw [cast_flt_int w a3 a4 b3]
  rfl

/-- C135. Integers to floats by `ConvertUnsafe`: numbers which the format has are exact, the invalid one too. -/
theorem unsafe_item_to_float (w : Wide) {ti to : Nat} {s : IT} {f : FT} (h1 : whole ti = some s) (h2 : real to = some f) (x : Int) :
    ∃ c, unsafeKern ti to = some c ∧ ∃ y : Nat, convItem w c x = some y ∧ (x.natAbs < 2 ^ (f.mb + 1) → Convert.Spec.Exact f y x) := by
  have h : ti ≠ to := by
    rintro rfl
    unfold whole at h1
    unfold real at h2
    split at h1
    · rw [if_neg (by omega), if_neg (by omega)] at h2; cases h2
    · cases h1
  obtain ⟨T, a1, a2, a3, a4⟩ := whole_ct h1
  obtain ⟨U, b1, b2, b3, b4, b5⟩ := real_ct h2
  refine ⟨_, unsafeKern_ne h a1 b2, f.ofInt x, ?_, fun hx => ofInt_exact f (real_good h2) hx⟩
  rw [if_neg (flt_ne_bool b4)]
  exact cast_int_flt w a3 b3 b4 x

/-- C135. Between floats: the two common formats are cast, with infinities; to or from a `long double` the safe call makes NaN of everything which is
not finite, infinities included, and the unsafe call casts. -/
theorem item_floats (w : Wide) : safeKern 11 12 = some .f2d ∧ safeKern 12 11 = some .d2f ∧
    (∀ x, convItem w .f2d x = w.conv .f32 .f64 x ∧ convItem w .d2f x = w.conv .f64 .f32 x) ∧
    (∀ ti f, real ti = some f → ∃ c T, ctOf ti = some T ∧ safeKern ti 13 = some c ∧
      ∀ x : Nat, convItem w c x = if f.isFinite x = true then w.conv T .f80 x else some w.nan) ∧
    (∀ to f, real to = some f → ∃ c U, ctOf to = some U ∧ safeKern 13 to = some c ∧
      ∀ x : Int, convItem w c x = if w.finite x = true then w.conv .f80 U x else some (f.qnan : Int)) ∧
    (∀ ti to f g, real ti = some f → real to = some g → ti ≠ to → ∃ c T U, ctOf ti = some T ∧ ctOf to = some U ∧ unsafeKern ti to = some c ∧
      ∀ x : Int, convItem w c x = w.conv T U x) := by
  refine ⟨by decide, by decide, fun x => ⟨rfl, rfl⟩, fun ti f h => ?_, fun to f h => ?_, fun ti to f g h1 h2 hne => ?_⟩
  · have hti := real_num h
    rcases hti with rfl | rfl
    · have := Option.some.inj h; subst this
      exact ⟨_, _, rfl, rfl, fun x => rfl⟩
    · have := Option.some.inj h; subst this
      exact ⟨_, _, rfl, rfl, fun x => rfl⟩
  · have hti := real_num h
    rcases hti with rfl | rfl
    · have := Option.some.inj h; subst this
      exact ⟨_, _, rfl, rfl, fun x => rfl⟩
    · have := Option.some.inj h; subst this
      exact ⟨_, _, rfl, rfl, fun x => rfl⟩
  · obtain ⟨T, a1, a2, a3, a4, a5⟩ := real_ct h1
    obtain ⟨U, b1, b2, b3, b4, b5⟩ := real_ct h2
    refine ⟨_, T, U, a2, b2, unsafeKern_ne hne a1 b2, fun x => ?_⟩
    rw [if_neg (flt_ne_bool b4)]
    show castItem w T U x = _
    simp only [castItem, a3, b3]

/-- The hypotheses can be met: an int16 to an unsigned byte, and a float to an int32. -/
example : safeKern 3 2 = some (.safe .i16 .u8) ∧ whole 3 = some .i16 ∧ whole 2 = some .u8 ∧ IT.i16.InRange (-32768) ∧
    safeKern 12 5 = some (.safeFloat .f64 .i32) ∧ real 12 = some .f64 ∧ FT.f64.isFinite 0x4004000000000000 = true ∧
    FT.f64.trunc 0x4004000000000000 = 2 := by decide +kernel

end Riptide.Convert.Call
