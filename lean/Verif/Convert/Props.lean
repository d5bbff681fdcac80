import Verif.Convert.Lemmas
/-! # Type conversion: property theorems (C39, C47) -/
namespace Riptide.Convert
open Riptide.Work

/-- C39.  `cast_nan_aware` between any two integer types: invalid to invalid, every representable
valid value unchanged; the result is a value of the target type. -/
theorem cast_nan_aware_ok (src dst : IT) (hd : 0 < dst.bits) (x : Int) :
    Spec.IntOk src dst x (castNanAware src dst x) ∧ dst.InRange (castNanAware src dst x) := by
  unfold castNanAware
  refine ⟨⟨fun h => by simp [h], fun h hx => ?_⟩, ?_⟩
  · rw [if_pos h, dst.wrap_of_inRange hd hx]
  · split
    · exact dst.wrap_inRange hd x
    · exact dst.inv_inRange hd

example : castNanAware .i16 .u8 (-32768) = 255 ∧ castNanAware .i16 .u8 17 = 17 ∧
    castNanAware .u8 .i64 255 = -(2 ^ 63) := by decide

/-- C39.  `ConvertSafe` between integer types, for every array, stride and schedule: every row is
converted; invalid becomes invalid and representable values are unchanged. -/
theorem convert_safe_ints (src dst : IT) (hd : 0 < dst.bits) (mem : Int → Int) (stride : Int)
    (len : Nat) {workers : Nat} {nt : Bool} {par : Option (List Nat)}
    (h : ChunkSched workers len nt par) :
    ∃ out : List Int,
      convertSafe (fun x => some (safeInt src dst x)) mem stride len par = some (out.map some) ∧
      out.length = len ∧
      ∀ (i : Nat) v, out[i]? = some v → Spec.IntOk src dst (mem ((i : Int) * stride)) v ∧ dst.InRange v := by
  refine ⟨(List.range len).map fun (i : Nat) => safeInt src dst (mem ((i : Int) * stride)), ?_,
    by simp, ?_⟩
  · exact elemWork_exact _ _ (fun i _ => rfl) h
  · intro i v hv
    simp only [List.getElem?_map, Option.map_eq_some_iff] at hv
    obtain ⟨j, hj, rfl⟩ := hv
    have := (List.getElem?_eq_some_iff.1 hj)
    obtain ⟨hl, he⟩ := this
    simp only [List.getElem_range] at he
    subst he
    exact cast_nan_aware_ok src dst hd _

/-- A strided int16 column converted to uint8: invalid and representable values. -/
example : convertSafe (fun x => some (safeInt .i16 .u8 x))
    (fun o => if o = 0 then -32768 else if o = 4 then 200 else 7) 4 3 none =
    some [some 255, some 200, some 7] := by decide

/-- C39.  Booleans convert to 0 and 1 in every integer type, and integers to `x != 0`. -/
theorem convert_bool (dst : IT) (hd : 1 < dst.bits) (x : Bool) :
    safeBoolInt dst x.toInt = x.toInt ∧ safeBool (safeBoolInt dst x.toInt) = x := by
  have h1 : dst.InRange 0 ∧ dst.InRange 1 := by
    unfold IT.InRange IT.hi IT.lo
    have p := IT.pow_pos (dst.bits - 1)
    have p2 : (2 : Int) ^ (dst.bits - 1) = 2 * 2 ^ (dst.bits - 2) := by
      have : dst.bits - 1 = (dst.bits - 2) + 1 := by omega
      rw [this, Int.pow_succ, Int.mul_comm]
    have p3 := IT.pow_pos (dst.bits - 2)
    have q : (2 : Int) ^ dst.bits = 2 * 2 ^ (dst.bits - 1) := by
      have : dst.bits = (dst.bits - 1) + 1 := by omega
      conv => lhs; rw [this, Int.pow_succ, Int.mul_comm]
    cases dst.signed <;> simp <;> omega
  have e : ∀ b : Bool, safeBoolInt dst b.toInt = b.toInt := by
    intro b
    unfold safeBoolInt
    rw [if_pos (by cases b <;> decide)]
    apply dst.wrap_of_inRange (by omega)
    cases b
    · exact h1.1
    · exact h1.2
  refine ⟨e x, ?_⟩
  rw [e x]; cases x <;> rfl

example : safeBoolInt .u8 (true).toInt = 1 := by decide

/-- C39.  Converting to boolean is the zero test: an integer is False exactly when it is 0 (the
invalid integer becomes True), a float exactly when it is `+0` or `-0` (NaN becomes True). -/
theorem convert_to_bool (x : Int) (f : FT) (b : Nat) (hb : f.Ok b) :
    (safeBool x = false ↔ x = 0) ∧
    (safeFloatBool f b = false ↔ b = 0 ∨ b = 2 ^ (f.eb + f.mb)) := by
  refine ⟨by simp [safeBool], ?_⟩
  unfold FT.Ok at hb
  rw [show 1 + f.eb + f.mb = (f.eb + f.mb) + 1 by omega, Nat.pow_succ] at hb
  have hp : 0 < 2 ^ (f.eb + f.mb) := Nat.two_pow_pos _
  by_cases h : 2 ^ (f.eb + f.mb) ≤ b
  · have e : b % 2 ^ (f.eb + f.mb) = b - 2 ^ (f.eb + f.mb) := by
      rw [Nat.mod_eq_sub_mod h, Nat.mod_eq_of_lt (by omega)]
    simp [safeFloatBool, FT.eq, FT.isNan, FT.key, FT.neg, FT.mag, e, h]
    omega
  · have e : b % 2 ^ (f.eb + f.mb) = b := Nat.mod_eq_of_lt (by omega)
    simp [safeFloatBool, FT.eq, FT.isNan, FT.key, FT.neg, FT.mag, e, h]
    omega

example : safeBool IT.i32.inv = true ∧ safeFloatBool .f64 FT.f64.qnan = true ∧
    safeFloatBool .f64 (2 ^ 63) = false := by decide

/-! ## Integers and floats -/

/-- C47.  Integer to float: the invalid integer becomes NaN, and a valid integer of magnitude below
`2^(mb+1)` (2^24 for float32, 2^53 for float64) is converted exactly. -/
theorem convert_int_to_float (src : IT) (f : FT) (hg : Spec.Good f) (x : Int) :
    (x = src.inv → f.isNan (safeIntFloat src f x) = true) ∧
    (x ≠ src.inv → x.natAbs < 2 ^ (f.mb + 1) → Spec.Exact f (safeIntFloat src f x) x) := by
  unfold safeIntFloat
  refine ⟨fun h => ?_, fun h hx => ?_⟩
  · rw [if_neg (by simpa using h)]
    unfold FT.isNan FT.mag FT.qnan FT.infMag
    obtain ⟨he, hm, _⟩ := hg
    have hM := two_pow_pos f.mb
    have hE := two_pow_pos f.eb
    have hM1 := two_pow_pos (f.mb - 1)
    have h2 : 2 ^ f.mb = 2 * 2 ^ (f.mb - 1) := by rw [← Nat.pow_succ']; congr 1; omega
    have h3 : (2 ^ f.eb - 1) * 2 ^ f.mb + 2 ^ f.mb = 2 ^ (f.eb + f.mb) := by
      rw [← Nat.succ_mul, Nat.pow_add]; congr 1; omega
    rw [Nat.mod_eq_of_lt (by omega)]
    simp only [decide_eq_true_eq]; omega
  · rw [if_pos h]
    exact ofInt_exact f hg hx

/-- The two formats used satisfy the side condition. -/
theorem good_f32 : Spec.Good .f32 := by unfold Spec.Good; decide
theorem good_f64 : Spec.Good .f64 := by unfold Spec.Good; decide

/-- C47.  Float to integer: NaN and infinities become invalid, every other number whose integer part
fits becomes its integer part. -/
theorem convert_float_to_int (f : FT) (dst : IT) (b : Nat) :
    (f.isFinite b = false → safeFloatInt f dst b = some dst.inv) ∧
    (f.isFinite b = true → dst.InRange (f.trunc b) → safeFloatInt f dst b = some (f.trunc b)) := by
  unfold safeFloatInt FT.toInt
  refine ⟨fun h => by simp [h], fun h h2 => by simp [h, h2]⟩

/-- C47.  Out and back: an integer array converted to a float type and back to its own type by
`ConvertSafe` is unchanged, invalid values included, for every length and pair of schedules, when all
valid values are below `2^(mb+1)` in magnitude. -/
theorem convert_round_trip (t : IT) (f : FT) (hg : Spec.Good f) (xs : List Int)
    (hx : ∀ x ∈ xs, t.InRange x ∧ (x ≠ t.inv → x.natAbs < 2 ^ (f.mb + 1)))
    {workers : Nat} {nt : Bool} {par par' : Option (List Nat)}
    (h : ChunkSched workers xs.length nt par) (h' : ChunkSched workers xs.length nt par') :
    ∃ ys : List Nat,
      convertSafe (fun x => some (safeIntFloat t f x)) (fun (o : Int) => (xs[o.toNat]?).getD 0) 1
        xs.length par = some (ys.map some) ∧
      convertSafe (safeFloatInt f t) (fun (o : Int) => (ys[o.toNat]?).getD 0) 1
        xs.length par' = some (xs.map some) := by
  refine ⟨xs.map (safeIntFloat t f), ?_, ?_⟩
  · have := elemWork_exact
      (fun (i : Nat) => some (safeIntFloat t f ((xs[((i : Int) * 1).toNat]?).getD 0)))
      (fun i => safeIntFloat t f ((xs[i]?).getD 0)) (n := xs.length)
      (fun i _ => by simp) h
    unfold convertSafe
    rw [this]
    congr 2
    apply List.ext_getElem?
    intro i
    by_cases hi : i < xs.length
    · simp [hi]
    · rw [List.getElem?_eq_none (by simp; omega), List.getElem?_eq_none (by simp; omega)]
  · have := elemWork_exact
      (fun (i : Nat) => safeFloatInt f t
        (((xs.map (safeIntFloat t f))[((i : Int) * 1).toNat]?).getD 0))
      (fun i => (xs[i]?).getD 0) (n := xs.length)
      (fun i hi => by
        have hm : xs[i] ∈ xs := List.getElem_mem hi
        obtain ⟨hr, hs⟩ := hx _ hm
        simp only [Int.mul_one, Int.toNat_natCast, List.getElem?_map, List.getElem?_eq_getElem hi,
          Option.map_some, Option.getD_some]
        obtain ⟨c1, c2⟩ := convert_int_to_float t f hg xs[i]
        obtain ⟨d1, d2⟩ := convert_float_to_int f t (safeIntFloat t f xs[i])
        by_cases hv : xs[i] = t.inv
        · have hn := c1 hv
          rw [d1 (by
            unfold FT.isNan at hn; unfold FT.isFinite
            simp only [decide_eq_true_eq] at hn
            simp only [decide_eq_false_iff_not]; omega), hv]
        · have he := c2 hv (hs hv)
          have := trunc_exact f he
          rw [d2 he.1 (by rw [this]; exact hr), this]) h'
    unfold convertSafe
    rw [this]
    congr 2
    apply List.ext_getElem?
    intro i
    by_cases hi : i < xs.length
    · simp [hi]
    · rw [List.getElem?_eq_none (by simp; omega), List.getElem?_eq_none (by omega)]

/-- The hypotheses are met by a column with the invalid value and large values. -/
example : ∀ x ∈ [-(2 ^ 63 : Int), 9007199254740991, -5, 0],
    IT.i64.InRange x ∧ (x ≠ IT.i64.inv → x.natAbs < 2 ^ (FT.f64.mb + 1)) := by decide

/-- Why the bound is needed: 2^53 + 1 does not survive float64. -/
theorem round_trip_needs_bound :
    (safeFloatInt .f64 .i64 (safeIntFloat .i64 .f64 9007199254740993)) =
      some 9007199254740992 := by decide +kernel

/-- A finite number outside the target range is an undefined cast: 3000000000.0 to int32. -/
theorem float_out_of_range_undefined :
    safeFloatInt .f64 .i32 (FT.f64.ofInt 3000000000) = none := by decide +kernel

end Riptide.Convert
