import Verif.Unary.Lemmas
import Verif.Unary.Spec
import Verif.Convert.Lemmas
/-! What holds of the kernels for absolute values, negatives and rounding. -/
namespace Riptide.Unary
open Riptide.Work

/-- The four signed types. -/
def Signed (t : IT) : Prop := t = .i8 ∨ t = .i16 ∨ t = .i32 ∨ t = .i64

theorem Signed.facts {t : IT} (h : Signed t) : 0 < t.bits ∧ 0 < 256 / t.bits ∧ 256 / t.bits ∣ chunk ∧ t.hi = -t.lo - 1 ∧ t.lo < 0 ∧
    t.lo + (2 : Int) ^ t.bits = -t.lo := by
  rcases h with rfl | rfl | rfl | rfl <;> exact ⟨by decide, by decide, by decide, by decide, by decide, by decide⟩

theorem wrap_neg_lo {t : IT} (h : Signed t) : t.wrap (-t.lo) = t.lo := by
  rcases h with rfl | rfl | rfl | rfl <;> decide

theorem wrap_neg {t : IT} (h : Signed t) {x : Int} (hx : t.InRange x) : t.wrap (-x) = Spec.neg t x := by
  obtain ⟨h1, -, -, h4, h5, -⟩ := h.facts
  unfold Spec.neg
  split
  · next e => rw [e]; exact wrap_neg_lo h
  · next e =>
    apply IT.wrap_of_inRange t h1
    unfold IT.InRange at *
    omega

theorem negI_eq {t : IT} (h : Signed t) {x : Int} (hx : t.InRange x) (hd : t.bits < 32 ∨ x ≠ t.lo) : negI t x = some (Spec.neg t x) := by
  obtain ⟨h1, -, -, h4, h5, -⟩ := h.facts
  unfold negI
  split
  · rw [wrap_neg h hx]
  · next hb =>
    have hx' : x ≠ t.lo := by rcases hd with hd | hd; exact absurd hd hb; exact hd
    rw [if_pos (by unfold IT.InRange at *; omega), Spec.neg, if_neg hx']

theorem absI_eq {t : IT} (h : Signed t) {x : Int} (hx : t.InRange x) (hd : t.bits < 32 ∨ x ≠ t.lo) : absI t x = some (Spec.abs t x) := by
  obtain ⟨h1, -, -, h4, h5, -⟩ := h.facts
  unfold absI Spec.abs
  split
  · rw [negI_eq h hx hd, Spec.neg]
  · rw [if_neg (by omega)]

theorem absV_eq {t : IT} (h : Signed t) {x : Int} (hx : t.InRange x) : t.wrap (x.natAbs : Int) = Spec.abs t x := by
  obtain ⟨h1, -, -, h4, h5, -⟩ := h.facts
  unfold Spec.abs
  split
  · next e =>
    rw [e, show ((t.lo.natAbs : Nat) : Int) = -t.lo by omega, wrap_neg_lo h]
  · next e =>
    rw [IT.wrap_of_inRange t h1]
    · split <;> omega
    · unfold IT.InRange at *; omega

theorem negI_none {t : IT} (h : Signed t) (hb : 32 ≤ t.bits) : negI t t.lo = none := by
  obtain ⟨h1, -, -, h4, h5, -⟩ := h.facts
  unfold negI
  rw [if_neg (by omega), if_neg]
  unfold IT.InRange
  omega

/-- C98: absolute values of integers are right in every row, on every schedule and whatever the alignment, if the type has fewer than 32 bits or
the smallest number does not occur. -/
theorem abs_int_partial {t : IT} (ht : Signed t) (wide : Bool) (xs : List Int) (hx : ∀ x ∈ xs, t.InRange x)
    (hd : t.bits < 32 ∨ t.lo ∉ xs) {workers : Nat} {nt : Bool} {par : Option (List Nat)} (h : ChunkSched workers xs.length nt par) :
    (unaryWork (absCallI t wide) xs par).bind (runWrites xs.length) = some ((xs.map (Spec.abs t)).map some) := by
  obtain ⟨h1, h2, h3, h4, h5, -⟩ := ht.facts
  have hs : ∀ x ∈ xs, absI t x = some (Spec.abs t x) := fun x hm => by
    apply absI_eq ht (hx x hm)
    rcases hd with hd | hd
    · exact .inl hd
    · exact .inr (fun e => hd (e ▸ hm))
  unfold absCallI
  split
  · exact slowWork_exact xs hs h
  · have := fastWork_exact (vec := absIV t) (v := fun (x : Int) => t.wrap x.natAbs) h2 h3 (fun l _ => rfl) wide xs hs h
    rw [this, outRows_same _ _ _ _ (fun x hm => absV_eq ht (hx x hm))]

/-- C98: the same for negatives. -/
theorem neg_int_partial {t : IT} (ht : Signed t) (wide : Bool) (xs : List Int) (hx : ∀ x ∈ xs, t.InRange x)
    (hd : t.bits < 32 ∨ t.lo ∉ xs) {workers : Nat} {nt : Bool} {par : Option (List Nat)} (h : ChunkSched workers xs.length nt par) :
    (unaryWork (negCallI t wide) xs par).bind (runWrites xs.length) = some ((xs.map (Spec.neg t)).map some) := by
  obtain ⟨h1, h2, h3, h4, h5, -⟩ := ht.facts
  have hs : ∀ x ∈ xs, negI t x = some (Spec.neg t x) := fun x hm => by
    apply negI_eq ht (hx x hm)
    rcases hd with hd | hd
    · exact .inl hd
    · exact .inr (fun e => hd (e ▸ hm))
  have := fastWork_exact (vec := negIV t) (v := fun (x : Int) => t.wrap (0 - x)) h2 h3 (fun l _ => rfl) wide xs hs h
  unfold negCallI
  rw [this, outRows_same _ _ _ _ (fun x hm => by rw [Int.zero_sub]; exact wrap_neg ht (hx x hm))]

/-- C98: if the smallest number of 32 or 64 bits is in a row which is not computed by a register, the negative is undefined behaviour. -/
theorem neg_int_undefined {t : IT} (ht : Signed t) (hb : 32 ≤ t.bits) (wide : Bool) (xs : List Int) {i : Nat} (hi : i < xs.length)
    (hm : wideRows (256 / t.bits) wide xs.length ≤ i) (hlo : xs[i] = t.lo)
    {workers : Nat} {nt : Bool} {par : Option (List Nat)} (h : ChunkSched workers xs.length nt par) :
    unaryWork (negCallI t wide) xs par = none := by
  obtain ⟨h1, h2, h3, h4, h5, -⟩ := ht.facts
  exact unaryWork_none h2 h3 xs hi hm (by rw [hlo]; exact negI_none ht hb) h

/-- C98: riptide's invalid is the smallest number: the absolute value of an `int64` invalid is always undefined behaviour, that of an `int32` invalid if
it is not computed by a register. -/
theorem abs_int_undefined :
    (∀ wide, unaryWork (absCallI .i64 wide) [IT.i64.inv] none = none) ∧
    unaryWork (absCallI .i32 true) [1, 2, 3, 4, 5, 6, 7, 8, IT.i32.inv] none = none ∧
    (unaryWork (absCallI .i32 true) [1, 2, 3, 4, 5, 6, 7, IT.i32.inv, -8] none).bind (runWrites 9) =
      some ([1, 2, 3, 4, 5, 6, 7, IT.i32.inv, 8].map some) := by
  refine ⟨by decide, by decide, by decide⟩

example : (unaryWork (absCallI .i8 true) ((List.range 40).map fun (i : Nat) => -(i : Int)) none).bind (runWrites 40) =
    some ((((List.range 40).map fun (i : Nat) => -(i : Int)).map (Spec.abs .i8)).map some) := by
  have := abs_int_partial (t := .i8) (.inl rfl) true ((List.range 40).map fun (i : Nat) => -(i : Int)) (by decide) (.inl (by decide))
    (workers := 3) (nt := false) (.direct (.inl (by decide)))
  simpa using this

/-! ## Floating point -/

/-- The two formats. -/
def Fmt (f : FT) : Prop := f = .f32 ∨ f = .f64

theorem Fmt.facts {f : FT} (h : Fmt f) : 0 < 256 / (1 + f.eb + f.mb) ∧ 256 / (1 + f.eb + f.mb) ∣ chunk ∧ f.infMag < 2 ^ (f.eb + f.mb) ∧
    0 < f.infMag ∧ Convert.Spec.Good f ∧ f.unit = f.bias + f.mb - 1 := by
  rcases h with rfl | rfl <;> exact ⟨by decide, by decide, by decide, by decide, by unfold Convert.Spec.Good; decide, rfl⟩

theorem mag_lt (f : FT) (b : Nat) : f.mag b < signBit f := Nat.mod_lt _ (Nat.pow_pos (by decide))

theorem split_bits {f : FT} {b : Nat} (hb : f.Ok b) : b = f.mag b + if f.neg b then signBit f else 0 := by
  unfold FT.Ok at hb
  unfold FT.mag FT.neg signBit
  rw [Nat.add_assoc, Nat.pow_add, Nat.pow_one] at hb
  generalize 2 ^ (f.eb + f.mb) = s at *
  by_cases h : s ≤ b
  · rw [Nat.mod_eq_sub_mod h, Nat.mod_eq_of_lt (by omega)]
    simp [h]
  · rw [Nat.mod_eq_of_lt (by omega)]
    simp [h]

theorem mag_small (f : FT) {m : Nat} (h : m < signBit f) : f.mag m = m ∧ f.neg m = false := by
  unfold FT.mag FT.neg
  unfold signBit at h
  exact ⟨Nat.mod_eq_of_lt h, decide_eq_false (by omega)⟩

theorem mag_big (f : FT) {m : Nat} (h : m < signBit f) : f.mag (m + signBit f) = m ∧ f.neg (m + signBit f) = true := by
  unfold FT.mag FT.neg
  unfold signBit at *
  exact ⟨by rw [Nat.add_mod_right, Nat.mod_eq_of_lt h], decide_eq_true (by omega)⟩

theorem flip_facts (f : FT) (b : Nat) : f.mag (flip f b) = f.mag b ∧ f.neg (flip f b) = !f.neg b := by
  have h := mag_lt f b
  unfold flip
  cases hn : f.neg b
  · simpa using mag_big f h
  · simpa using mag_small f h

theorem absFV_eq (f : FT) (b : Nat) : absFV f b = f.mag b := by
  unfold absFV signBit FT.mag
  exact Nat.and_two_pow_sub_one_eq_mod b (f.eb + f.mb)

theorem lt_zero {f : FT} (hf : Fmt f) (b : Nat) : f.lt b 0 = (!f.isNan b && f.neg b && decide (f.mag b ≠ 0)) := by
  have h0 : f.isNan 0 = false := by rcases hf with rfl | rfl <;> decide
  have k0 : f.key 0 = 0 := by rcases hf with rfl | rfl <;> decide
  unfold FT.lt
  rw [h0, k0]
  unfold FT.key
  cases f.isNan b <;> cases f.neg b <;> simp
  · by_cases h : f.mag b = 0
    · simp [h]
    · simp [h]; omega

/-- C98: the vector and the scalar absolute value are the same bits unless the argument is a negative zero or a negative NaN. -/
theorem abs_float_bits_iff {f : FT} (hf : Fmt f) {b : Nat} (hb : f.Ok b) :
    absFV f b = absF f b ↔ (f.neg b = true → f.isNan b = false ∧ f.mag b ≠ 0) := by
  rw [absFV_eq]
  unfold absF
  rw [lt_zero hf]
  have hs := split_bits hb
  have hpos : 0 < signBit f := Nat.pow_pos (by decide)
  cases hn : f.neg b
  · simp only [Bool.and_false, Bool.false_and, Bool.false_eq_true, if_false]
    simp [hn] at hs
    simp [← hs]
  · simp [hn] at hs
    cases hnan : f.isNan b
    · by_cases hm : f.mag b = 0
      · simp [hm]
        omega
      · simp [hm, flip, hn]
    · simp; omega

/-- C98: the vector and the scalar negative are the same bits unless the argument is a positive zero or a NaN. -/
theorem neg_float_bits_iff {f : FT} (hf : Fmt f) {b : Nat} (hb : f.Ok b) :
    negFV f b = flip f b ↔ (f.isNan b = false ∧ b ≠ 0) := by
  have hs := split_bits hb
  have hpos : 0 < signBit f := Nat.pow_pos (by decide)
  have hlt := mag_lt f b
  unfold negFV
  cases hnan : f.isNan b
  · simp only [Bool.false_eq_true, if_false, true_and]
    by_cases hm : f.mag b = 0
    · rw [if_pos hm]
      unfold flip
      cases hn : f.neg b <;> simp [hn, hm] at hs ⊢ <;> omega
    · rw [if_neg hm]
      simp only [true_iff]
      intro e
      rw [e] at hm
      exact hm (mag_small f hpos).1
  · simp only [if_true, Bool.true_eq_false, false_and, iff_false]
    intro e
    have h1 := (flip_facts f b).2
    rw [← e] at h1
    have h2 : f.neg (quiet f b) = f.neg b := by
      unfold quiet FT.neg
      have hle : 2 ^ (f.mb - 1) < 2 ^ (f.eb + f.mb) := Nat.pow_lt_pow_right (by decide) (by rcases hf with rfl | rfl <;> decide)
      apply decide_eq_decide.2
      constructor
      · intro h
        apply Decidable.byContradiction
        intro hc
        have := Nat.or_lt_two_pow (Nat.not_le.1 hc) hle
        omega
      · intro h
        exact Nat.le_trans h Nat.left_le_or
    rw [h2] at h1
    cases f.neg b <;> simp at h1

theorem key_flip (f : FT) (b : Nat) : f.key (flip f b) = -f.key b := by
  obtain ⟨h1, h2⟩ := flip_facts f b
  unfold FT.key
  rw [h1, h2]
  cases f.neg b <;> simp

theorem isNan_flip (f : FT) (b : Nat) : f.isNan (flip f b) = f.isNan b := by
  unfold FT.isNan; rw [(flip_facts f b).1]

/-- The absolute value as a number: of the bits it is only said that NaN gives NaN. -/
def IsAbs (f : FT) (b r : Nat) : Prop := f.isNan r = f.isNan b ∧ (f.isNan b = false → f.key r = (f.key b).natAbs)

/-- The negative as a number. -/
def IsNeg (f : FT) (b r : Nat) : Prop := f.isNan r = f.isNan b ∧ (f.isNan b = false → f.key r = -f.key b)

theorem key_mag {f : FT} (b : Nat) : f.key (f.mag b) = f.mag b := by
  obtain ⟨h1, h2⟩ := mag_small f (mag_lt f b)
  unfold FT.key; rw [h1, h2]; simp

theorem absFV_isAbs {f : FT} (b : Nat) : IsAbs f b (absFV f b) := by
  rw [absFV_eq]
  refine ⟨?_, fun _ => ?_⟩
  · unfold FT.isNan; rw [(mag_small f (mag_lt f b)).1]
  · rw [key_mag]; unfold FT.key; split <;> simp

theorem absF_isAbs {f : FT} (hf : Fmt f) (b : Nat) : IsAbs f b (absF f b) := by
  unfold absF
  rw [lt_zero hf]
  split
  · next h =>
    simp at h
    refine ⟨isNan_flip f b, fun _ => ?_⟩
    rw [key_flip]; unfold FT.key; rw [h.1.2]; simp
  · next h =>
    refine ⟨rfl, fun hn => ?_⟩
    unfold FT.key
    simp [hn] at h
    cases hneg : f.neg b
    · simp
    · simp [h hneg]

theorem quiet_nan {f : FT} {b : Nat} (h : f.isNan b = true) : f.isNan (quiet f b) = true := by
  unfold FT.isNan quiet FT.mag at *
  simp only [decide_eq_true_eq] at *
  rw [Nat.or_mod_two_pow]
  exact Nat.lt_of_lt_of_le h Nat.left_le_or

theorem negFV_isNeg {f : FT} (hf : Fmt f) (b : Nat) : IsNeg f b (negFV f b) := by
  unfold negFV
  cases hn : f.isNan b
  · simp only [Bool.false_eq_true, if_false]
    split
    · next hm =>
      have k0 : f.key 0 = 0 ∧ f.isNan 0 = false := by rcases hf with rfl | rfl <;> decide
      refine ⟨by rw [hn]; exact k0.2, fun _ => ?_⟩
      rw [k0.1]; unfold FT.key; simp [hm]
    · exact ⟨isNan_flip f b, fun _ => key_flip f b⟩
  · simp only [if_true]
    exact ⟨by rw [quiet_nan hn, hn], fun h => by rw [hn] at h; simp at h⟩

/-- C98: every row of the absolute values of floats and doubles is the absolute value, as a number. -/
theorem abs_float {f : FT} (hf : Fmt f) (wide : Bool) (xs : List Nat)
    {workers : Nat} {nt : Bool} {par : Option (List Nat)} (h : ChunkSched workers xs.length nt par) :
    ∃ ys : List Nat, (unaryWork (absCallF f wide) xs par).bind (runWrites xs.length) = some (ys.map some) ∧ ys.length = xs.length ∧
      ∀ (i : Nat) (hx : i < xs.length) (hy : i < ys.length), IsAbs f xs[i] ys[i] := by
  obtain ⟨h1, h2, -⟩ := hf.facts
  refine ⟨_, fastWork_exact (v := absFV f) h1 h2 (fun l _ => rfl) wide xs (fun _ _ => rfl) h, outRows_length _ _ _ _, fun i hx hy => ?_⟩
  have := outRows_getElem? (absFV f) (absF f) (wideRows (256 / (1 + f.eb + f.mb)) wide xs.length) xs i
  rw [List.getElem?_eq_getElem hx, List.getElem?_eq_getElem hy, Option.map_some, Option.some.injEq] at this
  rw [this]
  split
  · exact absFV_isAbs _
  · exact absF_isAbs hf _

/-- C98: every row of the negatives of floats and doubles is the negative, as a number. -/
theorem neg_float {f : FT} (hf : Fmt f) (wide : Bool) (xs : List Nat)
    {workers : Nat} {nt : Bool} {par : Option (List Nat)} (h : ChunkSched workers xs.length nt par) :
    ∃ ys : List Nat, (unaryWork (negCallF f wide) xs par).bind (runWrites xs.length) = some (ys.map some) ∧ ys.length = xs.length ∧
      ∀ (i : Nat) (hx : i < xs.length) (hy : i < ys.length), IsNeg f xs[i] ys[i] := by
  obtain ⟨h1, h2, -⟩ := hf.facts
  refine ⟨_, fastWork_exact (v := negFV f) h1 h2 (fun l _ => rfl) wide xs (fun _ _ => rfl) h, outRows_length _ _ _ _, fun i hx hy => ?_⟩
  have := outRows_getElem? (negFV f) (flip f) (wideRows (256 / (1 + f.eb + f.mb)) wide xs.length) xs i
  rw [List.getElem?_eq_getElem hx, List.getElem?_eq_getElem hy, Option.map_some, Option.some.injEq] at this
  rw [this]
  split
  · exact negFV_isNeg hf _
  · exact ⟨isNan_flip f _, fun _ => key_flip f _⟩

/-- C98: the bits do not depend on the row if no argument is a zero or a NaN of the wrong sign. -/
theorem abs_float_bits_partial {f : FT} (hf : Fmt f) (wide : Bool) (xs : List Nat) (hx : ∀ b ∈ xs, f.Ok b)
    (hg : ∀ b ∈ xs, f.neg b = true → f.isNan b = false ∧ f.mag b ≠ 0)
    {workers : Nat} {nt : Bool} {par : Option (List Nat)} (h : ChunkSched workers xs.length nt par) :
    (unaryWork (absCallF f wide) xs par).bind (runWrites xs.length) = some ((xs.map f.mag).map some) := by
  obtain ⟨h1, h2, -⟩ := hf.facts
  have := fastWork_exact (v := absFV f) h1 h2 (fun l _ => rfl) wide xs (fun (_ : Nat) _ => rfl) h (g := absF f) (s := fun b => some (absF f b))
  unfold absCallF
  rw [this, outRows_same _ _ _ _ (fun b hb => (abs_float_bits_iff hf (hx b hb)).2 (hg b hb))]
  congr 2
  apply List.map_congr_left
  intro b hb
  rw [← (abs_float_bits_iff hf (hx b hb)).2 (hg b hb), absFV_eq]

/-- C98: the bits do not depend on the row if no argument is a positive zero or a NaN. -/
theorem neg_float_bits_partial {f : FT} (hf : Fmt f) (wide : Bool) (xs : List Nat) (hx : ∀ b ∈ xs, f.Ok b)
    (hg : ∀ b ∈ xs, f.isNan b = false ∧ b ≠ 0)
    {workers : Nat} {nt : Bool} {par : Option (List Nat)} (h : ChunkSched workers xs.length nt par) :
    (unaryWork (negCallF f wide) xs par).bind (runWrites xs.length) = some ((xs.map (flip f)).map some) := by
  obtain ⟨h1, h2, -⟩ := hf.facts
  have := fastWork_exact (v := negFV f) h1 h2 (fun l _ => rfl) wide xs (fun (_ : Nat) _ => rfl) h (g := flip f) (s := fun b => some (flip f b))
  unfold negCallF
  rw [this, outRows_same _ _ _ _ (fun b hb => (neg_float_bits_iff hf (hx b hb)).2 (hg b hb))]

/-- C98: the bits depend on the row: of five zeros the absolute values (of -0.0) and the negatives (of +0.0) of the first four have
another sign than those of the fifth. -/
theorem float_bits_wrong :
    (unaryWork (absCallF .f64 true) (List.replicate 5 (signBit .f64)) none).bind (runWrites 5) =
      some ([0, 0, 0, 0, signBit .f64].map some) ∧
    (unaryWork (negCallF .f64 true) (List.replicate 5 0) none).bind (runWrites 5) =
      some ([0, 0, 0, 0, signBit .f64].map some) := by
  refine ⟨by decide +kernel, by decide +kernel⟩

example : (unaryWork (negCallF .f64 true) [FT.f64.ofInt 1, FT.f64.ofInt 2, FT.f64.ofInt (-3), FT.f64.ofInt 4, FT.f64.ofInt 5] none).bind (runWrites 5) =
    some ([FT.f64.ofInt (-1), FT.f64.ofInt (-2), FT.f64.ofInt 3, FT.f64.ofInt (-4), FT.f64.ofInt (-5)].map some) := by decide +kernel

end Riptide.Unary
