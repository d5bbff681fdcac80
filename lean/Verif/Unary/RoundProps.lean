import Verif.Unary.KernelProps
/-! What holds of rounding. -/
namespace Riptide.Unary
open Riptide.Work

/-- The meaning of a way of rounding. -/
def Way.Meaning : Way → Int → Int → Int → Prop
  | .floor => Spec.Floor
  | .ceil => Spec.Ceil
  | .trunc => Spec.Trunc
  | .away => Spec.Away
  | .even => Spec.Even

theorem half_pos (P r u : Int) (q : Int) (hP : q * u = P) (h0 : 0 ≤ r) (hr : r < u) : Spec.Half (P + r) u ↔ 2 * r = u := by
  unfold Spec.Half
  have : 2 * (P + r) = 2 * r + (2 * u) * q := by rw [← hP]; grind
  rw [this, Int.add_mul_emod_self_left, Int.emod_eq_of_lt (by omega) (by omega)]

theorem half_neg (P r u : Int) (q : Int) (hP : q * u = P) (h0 : 0 ≤ r) (hr : r < u) : Spec.Half (-(P + r)) u ↔ 2 * r = u := by
  unfold Spec.Half
  by_cases hz : r = 0
  · have : 2 * -(P + r) = 0 + (2 * u) * (-q) := by rw [← hP, hz]; grind
    rw [this, Int.add_mul_emod_self_left, Int.zero_emod]; omega
  · have : 2 * -(P + r) = (2 * u - 2 * r) + (2 * u) * (-q - 1) := by rw [← hP]; grind
    rw [this, Int.add_mul_emod_self_left, Int.emod_eq_of_lt (by omega) (by omega)]; omega

/-- Rounding of a magnitude `q * u + r`. -/
theorem up_meaning (way : Way) (neg : Bool) (q r u : Nat) (hr : r < u) :
    way.Meaning (if neg then -((q * u + r : Nat) : Int) else (q * u + r : Nat)) u
      (if neg then -((if way.up neg q r u then q + 1 else q : Nat) : Int) else (if way.up neg q r u then q + 1 else q : Nat)) := by
  have hq : ((q * u + r : Nat) : Int) = (q : Int) * u + r := by push_cast; rfl
  have hq1 : (((q + 1 : Nat)) : Int) * u = (q : Int) * u + u := by push_cast; grind
  rw [hq]
  have hp0 : 0 ≤ (q : Int) * u := Int.mul_nonneg (by omega) (by omega)
  generalize hP : (q : Int) * u = P at *
  have hp := half_pos P r u q hP (by omega) (by omega)
  have hn := half_neg P r u q hP (by omega) (by omega)
  have hodd : ((q + 1 : Nat) : Int) % 2 = 0 ↔ q % 2 = 1 := by omega
  have heven : (q : Int) % 2 = 0 ↔ ¬ q % 2 = 1 := by omega
  have hodd' : (-((q + 1 : Nat) : Int)) % 2 = 0 ↔ q % 2 = 1 := by omega
  have heven' : (-(q : Int)) % 2 = 0 ↔ ¬ q % 2 = 1 := by omega
  cases way <;> cases neg <;> simp only [Way.Meaning, Way.up, Bool.false_eq_true, if_false, if_true, Bool.true_and, Bool.false_and, Bool.not_true,
    Bool.not_false]
  all_goals first
    | (simp only [Spec.Floor, Spec.Ceil, Spec.Trunc]
       repeat' split
       all_goals (try simp only [decide_eq_true_eq] at *)
       all_goals (simp only [Int.add_mul, Int.sub_mul, Int.neg_mul, Int.one_mul, hq1, hP])
       all_goals omega)
    | skip
  all_goals simp only [Spec.Away, Spec.Even, Spec.Nearest, hp, hn]
  · by_cases h : u ≤ 2 * r
    · simp only [decide_eq_true h, if_true, hq1]; rw [if_pos (by omega)]; omega
    · simp only [decide_eq_false h, Bool.false_eq_true, if_false, hP]; rw [if_pos (by omega)]; omega
  · by_cases h : u ≤ 2 * r
    · simp only [decide_eq_true h, if_true, Int.neg_mul, hq1]
      by_cases h0 : 0 ≤ -(P + (r : Int))
      · rw [if_pos h0]; omega
      · rw [if_neg h0]; omega
    · simp only [decide_eq_false h, Bool.false_eq_true, if_false, Int.neg_mul, hP]
      by_cases h0 : 0 ≤ -(P + (r : Int))
      · rw [if_pos h0]; omega
      · rw [if_neg h0]; omega
  · by_cases h : u < 2 * r ∨ (2 * r = u ∧ q % 2 = 1)
    · have e : (decide (u < 2 * r) || decide (2 * r = u) && decide (q % 2 = 1)) = true := by simpa using h
      simp only [e, if_true, hq1, hodd]; omega
    · have e : (decide (u < 2 * r) || decide (2 * r = u) && decide (q % 2 = 1)) = false := by
        rw [Bool.eq_false_iff]; simpa using h
      simp only [e, Bool.false_eq_true, if_false, hP, heven]; omega
  · by_cases h : u < 2 * r ∨ (2 * r = u ∧ q % 2 = 1)
    · have e : (decide (u < 2 * r) || decide (2 * r = u) && decide (q % 2 = 1)) = true := by simpa using h
      simp only [e, if_true, Int.neg_mul, hq1, hodd']; omega
    · have e : (decide (u < 2 * r) || decide (2 * r = u) && decide (q % 2 = 1)) = false := by
        rw [Bool.eq_false_iff]; simpa using h
      simp only [e, Bool.false_eq_true, if_false, Int.neg_mul, hP, heven']; omega

theorem pow_unit {f : FT} (hf : Fmt f) : f.unit = f.bias + f.mb - 1 ∧ 1 ≤ f.bias ∧ 1 ≤ f.mb := by
  rcases hf with rfl | rfl <;> decide

/-- A number with a large exponent is an integer. -/
theorem large_integer {f : FT} (hf : Fmt f) {m : Nat} (h : (f.bias + f.mb) * 2 ^ f.mb ≤ m) : f.scaledMag m % 2 ^ f.unit = 0 := by
  obtain ⟨h1, h2, h3⟩ := pow_unit hf
  have he : f.bias + f.mb ≤ m / 2 ^ f.mb := (Nat.le_div_iff_mul_le (Nat.pow_pos (by decide))).2 h
  unfold FT.scaledMag
  rw [if_neg (by omega)]
  apply Nat.mod_eq_zero_of_dvd
  exact Nat.dvd_trans (Nat.pow_dvd_pow 2 (by omega)) (Nat.dvd_mul_left _ _)

/-- The integer part of a number without a large exponent is small. -/
theorem small_part {f : FT} (hf : Fmt f) {m : Nat} (h : m < (f.bias + f.mb) * 2 ^ f.mb) : f.scaledMag m / 2 ^ f.unit < 2 ^ f.mb := by
  obtain ⟨h1, h2, h3⟩ := pow_unit hf
  have he : m / 2 ^ f.mb < f.bias + f.mb := (Nat.div_lt_iff_lt_mul (Nat.pow_pos (by decide))).2 h
  have hmod : m % 2 ^ f.mb < 2 ^ f.mb := Nat.mod_lt _ (Nat.pow_pos (by decide))
  rw [Nat.div_lt_iff_lt_mul (Nat.pow_pos (by decide))]
  unfold FT.scaledMag
  split
  · next h0 =>
    have : m < 2 ^ f.mb := by
      have := Nat.div_eq_zero_iff.1 h0
      rcases this with h | h
      · exact absurd h (Nat.ne_of_gt (Nat.pow_pos (by decide)))
      · exact h
    exact Nat.lt_of_lt_of_le this (Nat.le_mul_of_pos_right _ (Nat.pow_pos (by decide)))
  · next h0 =>
    calc (2 ^ f.mb + m % 2 ^ f.mb) * 2 ^ (m / 2 ^ f.mb - 1) < 2 ^ (f.mb + 1) * 2 ^ (m / 2 ^ f.mb - 1) :=
          Nat.mul_lt_mul_of_pos_right (by rw [Nat.pow_succ]; omega) (Nat.pow_pos (by decide))
      _ = 2 ^ (f.mb + 1 + (m / 2 ^ f.mb - 1)) := by rw [← Nat.pow_add]
      _ ≤ 2 ^ (f.mb + f.unit) := Nat.pow_le_pow_right (by decide) (by omega)
      _ = 2 ^ f.mb * 2 ^ f.unit := by rw [Nat.pow_add]

theorem magOfNat_facts {f : FT} (hf : Fmt f) {n : Nat} (h : n ≤ 2 ^ f.mb) :
    magOfNat f n < f.infMag ∧ f.scaledMag (magOfNat f n) = n * 2 ^ f.unit := by
  obtain ⟨-, -, h3, h4, h5, -⟩ := hf.facts
  unfold magOfNat
  split
  · next e => subst e; refine ⟨h4, ?_⟩; unfold FT.scaledMag; simp
  · next e =>
    have hM := Nat.pow_pos (n := f.mb) (show 0 < 2 by decide)
    obtain ⟨hr, g1, g2, hk⟩ := Convert.roundMag_small f e (n := n) (by rw [Nat.pow_succ]; omega)
    have hbias : f.mb + f.bias + 1 ≤ 2 ^ f.eb - 1 := by rcases hf with rfl | rfl <;> decide
    have hb1 := (pow_unit hf).2.1
    have hu := (pow_unit hf).1
    generalize hmm : n * 2 ^ (f.mb - n.log2) = m at *
    constructor
    · rw [hr]; unfold FT.infMag
      have : (n.log2 + f.bias + 1) * 2 ^ f.mb ≤ (2 ^ f.eb - 1) * 2 ^ f.mb := Nat.mul_le_mul_right _ (by omega)
      rw [Nat.add_mul, Nat.one_mul] at this
      omega
    · have hd : f.roundMag n / 2 ^ f.mb = n.log2 + f.bias := by
        rw [hr, Nat.mul_comm, Nat.mul_add_div hM, Nat.div_eq_of_lt (by omega)]; rfl
      have hmd : f.roundMag n % 2 ^ f.mb = m - 2 ^ f.mb := by
        rw [hr, Nat.mul_comm, Nat.mul_add_mod, Nat.mod_eq_of_lt (by omega)]
      unfold FT.scaledMag
      rw [hd, hmd, if_neg (by omega), Nat.add_sub_cancel' g1, ← hmm, Nat.mul_assoc, ← Nat.pow_add]
      congr 2
      omega

/-- C99: a finite number is rounded as the way says: the result is finite and it is the integer. -/
theorem round_value {f : FT} (hf : Fmt f) (way : Way) {b : Nat} (hfin : f.isFinite b = true) :
    ∃ n : Int, f.isFinite (roundF f way b) = true ∧ f.scaled (roundF f way b) = n * (2 ^ f.unit : Nat) ∧
      way.Meaning (f.scaled b) (2 ^ f.unit : Nat) n := by
  obtain ⟨-, -, h3, h4, -, -⟩ := hf.facts
  have hU : 0 < 2 ^ f.unit := Nat.pow_pos (by decide)
  have hm : f.mag b < f.infMag := by simpa [FT.isFinite] using hfin
  have hnan : f.isNan b = false := by unfold FT.isNan; exact decide_eq_false (by omega)
  have hdm := Nat.div_add_mod (f.scaledMag (f.mag b)) (2 ^ f.unit)
  have hr : f.scaledMag (f.mag b) % 2 ^ f.unit < 2 ^ f.unit := Nat.mod_lt _ hU
  unfold roundF
  rw [hnan]
  simp only [Bool.false_eq_true, if_false]
  split
  · next h =>
    have h0 := large_integer hf h
    have hup := up_meaning way (f.neg b) (f.scaledMag (f.mag b) / 2 ^ f.unit) 0 (2 ^ f.unit) hU
    have hno : way.up (f.neg b) (f.scaledMag (f.mag b) / 2 ^ f.unit) 0 (2 ^ f.unit) = false := by
      cases way <;> simp [Way.up] <;> omega
    rw [hno] at hup
    simp only [Bool.false_eq_true, if_false, Nat.add_zero] at hup
    have hval : f.scaledMag (f.mag b) / 2 ^ f.unit * 2 ^ f.unit = f.scaledMag (f.mag b) := by rw [Nat.mul_comm]; omega
    rw [hval] at hup
    refine ⟨_, hfin, ?_, hup⟩
    unfold FT.scaled
    conv => lhs; rw [← hval]
    cases f.neg b <;> simp [Int.neg_mul]
  · next h =>
    have hq := small_part hf (Nat.not_le.1 h)
    have hup := up_meaning way (f.neg b) (f.scaledMag (f.mag b) / 2 ^ f.unit) (f.scaledMag (f.mag b) % 2 ^ f.unit) (2 ^ f.unit) hr
    rw [show f.scaledMag (f.mag b) / 2 ^ f.unit * 2 ^ f.unit + f.scaledMag (f.mag b) % 2 ^ f.unit = f.scaledMag (f.mag b) by
      rw [Nat.mul_comm]; exact hdm] at hup
    generalize hn : (if way.up (f.neg b) (f.scaledMag (f.mag b) / 2 ^ f.unit) (f.scaledMag (f.mag b) % 2 ^ f.unit) (2 ^ f.unit) = true then
      f.scaledMag (f.mag b) / 2 ^ f.unit + 1 else f.scaledMag (f.mag b) / 2 ^ f.unit) = n at hup ⊢
    have hnle : n ≤ 2 ^ f.mb := by rw [← hn]; split <;> omega
    obtain ⟨g1, g2⟩ := magOfNat_facts hf hnle
    have hlt : magOfNat f n < signBit f := by unfold signBit; omega
    refine ⟨_, ?_, ?_, hup⟩
    · unfold FT.isFinite
      cases f.neg b
      · simp only [Bool.false_eq_true, if_false, Nat.zero_add]; rw [(mag_small f hlt).1]; exact decide_eq_true g1
      · simp only [if_true]; rw [Nat.add_comm, (mag_big f hlt).1]; exact decide_eq_true g1
    · unfold FT.scaled
      cases f.neg b
      · simp only [Bool.false_eq_true, if_false, Nat.zero_add]
        rw [(mag_small f hlt).1, (mag_small f hlt).2, g2]; simp
      · simp only [if_true]; rw [Nat.add_comm, (mag_big f hlt).1, (mag_big f hlt).2, g2]; simp [Int.neg_mul]

/-- C99: NaN stays NaN, infinities stay. -/
theorem round_special {f : FT} (hf : Fmt f) (way : Way) {b : Nat} :
    (f.isNan b = true → f.isNan (roundF f way b) = true) ∧ (f.mag b = f.infMag → roundF f way b = b) := by
  refine ⟨fun h => ?_, fun h => ?_⟩
  · unfold roundF; rw [if_pos h]; exact quiet_nan h
  · unfold roundF
    rw [if_neg (by unfold FT.isNan; simp [h]), if_pos]
    rw [h]; unfold FT.infMag
    apply Nat.mul_le_mul_right
    rcases hf with rfl | rfl <;> decide

/-- C99: floor, ceil and trunc give in every row the value of the function, on every schedule and whatever the alignment. -/
theorem round_rows {f : FT} (hf : Fmt f) {op : RoundOp} (hop : op ≠ .round) (wide : Bool) (xs : List Nat)
    {workers : Nat} {nt : Bool} {par : Option (List Nat)} (h : ChunkSched workers xs.length nt par) :
    (unaryWork (roundCall f op wide) xs par).bind (runWrites xs.length) = some ((xs.map (roundF f op.scalar)).map some) := by
  obtain ⟨h1, h2, -⟩ := hf.facts
  have := fastWork_exact (v := roundF f op.vector) h1 h2 (fun l _ => rfl) wide xs (fun (_ : Nat) _ => rfl) h (g := roundF f op.scalar)
    (s := fun b => some (roundF f op.scalar b))
  unfold roundCall
  rw [this, outRows_same _ _ _ _ (fun b _ => by cases op <;> first | rfl | exact absurd rfl hop)]

/-- The number is a half more than an even integer (in magnitude). -/
def EvenHalf (f : FT) (b : Nat) : Prop :=
  f.isFinite b = true ∧ 2 * (f.scaledMag (f.mag b) % 2 ^ f.unit) = 2 ^ f.unit ∧ f.scaledMag (f.mag b) / 2 ^ f.unit % 2 = 0

instance (f : FT) (b : Nat) : Decidable (EvenHalf f b) := inferInstanceAs (Decidable (_ ∧ _ ∧ _))

theorem ite_le (c : Prop) [Decidable c] (q : Nat) : (if c then q + 1 else q) ≤ q + 1 := by split <;> omega

theorem magOfNat_inj {f : FT} (hf : Fmt f) {a b : Nat} (ha : a ≤ 2 ^ f.mb) (hb : b ≤ 2 ^ f.mb) (h : magOfNat f a = magOfNat f b) : a = b := by
  have h1 := (magOfNat_facts hf ha).2
  have h2 := (magOfNat_facts hf hb).2
  rw [h, h2] at h1
  exact (Nat.eq_of_mul_eq_mul_right (Nat.pow_pos (by decide)) h1).symm

/-- C99: the instruction and the function `round` differ exactly for halves above even numbers. -/
theorem round_differ_iff {f : FT} (hf : Fmt f) {b : Nat} : roundF f .even b ≠ roundF f .away b ↔ EvenHalf f b := by
  have hU : 0 < 2 ^ f.unit := Nat.pow_pos (by decide)
  unfold roundF EvenHalf
  cases hn : f.isNan b
  · simp only [Bool.false_eq_true, if_false]
    split
    · next h =>
      have := large_integer hf h
      rw [this]
      simp only [ne_eq, not_true_eq_false, false_iff, Nat.mul_zero]
      intro hc
      omega
    · next h =>
      have hq := small_part hf (Nat.not_le.1 h)
      have hfin : f.isFinite b = true := by
        unfold FT.isFinite
        apply decide_eq_true
        have : (f.bias + f.mb) * 2 ^ f.mb ≤ f.infMag := by
          unfold FT.infMag
          apply Nat.mul_le_mul_right
          rcases hf with rfl | rfl <;> decide
        omega
      simp only [hfin, true_and]
      generalize f.scaledMag (f.mag b) % 2 ^ f.unit = r at *
      generalize f.scaledMag (f.mag b) / 2 ^ f.unit = q at *
      generalize 2 ^ f.unit = u at *
      have hinj : ∀ a c : Nat, a ≤ q + 1 → c ≤ q + 1 →
          ((if f.neg b = true then signBit f else 0) + magOfNat f a ≠ (if f.neg b = true then signBit f else 0) + magOfNat f c ↔ a ≠ c) := by
        intro a c ha hc
        constructor
        · intro h e; exact h (by rw [e])
        · intro h e; exact h (magOfNat_inj hf (by omega) (by omega) (by omega))
      rw [hinj _ _ (ite_le _ _) (ite_le _ _)]
      have e1 : Way.even.up (f.neg b) q r u = (decide (u < 2 * r) || (decide (2 * r = u) && decide (q % 2 = 1))) := rfl
      have e2 : Way.away.up (f.neg b) q r u = decide (u ≤ 2 * r) := rfl
      rw [e1, e2]
      by_cases h1 : u < 2 * r
      · simp [h1, show u ≤ 2 * r by omega]; omega
      · by_cases h2 : 2 * r = u
        · by_cases h3 : q % 2 = 1
          · simp [h2, h3]
          · simp [h2, h3]; omega
        · simp [h1, h2]; omega
  · simp only [if_true, ne_eq, not_true_eq_false, false_iff]
    intro hc
    have h1 := hc.1
    unfold FT.isFinite at h1; unfold FT.isNan at hn
    have := of_decide_eq_true h1; have := of_decide_eq_true hn
    omega

/-- C99: rounding gives in every row the nearest integer; which of the two nearest a half goes to does not depend on the row if no number is a
half above an even integer. -/
theorem round_rows_partial {f : FT} (hf : Fmt f) (wide : Bool) (xs : List Nat) (hx : ∀ b ∈ xs, ¬ EvenHalf f b)
    {workers : Nat} {nt : Bool} {par : Option (List Nat)} (h : ChunkSched workers xs.length nt par) :
    (unaryWork (roundCall f .round wide) xs par).bind (runWrites xs.length) = some ((xs.map (roundF f .away)).map some) := by
  obtain ⟨h1, h2, -⟩ := hf.facts
  have := fastWork_exact (v := roundF f .even) h1 h2 (fun l _ => rfl) wide xs (fun (_ : Nat) _ => rfl) h (g := roundF f .away)
    (s := fun b => some (roundF f .away b))
  unfold roundCall
  refine this.trans ?_
  rw [outRows_same _ _ _ _ (fun b hb => Decidable.byContradiction fun hc => hx b hb ((round_differ_iff hf).1 hc))]

/-- 0.5 as a double. -/
def halfF64 : Nat := 1022 * 2 ^ 52

/-- C99: five numbers 0.5: the first four are rounded to 0, the fifth to 1; -2.5 is rounded to -2 or to -3. -/
theorem round_rows_wrong :
    (unaryWork (roundCall .f64 .round true) (List.replicate 5 halfF64) none).bind (runWrites 5) =
      some ([0, 0, 0, 0, FT.f64.ofInt 1].map some) ∧
    (unaryWork (roundCall .f64 .round false) (List.replicate 5 halfF64) none).bind (runWrites 5) =
      some ((List.replicate 5 (FT.f64.ofInt 1)).map some) ∧ EvenHalf .f64 halfF64 := by
  refine ⟨by decide +kernel, by decide +kernel, by decide +kernel⟩

example : roundF .f64 .floor (signBit .f64 + halfF64) = FT.f64.ofInt (-1) ∧ roundF .f64 .ceil (signBit .f64 + halfF64) = signBit .f64 ∧
    roundF .f64 .trunc (1023 * 2 ^ 52 + 2 ^ 51) = FT.f64.ofInt 1 ∧ roundF .f64 .even (1023 * 2 ^ 52 + 2 ^ 51) = FT.f64.ofInt 2 ∧
    FT.f64.isFinite halfF64 = true := by decide +kernel

end Riptide.Unary
