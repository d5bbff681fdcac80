import Verif.Stack.ConvertSpec
import Verif.Convert.Lemmas
namespace Riptide.Stack
open Riptide.Sds Riptide.Convert

/-! ### The loop over the items -/

theorem piece_length {α : Type} {k : Nat} {m : List α} {i : Nat} (h : (i + 1) * k ≤ m.length) : (piece k m i).length = k := by
  unfold piece
  rw [Nat.succ_mul] at h
  simp
  omega

theorem take_piece {α : Type} {a b i : Nat} (m t : List α) (hab : a ≤ b) (h : (i + 1) * b ≤ m.length) :
    ((m.take ((i + 1) * b) ++ t).drop (i * a)).take a = piece a m i := by
  have h1 : i * a ≤ i * b := Nat.mul_le_mul_left i hab
  have h2 : (i + 1) * b = i * b + b := Nat.succ_mul i b
  unfold piece
  rw [List.drop_append_of_le_length (by rw [List.length_take]; omega), List.take_append_of_le_length (by simp; omega), List.drop_take, List.take_take,
    Nat.min_eq_left (by omega)]

theorem put_ok {α : Type} {m : List α} {o : Nat} {l : List α} (h : o + l.length ≤ m.length) :
    put m o l = some (m.take o ++ l ++ m.drop (o + l.length)) := by
  unfold put
  rw [if_pos h]

/-- The pieces of memory after a loop: each is what became of the old one. -/
theorem convertLoop_eq {α : Type} {a b : Nat} (hab : a ≤ b) (f : List α → Option (List α)) (g : Nat → List α) (m : List α) :
    ∀ (i : Nat) (t : List α), i * b ≤ m.length → (∀ j, j < i → f (piece a m j) = some (g j) ∧ (g j).length = b) →
      convertLoop a b f i (m.take (i * b) ++ t) = some ((List.range i).flatMap g ++ t)
  | 0, t, _, _ => by simp [convertLoop]
  | i + 1, t, h, hf => by
    have h2 : (i + 1) * b = i * b + b := Nat.succ_mul i b
    have h1 : i * a ≤ i * b := Nat.mul_le_mul_left i hab
    obtain ⟨f1, f2⟩ := hf i (by omega)
    have hl : (m.take ((i + 1) * b) ++ t).length = (i + 1) * b + t.length := by
      rw [List.length_append, List.length_take, Nat.min_eq_left h]
    rw [convertLoop, if_pos (by rw [hl]; omega), take_piece m t hab h, f1]
    dsimp only
    rw [put_ok (by rw [hl, f2]; omega)]
    dsimp only
    have e1 : (m.take ((i + 1) * b) ++ t).take (i * b) = m.take (i * b) := by
      rw [List.take_append_of_le_length (by rw [List.length_take]; omega), List.take_take, Nat.min_eq_left (by omega)]
    have e2 : (m.take ((i + 1) * b) ++ t).drop (i * b + (g i).length) = t := by
      rw [f2, ← h2]
      exact List.drop_left' (by rw [List.length_take]; omega)
    rw [e1, e2, List.append_assoc, convertLoop_eq hab f g m i (g i ++ t) (by omega) (fun j hj => hf j (by omega)), List.range_succ,
      List.flatMap_append, List.append_assoc]
    simp

/-- Pieces of the same length, one after the other. -/
theorem flatMap_length {α : Type} {b : Nat} {g : Nat → List α} : ∀ n, (∀ j, j < n → (g j).length = b) → ((List.range n).flatMap g).length = n * b
  | 0, _ => by simp
  | n + 1, h => by
    rw [List.range_succ, List.flatMap_append, List.length_append, flatMap_length n (fun j hj => h j (by omega)), Nat.succ_mul]
    simp [h n (by omega)]

theorem flatMap_piece {α : Type} {b : Nat} {g : Nat → List α} {n : Nat} (h : ∀ j, j < n → (g j).length = b) (t : List α) {i : Nat} (hi : i < n) :
    piece b ((List.range n).flatMap g ++ t) i = g i := by
  unfold piece
  induction n with
  | zero => omega
  | succ n ih =>
    rw [List.range_succ, List.flatMap_append, List.append_assoc]
    have hl := flatMap_length n (fun j hj => h j (by omega))
    by_cases hin : i < n
    · have := ih (fun j hj => h j (by omega)) hin
      have h1 : (i + 1) * b ≤ n * b := Nat.mul_le_mul_right b (by omega)
      rw [Nat.succ_mul] at h1
      rw [List.drop_append_of_le_length (by omega), List.take_append_of_le_length (by rw [List.length_drop]; omega)] at this ⊢
      exact this
    · have : i = n := by omega
      subst this
      rw [List.drop_left' hl]
      simp only [List.flatMap_cons, List.flatMap_nil, List.append_nil]
      exact List.take_left' (h i (by omega))

/-! ### Integers -/

theorem ofBits_range {t : IT} (ht : 0 < t.bits) {n : Nat} (h : n < 2 ^ t.bits) : t.InRange (ofBits t n) := by
  have h2 : (2 : Int) ^ t.bits = 2 * 2 ^ (t.bits - 1) := by
    rw [← Int.pow_succ']; congr 1; omega
  have h3 : (2 : Nat) ^ t.bits = 2 * 2 ^ (t.bits - 1) := by
    rw [← Nat.pow_succ']; congr 1; omega
  have h4 : ((2 ^ (t.bits - 1) : Nat) : Int) = (2 : Int) ^ (t.bits - 1) := by simp
  unfold IT.InRange IT.lo IT.hi ofBits
  rw [h3] at h
  rw [h2]
  generalize hp : (2 : Int) ^ (t.bits - 1) = p at *
  generalize hq : (2 : Nat) ^ (t.bits - 1) = q at *
  cases t.signed
  · simp; omega
  · by_cases hx : q ≤ n
    · simp [hx]; omega
    · simp [hx]; omega

theorem toBits_lt (t : IT) (x : Int) : toBits t x < 2 ^ t.bits := by
  unfold toBits
  have h1 := Int.emod_nonneg x (Int.ne_of_gt (IT.pow_pos t.bits))
  have h2 := Int.emod_lt_of_pos x (IT.pow_pos t.bits)
  have h4 : ((2 ^ t.bits : Nat) : Int) = (2 : Int) ^ t.bits := by simp
  omega

theorem ofBits_toBits {t : IT} (ht : 0 < t.bits) {x : Int} (h : t.InRange x) : ofBits t (toBits t x) = x := by
  have h2 : (2 : Int) ^ t.bits = 2 * 2 ^ (t.bits - 1) := by
    rw [← Int.pow_succ']; congr 1; omega
  have h4 : ((2 ^ (t.bits - 1) : Nat) : Int) = (2 : Int) ^ (t.bits - 1) := by simp
  have hp0 := IT.pow_pos (t.bits - 1)
  unfold IT.InRange IT.lo IT.hi at h
  unfold ofBits toBits
  rw [h2] at h ⊢
  generalize hp : (2 : Int) ^ (t.bits - 1) = p at *
  generalize hq : (2 : Nat) ^ (t.bits - 1) = q at *
  cases hs : t.signed
  · simp [hs] at h
    simp
    rw [Int.emod_eq_of_lt (by omega) (by omega)]
    omega
  · simp [hs] at h
    by_cases hx : 0 ≤ x
    · rw [Int.emod_eq_of_lt hx (by omega), if_neg (by omega)]
      omega
    · have : x % (2 * p) = x + 2 * p := by
        rw [← Int.add_emod_right]
        exact Int.emod_eq_of_lt (by omega) (by omega)
      rw [this, if_pos ⟨rfl, by omega⟩]
      omega

/-! ### Floating point numbers -/

theorem scaledMag_zero {f : FT} {m : Nat} (h : f.scaledMag m = 0) : m = 0 := by
  unfold FT.scaledMag at h
  have h1 := two_pow_pos f.mb
  have h2 := two_pow_pos (m / 2 ^ f.mb - 1)
  split at h
  · exact h
  · have := Nat.mul_pos (show 0 < 2 ^ f.mb + m % 2 ^ f.mb by omega) h2
    omega

/-- A number of a format is a mantissa times a power of two. -/
theorem scaledMag_form (f : FT) (m : Nat) : ∃ q e, f.scaledMag m = q * 2 ^ e ∧ q < 2 ^ (f.mb + 1) ∧ (e = 0 ∨ e = m / 2 ^ f.mb - 1) := by
  unfold FT.scaledMag
  have h1 := Nat.mod_lt m (two_pow_pos f.mb)
  split
  · rename_i h
    refine ⟨m, 0, by simp, ?_, .inl rfl⟩
    have := Nat.div_add_mod m (2 ^ f.mb)
    rw [h, Nat.mul_zero] at this
    rw [Nat.pow_succ]
    omega
  · exact ⟨_, _, rfl, by rw [Nat.pow_succ]; omega, .inr rfl⟩

/-- A format which holds all numbers of another one. -/
structure Wider (f g : FT) : Prop where
  good : Spec.Good g
  mant : f.mb + 1 ≤ g.mb
  low : f.unit + 1 ≤ g.bias
  high : 2 ^ f.eb + f.mb + g.bias < 2 ^ g.eb + f.unit

theorem wider_32_64 : Wider .f32 .f64 := ⟨by unfold Spec.Good; decide, by decide, by decide, by decide⟩

theorem log2_mul_pow {q e : Nat} (hq : q ≠ 0) : (q * 2 ^ e).log2 = q.log2 + e := by
  have hp := two_pow_pos e
  have h0 : q * 2 ^ e ≠ 0 := Nat.mul_ne_zero hq (by omega)
  rw [Nat.log2_eq_iff h0]
  constructor
  · rw [Nat.pow_add]; exact Nat.mul_le_mul_right _ (Nat.log2_self_le hq)
  · rw [show q.log2 + e + 1 = (q.log2 + 1) + e by omega, Nat.pow_add]
    exact Nat.mul_lt_mul_of_pos_right Nat.lt_log2_self hp

/-- The magnitude bits of the wider format. -/
theorem widen_mag {f g : FT} (hw : Wider f g) {m : Nat} (hm : m < f.infMag) (h0 : f.scaledMag m ≠ 0) :
    let n := f.scaledMag m
    let r := (n.log2 + g.bias - f.unit) * 2 ^ g.mb + (n * 2 ^ g.mb / 2 ^ n.log2 - 2 ^ g.mb)
    r < g.infMag ∧ g.scaledMag r = n * 2 ^ (g.unit - f.unit) := by
  obtain ⟨q, e, hq, hlt, he⟩ := scaledMag_form f m
  have hq0 : q ≠ 0 := by
    intro h; rw [h, Nat.zero_mul] at hq; exact h0 hq
  have hlq : q.log2 ≤ f.mb := by
    have := (Nat.log2_lt hq0).2 hlt
    omega
  have hlog : (f.scaledMag m).log2 = q.log2 + e := by rw [hq, log2_mul_pow hq0]
  -- the exponent of the old number
  have hebound : e + 2 ≤ 2 ^ f.eb := by
    have hb := two_pow_pos f.eb
    rcases he with he | he
    · have : f.eb ≠ 0 := by
        intro h
        unfold FT.infMag at hm
        rw [h] at hm
        simp at hm
      have : 2 ^ f.eb = 2 * 2 ^ (f.eb - 1) := by rw [← Nat.pow_succ']; congr 1; omega
      have := two_pow_pos (f.eb - 1)
      omega
    · have : m / 2 ^ f.mb < 2 ^ f.eb - 1 := by
        rw [Nat.div_lt_iff_lt_mul (two_pow_pos f.mb)]
        exact hm
      generalize m / 2 ^ f.mb = d at *
      generalize 2 ^ f.eb = E at *
      omega
  have hdiv : f.scaledMag m * 2 ^ g.mb / 2 ^ (q.log2 + e) = q * 2 ^ (g.mb - q.log2) := by
    have hgm := hw.mant
    have h1 : 2 ^ g.mb = 2 ^ (g.mb - q.log2) * 2 ^ q.log2 := by rw [← Nat.pow_add]; congr 1; omega
    have hsplit : q * 2 ^ e * 2 ^ g.mb = q * 2 ^ (g.mb - q.log2) * 2 ^ (q.log2 + e) := by
      rw [h1, Nat.pow_add]
      ac_rfl
    rw [hq, hsplit]
    exact Nat.mul_div_cancel _ (two_pow_pos _)
  intro n r
  have hr : r = (q.log2 + e + g.bias - f.unit) * 2 ^ g.mb + (q * 2 ^ (g.mb - q.log2) - 2 ^ g.mb) := by
    show (n.log2 + g.bias - f.unit) * 2 ^ g.mb + (n * 2 ^ g.mb / 2 ^ n.log2 - 2 ^ g.mb) = _
    show ((f.scaledMag m).log2 + g.bias - f.unit) * 2 ^ g.mb + (f.scaledMag m * 2 ^ g.mb / 2 ^ (f.scaledMag m).log2 - 2 ^ g.mb) = _
    rw [hlog, hdiv]
  have hlow : 2 ^ g.mb ≤ q * 2 ^ (g.mb - q.log2) := by
    have h1 := Nat.log2_self_le hq0
    have hgm := hw.mant
    calc 2 ^ g.mb = 2 ^ q.log2 * 2 ^ (g.mb - q.log2) := by rw [← Nat.pow_add]; congr 1; omega
      _ ≤ _ := Nat.mul_le_mul_right _ h1
  have hhigh : q * 2 ^ (g.mb - q.log2) < 2 * 2 ^ g.mb := by
    have h1 : q < 2 ^ (q.log2 + 1) := Nat.lt_log2_self
    have hgm := hw.mant
    calc q * 2 ^ (g.mb - q.log2) < 2 ^ (q.log2 + 1) * 2 ^ (g.mb - q.log2) := Nat.mul_lt_mul_of_pos_right h1 (two_pow_pos _)
      _ = 2 * 2 ^ g.mb := by rw [← Nat.pow_add, ← Nat.pow_succ']; congr 1; omega
  have hE : q.log2 + e + g.bias - f.unit + 1 ≤ 2 ^ g.eb - 1 := by
    have := hw.high
    have := hw.low
    have := two_pow_pos g.eb
    omega
  have hM := two_pow_pos g.mb
  constructor
  · rw [hr]
    unfold FT.infMag
    have := Nat.mul_le_mul_right (2 ^ g.mb) hE
    rw [Nat.add_mul, Nat.one_mul] at this
    omega
  · have hd : r / 2 ^ g.mb = q.log2 + e + g.bias - f.unit := by
      rw [hr, Nat.mul_comm, Nat.mul_add_div hM, Nat.div_eq_of_lt (by omega)]; rfl
    have hmd : r % 2 ^ g.mb = q * 2 ^ (g.mb - q.log2) - 2 ^ g.mb := by
      rw [hr, Nat.mul_comm, Nat.mul_add_mod, Nat.mod_eq_of_lt (by omega)]
    have hlo := hw.low
    have hgm := hw.mant
    unfold FT.scaledMag
    rw [hd, hmd, if_neg (by omega), Nat.add_sub_cancel' hlow]
    show _ = f.scaledMag m * _
    rw [hq, Nat.mul_assoc, Nat.mul_assoc, ← Nat.pow_add, ← Nat.pow_add]
    congr 2
    have : g.unit = g.bias + g.mb - 1 := rfl
    omega

theorem infMag_lt {g : FT} : g.infMag < 2 ^ (g.eb + g.mb) := by
  unfold FT.infMag
  rw [Nat.pow_add]
  exact Nat.mul_lt_mul_of_pos_right (by have := two_pow_pos g.eb; omega) (two_pow_pos g.mb)

/-- Sign and magnitude of a number which was put together from them. -/
theorem sign_mag {g : FT} (s : Bool) {r : Nat} (h : r < 2 ^ (g.eb + g.mb)) :
    g.mag ((if s then 2 ^ (g.eb + g.mb) else 0) + r) = r ∧ g.neg ((if s then 2 ^ (g.eb + g.mb) else 0) + r) = s := by
  unfold FT.mag FT.neg
  cases s
  · simp [Nat.mod_eq_of_lt h]; omega
  · simp [Nat.mod_eq_of_lt h]

theorem value_float (f : FT) (n : Nat) : value (.float f) n = if f.isNan n then .invalid
    else if f.isFinite n then .num ((f.scaled n : Rat) / (2 ^ f.unit : Nat)) else .inf (f.neg n) := rfl

theorem pow_ne (k : Nat) : ((2 ^ k : Nat) : Rat) ≠ 0 := by
  intro h
  have := two_pow_pos k
  have h1 : ((2 ^ k : Nat) : Rat) = ((0 : Nat) : Rat) := h
  have := Rat.natCast_inj.mp h1
  omega

theorem qnan_value {f : FT} (hg : Spec.Good f) : value (.float f) f.qnan = .invalid := by
  have : f.isNan f.qnan = true := by
    unfold FT.isNan FT.mag FT.qnan FT.infMag
    obtain ⟨he, hm, _⟩ := hg
    have hM := two_pow_pos f.mb
    have hE := two_pow_pos f.eb
    have hM1 := two_pow_pos (f.mb - 1)
    have h2 : 2 ^ f.mb = 2 * 2 ^ (f.mb - 1) := by rw [← Nat.pow_succ']; congr 1; omega
    have h3 : (2 ^ f.eb - 1) * 2 ^ f.mb + 2 ^ f.mb = 2 ^ (f.eb + f.mb) := by
      rw [← Nat.succ_mul, Nat.pow_add]; congr 1; omega
    rw [Nat.mod_eq_of_lt (by omega)]
    simp only [decide_eq_true_eq]; omega
  rw [value_float, this]
  rfl

/-- The value of a finite number. -/
theorem finite_value {f : FT} {b : Nat} (h : f.isFinite b = true) : value (.float f) b = .num ((f.scaled b : Rat) / (2 ^ f.unit : Nat)) := by
  have hn : f.isNan b = false := by
    unfold FT.isFinite at h
    unfold FT.isNan
    simp at h ⊢
    omega
  rw [value_float]
  simp [hn, h]

theorem exact_value {f : FT} {b : Nat} {x : Int} (h : Spec.Exact f b x) : value (.float f) b = .num x := by
  rw [finite_value h.1, h.2]
  congr 1
  have hp := pow_ne f.unit
  rw [Rat.intCast_mul, Rat.intCast_natCast]
  generalize ((2 ^ f.unit : Nat) : Rat) = u at hp
  grind

theorem widen_value {f g : FT} (hw : Wider f g) {b : Nat} (hn : f.isNan b = false) : value (.float g) (widen f g b) = value (.float f) b := by
  unfold widen
  by_cases hi : f.mag b = f.infMag
  · dsimp only
    rw [if_pos hi]
    obtain ⟨s1, s2⟩ := sign_mag (g := g) (f.neg b) infMag_lt
    rw [value_float, value_float]
    unfold FT.isNan FT.isFinite
    rw [s1, s2, hi]
    simp
  · have hm : f.mag b < f.infMag := by
      unfold FT.isNan at hn
      simp at hn
      omega
    have hfin : f.isFinite b = true := by unfold FT.isFinite; simpa using hm
    have hinf : 0 < g.infMag := by
      unfold FT.infMag
      obtain ⟨he, _, _⟩ := hw.good
      have : 2 ^ g.eb = 2 * 2 ^ (g.eb - 1) := by rw [← Nat.pow_succ']; congr 1; omega
      have := two_pow_pos (g.eb - 1)
      exact Nat.mul_pos (by omega) (two_pow_pos _)
    dsimp only
    rw [if_neg hi, finite_value hfin]
    by_cases h0 : f.scaledMag (f.mag b) = 0
    · rw [if_pos h0]
      obtain ⟨s1, s2⟩ := sign_mag (g := g) (f.neg b) (r := 0) (two_pow_pos _)
      rw [Nat.add_zero] at s1 s2
      rw [finite_value (by unfold FT.isFinite; rw [s1]; simpa using hinf)]
      unfold FT.scaled
      rw [s1, s2, h0]
      have : g.scaledMag 0 = 0 := by unfold FT.scaledMag; simp
      rw [this]
      simp [Rat.div_def]
    · rw [if_neg h0]
      obtain ⟨r1, r2⟩ := widen_mag hw hm h0
      generalize hr : ((f.scaledMag (f.mag b)).log2 + g.bias - f.unit) * 2 ^ g.mb +
        (f.scaledMag (f.mag b) * 2 ^ g.mb / 2 ^ (f.scaledMag (f.mag b)).log2 - 2 ^ g.mb) = r at r1 r2
      obtain ⟨s1, s2⟩ := sign_mag (g := g) (f.neg b) (Nat.lt_trans r1 infMag_lt)
      rw [finite_value (by unfold FT.isFinite; rw [s1]; simpa using r1)]
      have hsc : g.scaled ((if f.neg b then 2 ^ (g.eb + g.mb) else 0) + r) = f.scaled b * (2 ^ (g.unit - f.unit) : Nat) := by
        unfold FT.scaled
        rw [s1, s2, r2]
        cases f.neg b
        · simp
        · simp [Int.neg_mul]
      rw [hsc]
      congr 1
      have hu : g.unit = f.unit + (g.unit - f.unit) := by
        have := hw.low
        have : g.unit = g.bias + g.mb - 1 := rfl
        omega
      have hpow : ((2 ^ g.unit : Nat) : Rat) = (2 ^ f.unit : Nat) * (2 ^ (g.unit - f.unit) : Nat) := by
        rw [← Rat.natCast_mul, ← Nat.pow_add, ← hu]
      rw [hpow, Rat.intCast_mul, Rat.intCast_natCast]
      have a1 := pow_ne f.unit
      have a2 := pow_ne (g.unit - f.unit)
      generalize ((2 ^ f.unit : Nat) : Rat) = u at a1
      generalize ((2 ^ (g.unit - f.unit) : Nat) : Rat) = v at a2
      generalize ((f.scaled b : Int) : Rat) = x
      grind

end Riptide.Stack
