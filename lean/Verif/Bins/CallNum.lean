import Verif.Bins.CallSpec
import Verif.Stack.ConvertLemmas
import Verif.Convert.Props
/-! Casts keep the numbers both types have (C139). -/
namespace Riptide.Bins.Call
open Riptide.Convert (two_pow_pos)
open Riptide.Stack (log2_mul_pow pow_ne infMag_lt sign_mag)
open Riptide.Quick (rne)
open Riptide.Bins.Call.Spec (Ext floatVal)

/-- The two forms of a magnitude. -/
theorem scaledMag_cases (f : FT) (m : Nat) :
    (m < 2 ^ f.mb ∧ f.scaledMag m = m) ∨
    ∃ q e, m = e * 2 ^ f.mb + q ∧ 2 ^ f.mb ≤ q ∧ q < 2 * 2 ^ f.mb ∧ f.scaledMag m = q * 2 ^ e := by
  unfold FT.scaledMag
  have h1 := Nat.mod_lt m (two_pow_pos f.mb)
  have h2 := Nat.div_add_mod m (2 ^ f.mb)
  split
  · rename_i h
    rw [h, Nat.mul_zero] at h2
    exact .inl ⟨by omega, rfl⟩
  · rename_i h
    refine .inr ⟨2 ^ f.mb + m % 2 ^ f.mb, m / 2 ^ f.mb - 1, ?_, by omega, by omega, rfl⟩
    obtain ⟨e, he⟩ : ∃ e, m / 2 ^ f.mb = e + 1 := Nat.exists_eq_succ_of_ne_zero h
    rw [he] at h2
    rw [he, Nat.add_sub_cancel]
    have : 2 ^ f.mb * (e + 1) = e * 2 ^ f.mb + 2 ^ f.mb := by rw [Nat.mul_succ, Nat.mul_comm]
    omega

theorem scaledMag_step (f : FT) (m : Nat) : f.scaledMag m < f.scaledMag (m + 1) := by
  have h1 := Nat.mod_lt m (two_pow_pos f.mb)
  have h2 := Nat.div_add_mod m (2 ^ f.mb)
  have hp := two_pow_pos f.mb
  have hq := two_pow_pos (m / 2 ^ f.mb - 1)
  by_cases hr : m % 2 ^ f.mb + 1 < 2 ^ f.mb
  · have e1 : (m + 1) / 2 ^ f.mb = m / 2 ^ f.mb := by
      rw [Nat.div_eq_iff (by omega)]
      have := Nat.mul_comm (m / 2 ^ f.mb) (2 ^ f.mb)
      omega
    have e2 : (m + 1) % 2 ^ f.mb = m % 2 ^ f.mb + 1 := by
      have := Nat.div_add_mod (m + 1) (2 ^ f.mb)
      rw [e1] at this
      omega
    unfold FT.scaledMag
    rw [e1, e2]
    split
    · omega
    · exact Nat.mul_lt_mul_of_pos_right (by omega) hq
  · have e1 : (m + 1) / 2 ^ f.mb = m / 2 ^ f.mb + 1 := by
      rw [Nat.div_eq_iff (by omega), Nat.succ_mul]
      have := Nat.mul_comm (m / 2 ^ f.mb) (2 ^ f.mb)
      omega
    have e2 : (m + 1) % 2 ^ f.mb = 0 := by
      have := Nat.div_add_mod (m + 1) (2 ^ f.mb)
      rw [e1, Nat.mul_succ] at this
      omega
    unfold FT.scaledMag
    rw [e1, e2, if_neg (Nat.succ_ne_zero (m / 2 ^ f.mb)), Nat.add_sub_cancel]
    split
    · rename_i h
      rw [h] at h2 ⊢
      simp at h2 ⊢
      omega
    · rename_i h
      obtain ⟨e, he⟩ : ∃ e, m / 2 ^ f.mb = e + 1 := Nat.exists_eq_succ_of_ne_zero h
      rw [he, Nat.add_sub_cancel, Nat.add_zero]
      have : 2 ^ f.mb * 2 ^ (e + 1) = (2 * 2 ^ f.mb) * 2 ^ e := by rw [Nat.pow_succ]; ac_rfl
      rw [this]
      exact Nat.mul_lt_mul_of_pos_right (by omega) (two_pow_pos e)

theorem scaledMag_lt (f : FT) {m k : Nat} (h : m < k) : f.scaledMag m < f.scaledMag k := by
  induction h with
  | refl => exact scaledMag_step f m
  | step _ ih => exact Nat.lt_trans ih (scaledMag_step f _)

theorem scaledMag_lt_iff (f : FT) (m k : Nat) : f.scaledMag m < f.scaledMag k ↔ m < k := by
  constructor
  · intro h
    rcases Nat.lt_or_ge m k with h1 | h1
    · exact h1
    · rcases Nat.lt_or_eq_of_le h1 with h2 | h2
      · have := scaledMag_lt f h2; omega
      · rw [h2] at h; omega
  · exact scaledMag_lt f

theorem rne_exact (m s : Nat) : rne (m * 2 ^ s) s = m := by
  unfold rne
  have hp := two_pow_pos s
  rw [Nat.mul_mod_left, Nat.mul_div_cancel _ hp]
  rw [if_neg]
  omega

theorem log2_eq_of_mul {n q a b : Nat} (hn : n ≠ 0) (hq : q ≠ 0) (h : n * 2 ^ a = q * 2 ^ b) : n.log2 + a = q.log2 + b := by
  rw [← log2_mul_pow hn, ← log2_mul_pow hq, h]

theorem log2_of_range {q k : Nat} (h1 : 2 ^ k ≤ q) (h2 : q < 2 * 2 ^ k) : q.log2 = k := by
  have hp := two_pow_pos k
  rw [Nat.log2_eq_iff (by omega)]
  exact ⟨h1, by rw [Nat.pow_succ]; omega⟩

/-- A number which the format has is not changed by rounding. -/
theorem convMag_exact (g : FT) {u n m : Nat} (hm : m < g.infMag) (h : n * 2 ^ g.unit = g.scaledMag m * 2 ^ u) : convMag g u n = m := by
  unfold convMag
  by_cases hn : n = 0
  · rw [if_pos hn]
    rw [hn, Nat.zero_mul] at h
    have h0 : g.scaledMag m = 0 := by
      rcases Nat.mul_eq_zero.1 h.symm with h | h
      · exact h
      · have := two_pow_pos u; omega
    exact (Riptide.Stack.scaledMag_zero h0).symm
  · rw [if_neg hn]
    have hp := two_pow_pos g.mb
    rcases scaledMag_cases g m with ⟨h1, h2⟩ | ⟨q, e, h1, h2, h3, h4⟩
    · rw [h2] at h
      have hm0 : m ≠ 0 := by
        rintro rfl
        rw [Nat.zero_mul] at h
        rcases Nat.mul_eq_zero.1 h with h | h
        · exact hn h
        · have := two_pow_pos g.unit; omega
      have hl := log2_eq_of_mul hn hm0 h
      have : m.log2 < g.mb := by rw [Nat.log2_lt hm0]; exact h1
      rw [if_pos (by omega), h, rne_exact]
    · rw [h4, Nat.mul_assoc, ← Nat.pow_add] at h
      have hl := log2_eq_of_mul hn (by omega) h
      rw [log2_of_range h2 h3] at hl
      have hk : n.log2 + g.unit - u = g.mb + e := by omega
      rw [hk]
      split
      · have he : e = 0 := by omega
        subst he
        rw [h, Nat.zero_add, rne_exact]
        omega
      · have e1 : g.mb + e - g.mb = e := by omega
        rw [e1, h, Nat.add_comm e u, rne_exact]
        rw [Nat.min_eq_right (by omega), h1]

/-- The same for an integer. -/
theorem roundMag_exact (g : FT) (hg : Convert.Spec.Good g) {n m : Nat} (hn : n ≠ 0) (h : n * 2 ^ g.unit = g.scaledMag m) : g.roundMag n = m := by
  obtain ⟨_, _, hb⟩ := hg
  have hp := two_pow_pos g.mb
  have hu : g.unit = g.bias + g.mb - 1 := rfl
  have hbig : 2 * 2 ^ g.mb ≤ n * 2 ^ g.unit := by
    have : 2 * 2 ^ g.mb ≤ 2 ^ g.unit := by
      rw [← Nat.pow_succ']
      exact Nat.pow_le_pow_right (by decide) (by omega)
    exact Nat.le_trans this (Nat.le_mul_of_pos_left _ (by omega))
  rcases scaledMag_cases g m with ⟨h1, h2⟩ | ⟨q, e, h1, h2, h3, h4⟩
  · omega
  · rw [h4] at h
    have hl := log2_eq_of_mul hn (by omega) h
    rw [log2_of_range h2 h3] at hl
    unfold FT.roundMag
    dsimp only
    have he : n.log2 + g.bias = e + 1 := by omega
    rw [he]
    split
    · rename_i hk
      have : n * 2 ^ (g.mb - n.log2) = q := by
        have e1 : g.unit = e + (g.mb - n.log2) := by omega
        rw [e1, Nat.pow_add, Nat.mul_comm (2 ^ e), ← Nat.mul_assoc] at h
        exact Nat.eq_of_mul_eq_mul_right (two_pow_pos e) h
      rw [this, h1, Nat.succ_mul]
      omega
    · rename_i hk
      have : n = q * 2 ^ (n.log2 - g.mb) := by
        have e1 : e = (n.log2 - g.mb) + g.unit := by omega
        rw [e1, Nat.pow_add, ← Nat.mul_assoc] at h
        exact Nat.eq_of_mul_eq_mul_right (two_pow_pos _) h
      have hs := two_pow_pos (n.log2 - g.mb)
      have d1 : n / 2 ^ (n.log2 - g.mb) = q := by
        conv => lhs; lhs; rw [this]
        exact Nat.mul_div_cancel _ hs
      have d2 : n % 2 ^ (n.log2 - g.mb) = 0 := by
        conv => lhs; lhs; rw [this]
        exact Nat.mul_mod_left _ _
      rw [d1, d2]
      have hs2 := two_pow_pos (n.log2 - g.mb - 1)
      have d3 : decide (2 ^ (n.log2 - g.mb - 1) < 0) = false := by simp
      have d4 : decide (0 = 2 ^ (n.log2 - g.mb - 1)) = false := by simp only [decide_eq_false_iff_not]; omega
      rw [d3, d4]
      simp only [Bool.false_and, Bool.or_false, if_neg Bool.false_ne_true]
      rw [h1, Nat.succ_mul]
      omega

/-! ### Numbers of one format -/

/-- The model's type of a number of a type. -/
def Is (ty : Nat) (T : Num) : Prop :=
  match T with
  | .int t => Spec.whole ty = some t ∧ 1 < t.bits
  | .flt f => Spec.whole ty = none ∧ Spec.real ty = some f ∧ Convert.Spec.Good f

theorem good_ext : Convert.Spec.Good ext := by unfold Convert.Spec.Good; decide +kernel

theorem is_data {ty : Nat} {T : Num} (h : dataType ty = some T) : Is ty T := by
  unfold dataType at h
  split at h <;> first
    | (cases h; exact ⟨rfl, by decide⟩)
    | (cases h; exact ⟨rfl, rfl, Convert.good_f32⟩)
    | (cases h; exact ⟨rfl, rfl, Convert.good_f64⟩)
    | (cases h; exact ⟨rfl, rfl, good_ext⟩)
    | cases h

theorem is_bin {ty : Nat} {T : Num} (h : binType ty = some T) : Is ty T := by
  unfold binType at h
  split at h <;> first
    | (cases h; exact ⟨rfl, by decide⟩)
    | (cases h; exact ⟨rfl, rfl, Convert.good_f32⟩)
    | (cases h; exact ⟨rfl, rfl, Convert.good_f64⟩)
    | cases h

theorem number_int {ty : Nat} {t : IT} (h : Is ty (.int t)) (x : Int) : Spec.number ty x = some (.fin x) ∧ (Spec.Item ty x ↔ t.InRange x) := by
  unfold Spec.number Spec.Item
  rw [h.1]
  exact ⟨rfl, Iff.rfl⟩

theorem number_flt {ty : Nat} {f : FT} (h : Is ty (.flt f)) (x : Int) : Spec.number ty x = floatVal f x.toNat ∧
    (Spec.Item ty x ↔ 0 ≤ x ∧ x < (2 ^ (1 + f.eb + f.mb) : Nat)) := by
  unfold Spec.number Spec.Item
  rw [h.1, h.2.1]
  exact ⟨rfl, Iff.rfl⟩

theorem intCast_inj {a b : Int} (h : (a : Rat) = (b : Rat)) : a = b := by exact_mod_cast h

theorem scaled_of_fin {f : FT} {b : Nat} {q : Rat} (h : floatVal f b = some (.fin q)) :
    f.isFinite b = true ∧ f.isNan b = false ∧ q = (f.scaled b : Rat) / ((2 ^ f.unit : Nat) : Rat) := by
  unfold floatVal at h
  split at h
  · cases h
  · rename_i hn
    split at h
    · rename_i hf
      cases h
      exact ⟨hf, by simpa using hn, rfl⟩
    · split at h <;> cases h

theorem fin_of_scaled {f : FT} {b : Nat} (hf : f.isFinite b = true) : floatVal f b = some (.fin ((f.scaled b : Rat) / ((2 ^ f.unit : Nat) : Rat))) := by
  have hn : f.isNan b = false := by
    unfold FT.isFinite at hf
    unfold FT.isNan
    simp at hf ⊢
    omega
  unfold floatVal
  rw [hn, hf]
  rfl

theorem infinite_mag {f : FT} {b : Nat} (hn : f.isNan b = false) (hf : f.isFinite b = false) : f.mag b = f.infMag := by
  unfold FT.isNan at hn
  unfold FT.isFinite at hf
  simp at hn hf
  omega

theorem div_eq_int {a z : Int} {u : Nat} (h : (z : Rat) = (a : Rat) / ((2 ^ u : Nat) : Rat)) : a = z * (2 ^ u : Nat) := by
  have hp := pow_ne u
  have : ((z * (2 ^ u : Nat) : Int) : Rat) = (a : Rat) := by
    rw [Rat.intCast_mul, Rat.intCast_natCast, h]
    generalize ((2 ^ u : Nat) : Rat) = c at hp
    grind
  exact (intCast_inj this).symm

theorem int_div {z : Int} {u : Nat} : ((z * (2 ^ u : Nat) : Int) : Rat) / ((2 ^ u : Nat) : Rat) = (z : Rat) := by
  have hp := pow_ne u
  rw [Rat.intCast_mul, Rat.intCast_natCast]
  generalize ((2 ^ u : Nat) : Rat) = c at hp
  grind

theorem div_eq_div {a b : Int} {u v : Nat} (h : (a : Rat) / ((2 ^ u : Nat) : Rat) = (b : Rat) / ((2 ^ v : Nat) : Rat)) : a * (2 ^ v : Nat) = b * (2 ^ u : Nat) := by
  have h1 := pow_ne u
  have h2 := pow_ne v
  have : ((a * (2 ^ v : Nat) : Int) : Rat) = ((b * (2 ^ u : Nat) : Int) : Rat) := by
    rw [Rat.intCast_mul, Rat.intCast_natCast, Rat.intCast_mul, Rat.intCast_natCast]
    generalize ((2 ^ u : Nat) : Rat) = c at h1 h
    generalize ((2 ^ v : Nat) : Rat) = d at h2 h
    grind
  exact intCast_inj this

theorem div_of_eq {a b : Int} {u v : Nat} (h : a * (2 ^ v : Nat) = b * (2 ^ u : Nat)) : (a : Rat) / ((2 ^ u : Nat) : Rat) = (b : Rat) / ((2 ^ v : Nat) : Rat) := by
  have h1 := pow_ne u
  have h2 := pow_ne v
  have : ((a * (2 ^ v : Nat) : Int) : Rat) = ((b * (2 ^ u : Nat) : Int) : Rat) := by rw [h]
  rw [Rat.intCast_mul, Rat.intCast_natCast, Rat.intCast_mul, Rat.intCast_natCast] at this
  generalize ((2 ^ u : Nat) : Rat) = c at h1 this
  generalize ((2 ^ v : Nat) : Rat) = d at h2 this
  grind

theorem scaled_abs (f : FT) (b : Nat) : (f.scaled b).natAbs = f.scaledMag (f.mag b) := by
  unfold FT.scaled
  split <;> simp

/-- An integer which the format has is cast to its bits. -/
theorem ofInt_keeps {g : FT} (hg : Convert.Spec.Good g) {x : Int} {y : Nat} (h : floatVal g y = some (.fin x)) :
    floatVal g (g.ofInt x) = some (.fin x) := by
  obtain ⟨hf, _, hq⟩ := scaled_of_fin h
  have hs := div_eq_int hq
  have hm : g.mag y < g.infMag := by unfold FT.isFinite at hf; simpa using hf
  have ha : x.natAbs * 2 ^ g.unit = g.scaledMag (g.mag y) := by
    rw [← scaled_abs, hs, Int.natAbs_mul, Int.natAbs_natCast]
  unfold FT.ofInt
  by_cases h0 : x = 0
  · subst h0
    rw [if_pos rfl]
    have hi : 0 < g.infMag := by omega
    have hmag : g.mag 0 = 0 := by unfold FT.mag; simp
    have hfin : g.isFinite 0 = true := by unfold FT.isFinite; rw [hmag]; simpa using hi
    rw [fin_of_scaled hfin]
    have : g.scaled 0 = 0 := by
      unfold FT.scaled
      rw [hmag]
      have : g.scaledMag 0 = 0 := by unfold FT.scaledMag; simp
      rw [this]
      simp
    rw [this]
    simp [Rat.div_def]
  · rw [if_neg h0, roundMag_exact g hg (by omega) ha]
    have hlt : g.mag y < 2 ^ (g.eb + g.mb) := Nat.lt_trans hm infMag_lt
    have he : (if x < 0 then 2 ^ (g.eb + g.mb) else 0) = if decide (x < 0) = true then 2 ^ (g.eb + g.mb) else 0 := by simp
    obtain ⟨s1, s2⟩ := sign_mag (g := g) (decide (x < 0)) hlt
    rw [he]
    rw [fin_of_scaled (by unfold FT.isFinite; rw [s1]; simpa using hm)]
    have : g.scaled ((if decide (x < 0) = true then 2 ^ (g.eb + g.mb) else 0) + g.mag y) = x * (2 ^ g.unit : Nat) := by
      unfold FT.scaled
      rw [s1, s2, ← ha]
      by_cases hx : x < 0
      · rw [if_pos (by simpa using hx), Int.natCast_mul]
        have : ((x.natAbs : Nat) : Int) = -x := by omega
        rw [this, Int.neg_mul, Int.neg_neg]
      · rw [if_neg (by simpa using hx), Int.natCast_mul]
        have : ((x.natAbs : Nat) : Int) = x := by omega
        rw [this]
    rw [this, int_div]

/-- A number which both formats have is kept by the cast. -/
theorem convF_keeps {f g : FT} {x : Nat} {q : Ext} (h : floatVal f x = some q) (hg : ∃ y, floatVal g y = some q) :
    floatVal g (convF f g x) = some q := by
  obtain ⟨y, hy⟩ := hg
  unfold convF
  cases hn : f.isNan x with
  | true =>
    unfold floatVal at h
    rw [hn] at h
    cases h
  | false =>
    rw [if_neg Bool.false_ne_true]
    cases hf : f.isFinite x with
    | false =>
      rw [if_pos (infinite_mag hn hf)]
      obtain ⟨s1, s2⟩ := sign_mag (g := g) (f.neg x) infMag_lt
      unfold floatVal at h ⊢
      rw [hn, hf] at h
      unfold FT.isNan FT.isFinite
      rw [s1, s2]
      simpa using h
    | true =>
      have hq := fin_of_scaled hf
      rw [h] at hq
      have hq := Option.some.inj hq
      subst hq
      have hne : f.mag x ≠ f.infMag := by unfold FT.isFinite at hf; simp at hf; omega
      rw [if_neg hne]
      obtain ⟨hf', _, he⟩ := scaled_of_fin hy
      have he := div_eq_div he
      have hm : g.mag y < g.infMag := by unfold FT.isFinite at hf'; simpa using hf'
      have ha : f.scaledMag (f.mag x) * 2 ^ g.unit = g.scaledMag (g.mag y) * 2 ^ f.unit := by
        have := congrArg Int.natAbs he
        rw [Int.natAbs_mul, Int.natAbs_mul, Int.natAbs_natCast, Int.natAbs_natCast, scaled_abs, scaled_abs] at this
        exact this
      rw [convMag_exact g hm ha]
      obtain ⟨s1, s2⟩ := sign_mag (g := g) (f.neg x) (Nat.lt_trans hm infMag_lt)
      rw [fin_of_scaled (by unfold FT.isFinite; rw [s1]; simpa using hm)]
      congr 2
      apply div_of_eq
      unfold FT.scaled
      rw [s1, s2]
      have hz : ((g.scaledMag (g.mag y) : Nat) : Int) * (2 ^ f.unit : Nat) = ((f.scaledMag (f.mag x) : Nat) : Int) * (2 ^ g.unit : Nat) := by
        exact_mod_cast ha.symm
      cases f.neg x with
      | true => simp only [if_true]; rw [Int.neg_mul, Int.neg_mul, hz]
      | false => simp only [if_neg Bool.false_ne_true]; exact hz

/-- A cast keeps every number that both types have. -/
theorem cast_keeps {s d : Nat} {S D : Num} (hs : Is s S) (hd : Is d D) {x : Int} {q : Ext} (hq : Spec.number s x = some q) (hh : Spec.Has d q) :
    ∃ y, castNum S D x = some y ∧ Spec.number d y = some q := by
  obtain ⟨y, hy1, hy2⟩ := hh
  cases S with
  | int t =>
    rw [(number_int hs x).1] at hq
    cases hq
    cases D with
    | int u =>
      rw [(number_int hd y).1] at hy2
      have := intCast_inj (Ext.fin.inj (Option.some.inj hy2))
      subst this
      refine ⟨y, ?_, (number_int hd y).1⟩
      show some (u.wrap y) = some y
      rw [IT.wrap_of_inRange u (by have := hd.2; omega) ((number_int hd y).2.1 hy1)]
    | flt g =>
      rw [(number_flt hd y).1] at hy2
      refine ⟨(g.ofInt x : Int), rfl, ?_⟩
      rw [(number_flt hd _).1, Int.toNat_natCast]
      exact ofInt_keeps hd.2.2 hy2
  | flt f =>
    rw [(number_flt hs x).1] at hq
    cases D with
    | int u =>
      rw [(number_int hd y).1] at hy2
      cases hy2
      obtain ⟨hf, _, he⟩ := scaled_of_fin hq
      have he := div_eq_int he
      have ht : f.trunc x.toNat = y := Convert.trunc_exact f ⟨hf, he⟩
      refine ⟨y, ?_, (number_int hd y).1⟩
      show f.toInt u x.toNat = some y
      unfold FT.toInt
      rw [ht, if_pos ⟨hf, (number_int hd y).2.1 hy1⟩]
    | flt g =>
      rw [(number_flt hd y).1] at hy2
      refine ⟨_, rfl, ?_⟩
      rw [(number_flt hd _).1]
      by_cases hfg : f = g
      · rw [if_pos hfg, ← hfg]; exact hq
      · rw [if_neg hfg, Int.toNat_natCast]
        exact convF_keeps hq ⟨_, hy2⟩

/-! ### The comparisons -/

theorem div_lt_iff {a b : Int} {u : Nat} : (a : Rat) / ((2 ^ u : Nat) : Rat) < (b : Rat) / ((2 ^ u : Nat) : Rat) ↔ a < b := by
  have hp : (0 : Rat) < ((2 ^ u : Nat) : Rat) := by exact_mod_cast two_pow_pos u
  rw [Rat.div_def, Rat.div_def, Rat.mul_lt_mul_right (Rat.inv_pos.2 hp)]
  exact Rat.intCast_lt_intCast

theorem key_lt (f : FT) (a b : Nat) : f.key a < f.key b ↔ f.scaled a < f.scaled b := by
  have h := scaledMag_lt_iff f (f.mag a) (f.mag b)
  have h' := scaledMag_lt_iff f (f.mag b) (f.mag a)
  have z : ∀ m, f.scaledMag m = 0 ↔ m = 0 := fun m => ⟨Riptide.Stack.scaledMag_zero, fun h => by subst h; unfold FT.scaledMag; simp⟩
  have z1 := z (f.mag a)
  have z2 := z (f.mag b)
  unfold FT.key FT.scaled
  generalize f.scaledMag (f.mag a) = p at *
  generalize f.scaledMag (f.mag b) = r at *
  generalize f.mag a = m at *
  generalize f.mag b = k at *
  cases f.neg a <;> cases f.neg b <;> simp <;> omega

theorem float_lt {f : FT} (hg : Convert.Spec.Good f) {a b : Nat} {p q : Ext} (ha : floatVal f a = some p) (hb : floatVal f b = some q) :
    f.isNan a = false ∧ f.isNan b = false ∧ (f.key a < f.key b ↔ p.lt q = true) := by
  have na : f.isNan a = false := by
    cases h : f.isNan a with
    | false => rfl
    | true => unfold floatVal at ha; rw [h] at ha; cases ha
  have nb : f.isNan b = false := by
    cases h : f.isNan b with
    | false => rfl
    | true => unfold floatVal at hb; rw [h] at hb; cases hb
  refine ⟨na, nb, ?_⟩
  cases fa : f.isFinite a with
  | true =>
    have ea := fin_of_scaled fa
    rw [ha] at ea
    have ea := Option.some.inj ea
    subst ea
    have ma : f.mag a < f.infMag := by unfold FT.isFinite at fa; simpa using fa
    cases fb : f.isFinite b with
    | true =>
      have eb := fin_of_scaled fb
      rw [hb] at eb
      have eb := Option.some.inj eb
      subst eb
      rw [key_lt]
      show _ ↔ decide (_ < _) = true
      rw [decide_eq_true_eq, div_lt_iff]
    | false =>
      have mb := infinite_mag nb fb
      unfold floatVal at hb
      rw [nb, fb] at hb
      simp at hb
      unfold FT.key
      rw [mb]
      cases hn : f.neg b <;> rw [hn] at hb <;> simp at hb <;> subst hb <;> cases f.neg a <;> simp [Ext.lt] <;> omega
  | false =>
    have ma := infinite_mag na fa
    unfold floatVal at ha
    rw [na, fa] at ha
    simp at ha
    cases fb : f.isFinite b with
    | true =>
      have eb := fin_of_scaled fb
      rw [hb] at eb
      have eb := Option.some.inj eb
      subst eb
      have mb : f.mag b < f.infMag := by unfold FT.isFinite at fb; simpa using fb
      unfold FT.key
      rw [ma]
      cases hn : f.neg a <;> rw [hn] at ha <;> simp at ha <;> subst ha <;> cases f.neg b <;> simp [Ext.lt] <;> omega
    | false =>
      have mb := infinite_mag nb fb
      unfold floatVal at hb
      rw [nb, fb] at hb
      simp at hb
      have hi : 0 < f.infMag := by
        unfold FT.infMag
        obtain ⟨he, _, _⟩ := hg
        have : 2 ^ f.eb = 2 * 2 ^ (f.eb - 1) := by rw [← Nat.pow_succ']; congr 1; omega
        have := two_pow_pos (f.eb - 1)
        exact Nat.mul_pos (by omega) (two_pow_pos _)
      unfold FT.key
      rw [ma, mb]
      cases hn : f.neg a <;> rw [hn] at ha <;> simp at ha <;> subst ha <;> cases hm : f.neg b <;> rw [hm] at hb <;> simp at hb <;> subst hb <;> simp [Ext.lt] <;> omega

theorem lt_total {a b : Ext} (h1 : a.lt b = false) (h2 : b.lt a = false) : a = b := by
  cases a <;> cases b <;> simp [Ext.lt] at h1 h2 ⊢
  grind

theorem lt_asymm {a b : Ext} (h : a.lt b = true) : b.lt a = false := by
  cases a <;> cases b <;> simp [Ext.lt] at h ⊢
  grind

theorem lt_irrefl (a : Ext) : a.lt a = false := by
  cases a <;> simp [Ext.lt]

theorem lt_of_lt_of_le {a b c : Ext} (h1 : a.lt b = true) (h2 : c.lt b = false) : a.lt c = true := by
  cases a <;> cases b <;> cases c <;> simp [Ext.lt] at h1 h2 ⊢
  grind

theorem lt_of_le_of_lt {a b c : Ext} (h1 : b.lt a = false) (h2 : b.lt c = true) : a.lt c = true := by
  cases a <;> cases b <;> cases c <;> simp [Ext.lt] at h1 h2 ⊢
  grind

/-- The comparison of two numbers of one type. -/
theorem ltN_eq {ty : Nat} {T : Num} (h : Is ty T) {x y : Int} {p q : Ext} (hx : Spec.number ty x = some p) (hy : Spec.number ty y = some q) :
    ltN T x y = p.lt q := by
  cases T with
  | int t =>
    rw [(number_int h _).1] at hx hy
    cases hx
    cases hy
    show decide (x < y) = decide ((x : Rat) < (y : Rat))
    rw [decide_eq_decide]
    exact Rat.intCast_lt_intCast.symm
  | flt f =>
    rw [(number_flt h _).1] at hx hy
    obtain ⟨n1, n2, hk⟩ := float_lt h.2.2 hx hy
    show f.lt _ _ = _
    unfold FT.lt
    rw [n1, n2, Bool.eq_iff_iff, ← hk]
    simp

theorem leN_eq {ty : Nat} {T : Num} (h : Is ty T) {x y : Int} {p q : Ext} (hx : Spec.number ty x = some p) (hy : Spec.number ty y = some q) :
    leN T x y = !q.lt p := by
  rw [← ltN_eq h hy hx]
  cases T with
  | int t =>
    show decide (x ≤ y) = !decide (y < x)
    by_cases h : y < x <;> simp [h] <;> omega
  | flt f =>
    rw [(number_flt h _).1] at hx hy
    obtain ⟨n1, n2, hk⟩ := float_lt h.2.2 hx hy
    show (f.lt _ _ || f.eq _ _) = !f.lt _ _
    unfold FT.lt FT.eq
    rw [n1, n2, Bool.eq_iff_iff]
    simp
    omega

/-- A NaN is in no relation. -/
theorem nan_false {ty : Nat} {T : Num} (h : Is ty T) {x y : Int} (hn : Spec.number ty x = none ∨ Spec.number ty y = none) :
    ltN T x y = false ∧ leN T x y = false := by
  cases T with
  | int t =>
    rw [(number_int h _).1, (number_int h _).1] at hn
    rcases hn with hn | hn <;> cases hn
  | flt f =>
    rw [(number_flt h _).1, (number_flt h _).1] at hn
    have key : ∀ z : Nat, floatVal f z = none → f.isNan z = true := by
      intro z hz
      unfold floatVal at hz
      split at hz
      · assumption
      · split at hz <;> cases hz
    show f.lt _ _ = false ∧ (f.lt _ _ || f.eq _ _) = false
    unfold FT.lt FT.eq
    rcases hn with hn | hn <;> simp [key _ hn]

end Riptide.Bins.Call
