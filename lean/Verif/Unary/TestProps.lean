import Verif.Unary.KernelProps
import Verif.Binary.VecLemmas
/-! What holds of the tests. -/
namespace Riptide.Unary
open Riptide.Work Riptide.Binary

/-- What a test of a number should say. -/
def Test.meaning (t : Test) (c : Spec.Class) (neg : Bool) : Bool :=
  match t with
  | .isnan => c == .nan
  | .isnotnan => c != .nan
  | .isfinite => c != .nan && c != .inf
  | .isnotfinite => c == .nan || c == .inf
  | .isinf => c == .inf
  | .isnotinf => c != .inf
  | .isnormal => c == .normal
  | .isnotnormal => c != .normal
  | .isnanorzero => c == .nan || c == .zero
  | .signbit => neg
  | .lnot => c == .zero

theorem lanes_lut {n w : Nat} (h : 0 < n) (p : BitVec n → Bool) (v : List (BitVec n)) (hv : v.length = w) :
    lut w (movemask (v.map fun a => laneMask n (p a)) &&& (2 ^ w - 1)) = v.map fun a => boolByte (p a) := by
  have e : (v.map fun a => laneMask n (p a)) = (v.map p).map (laneMask n) := by rw [List.map_map]; rfl
  have hl : (v.map p).length = w := by rw [List.length_map]; exact hv
  rw [e, movemask_mask h, Nat.and_two_pow_sub_one_eq_mod, Nat.mod_eq_of_lt (by rw [← hl]; exact bitsOf_lt _)]
  have := lut_bitsOf (v.map p)
  rw [hl] at this
  rw [this, List.map_map]; rfl

theorem lanes_lutInv {n w : Nat} (h : 0 < n) (p : BitVec n → Bool) (v : List (BitVec n)) (hv : v.length = w) :
    lutInv w (movemask (v.map fun a => laneMask n (p a)) &&& (2 ^ w - 1)) = v.map fun a => boolByte (!p a) := by
  have e : (v.map fun a => laneMask n (p a)) = (v.map p).map (laneMask n) := by rw [List.map_map]; rfl
  have hl : (v.map p).length = w := by rw [List.length_map]; exact hv
  rw [e, movemask_mask h, Nat.and_two_pow_sub_one_eq_mod, Nat.mod_eq_of_lt (by rw [← hl]; exact bitsOf_lt _)]
  have := lutInv_bitsOf (v.map p)
  rw [hl] at this
  rw [this, List.map_map]; rfl

theorem and_field (b eb mb : Nat) : b &&& ((2 ^ eb - 1) * 2 ^ mb) = b / 2 ^ mb % 2 ^ eb * 2 ^ mb := by
  rw [← Nat.shiftLeft_eq, ← Nat.shiftLeft_eq, ← Nat.and_two_pow_sub_one_eq_mod, ← Nat.shiftRight_eq_div_pow]
  apply Nat.eq_of_testBit_eq
  intro i
  simp only [Nat.testBit_and, Nat.testBit_shiftLeft, Nat.testBit_shiftRight]
  by_cases h : mb ≤ i
  · simp [h, show mb + (i - mb) = i by omega]
  · simp [h]

theorem mag_fields (f : FT) (b : Nat) : f.mag b = b / 2 ^ f.mb % 2 ^ f.eb * 2 ^ f.mb + b % 2 ^ f.mb := by
  unfold FT.mag
  rw [Nat.add_comm f.eb, Nat.pow_add, Nat.mod_mul]
  rw [Nat.mul_comm]; omega

theorem class_facts {f : FT} (hf : Fmt f) (b : Nat) :
    (f.isNan b = (Spec.class_ f b == .nan)) ∧ (f.isFinite b = (Spec.class_ f b != .nan && Spec.class_ f b != .inf)) ∧
    (decide (f.mag b = f.infMag) = (Spec.class_ f b == .inf)) ∧ (decide (f.mag b = 0) = (Spec.class_ f b == .zero)) ∧
    ((decide (2 ^ f.mb ≤ f.mag b) && f.isFinite b) = (Spec.class_ f b == .normal)) := by
  have hm := mag_fields f b
  have hlt : b / 2 ^ f.mb % 2 ^ f.eb < 2 ^ f.eb := Nat.mod_lt _ (Nat.pow_pos (by decide))
  have hml : b % 2 ^ f.mb < 2 ^ f.mb := Nat.mod_lt _ (Nat.pow_pos (by decide))
  have he : 2 ≤ 2 ^ f.eb := by rcases hf with rfl | rfl <;> decide
  unfold FT.isNan FT.isFinite FT.infMag Spec.class_
  rw [hm]
  dsimp only
  generalize b / 2 ^ f.mb % 2 ^ f.eb = e at *
  generalize b % 2 ^ f.mb = m at *
  generalize 2 ^ f.eb = E at *
  generalize 2 ^ f.mb = M at *
  have hcase : e = E - 1 ∨ (e + 1) * M ≤ (E - 1) * M := by
    by_cases h : e = E - 1
    · exact .inl h
    · exact .inr (Nat.mul_le_mul_right _ (by omega))
  have hone : e = 0 ∨ M ≤ e * M := by
    by_cases h : e = 0
    · exact .inl h
    · exact .inr (Nat.le_mul_of_pos_left _ (by omega))
  have hE : M ≤ (E - 1) * M := Nat.le_mul_of_pos_left _ (by omega)
  rw [Nat.add_mul, Nat.one_mul] at hcase
  by_cases h1 : e = E - 1
  · rw [if_pos h1, ← h1]
    rw [← h1] at hE
    generalize e * M = P at *
    by_cases h2 : m = 0
    · rw [if_pos h2, h2]
      refine ⟨?_, ?_, ?_, ?_, ?_⟩ <;> grind
    · rw [if_neg h2]
      refine ⟨?_, ?_, ?_, ?_, ?_⟩ <;> grind
  · rw [if_neg h1]
    have hc : e * M + M ≤ (E - 1) * M := by rcases hcase with h | h; exact absurd h h1; exact h
    generalize (E - 1) * M = Q at *
    by_cases h2 : e = 0
    · rw [if_pos h2]
      subst h2
      simp only [Nat.zero_mul, Nat.zero_add] at *
      by_cases h3 : m = 0
      · rw [if_pos h3, h3]
        refine ⟨?_, ?_, ?_, ?_, ?_⟩ <;> grind
      · rw [if_neg h3]
        refine ⟨?_, ?_, ?_, ?_, ?_⟩ <;> grind
    · rw [if_neg h2]
      have : M ≤ e * M := by rcases hone with h | h; exact absurd h h2; exact h
      generalize e * M = P at *
      refine ⟨?_, ?_, ?_, ?_, ?_⟩ <;> grind

theorem key_zero (f : FT) (b : Nat) : f.eq b 0 = (!f.isNan b && decide (f.mag b = 0)) := by
  have h0 : f.mag 0 = 0 := by unfold FT.mag; simp
  have hk : f.key 0 = 0 := by unfold FT.key; rw [h0]; split <;> rfl
  have hn : f.isNan 0 = false := by unfold FT.isNan; rw [h0]; simp
  unfold FT.eq
  rw [hk, hn]
  have : (f.key b = 0) ↔ f.mag b = 0 := by
    unfold FT.key
    split <;> omega
  simp [this]

/-- Every test of floats and doubles says what the class of the number says. -/
theorem test_scalar {f : FT} (hf : Fmt f) (t : Test) (b : Nat) : testF f t b = t.meaning (Spec.class_ f b) (f.neg b) := by
  obtain ⟨h1, h2, h3, h4, h5⟩ := class_facts hf b
  cases t <;> unfold testF Test.meaning <;> dsimp only
  · exact h1
  · rw [h1]; rfl
  · exact h2
  · rw [h2]; cases Spec.class_ f b <;> rfl
  · exact h3
  · rw [h3]; rfl
  · exact h5
  · rw [h5]; rfl
  · rw [key_zero, h1, h4]; cases Spec.class_ f b <;> rfl
  · rw [key_zero, h1, h4]; cases Spec.class_ f b <;> rfl

theorem expBits_eq {f : FT} {n : Nat} (hn : n = 1 + f.eb + f.mb) (a : BitVec n) :
    expBits f a = a.toNat / 2 ^ f.mb % 2 ^ f.eb * 2 ^ f.mb := by
  unfold expBits
  rw [BitVec.toNat_and, BitVec.toNat_ofNat]
  have : f.infMag < 2 ^ n := by
    unfold FT.infMag
    have h1 : 0 < 2 ^ f.eb := Nat.pow_pos (by decide)
    have h2 : 0 < 2 ^ f.mb := Nat.pow_pos (by decide)
    rw [hn, Nat.pow_add, Nat.pow_add]
    calc (2 ^ f.eb - 1) * 2 ^ f.mb < 2 ^ f.eb * 2 ^ f.mb := Nat.mul_lt_mul_of_pos_right (by omega) h2
      _ ≤ 2 ^ 1 * 2 ^ f.eb * 2 ^ f.mb := Nat.mul_le_mul_right _ (by omega)
  rw [Nat.mod_eq_of_lt this]
  exact and_field _ _ _

theorem field_facts {f : FT} (e : Nat) (he : e < 2 ^ f.eb) :
    f.isNan (e * 2 ^ f.mb) = false ∧ f.key (e * 2 ^ f.mb) = ((e * 2 ^ f.mb : Nat) : Int) := by
  have h2 : 0 < 2 ^ f.mb := Nat.pow_pos (by decide)
  have hlt : e * 2 ^ f.mb < 2 ^ (f.eb + f.mb) := by
    rw [Nat.pow_add]; exact Nat.mul_lt_mul_of_pos_right he h2
  have hm : f.mag (e * 2 ^ f.mb) = e * 2 ^ f.mb := by unfold FT.mag; exact Nat.mod_eq_of_lt hlt
  constructor
  · unfold FT.isNan FT.infMag
    rw [hm]
    have : e * 2 ^ f.mb ≤ (2 ^ f.eb - 1) * 2 ^ f.mb := Nat.mul_le_mul_right _ (by omega)
    simp; omega
  · have hneg : f.neg (e * 2 ^ f.mb) = false := by
      unfold FT.neg
      simp [hlt]
    unfold FT.key
    rw [hm, hneg]
    rfl

theorem exp_eq_iff {f : FT} {n : Nat} (hf : Fmt f) (hn : n = 1 + f.eb + f.mb) (a : BitVec n) :
    f.isNan (expBits f a) = false ∧ f.isNan f.infMag = false ∧
    (decide (f.key f.infMag = f.key (expBits f a)) = !f.isFinite a.toNat) := by
  have hp : 0 < 2 ^ f.eb := Nat.pow_pos (by decide)
  have h2 : 0 < 2 ^ f.mb := Nat.pow_pos (by decide)
  have he : a.toNat / 2 ^ f.mb % 2 ^ f.eb < 2 ^ f.eb := Nat.mod_lt _ hp
  obtain ⟨a1, a2⟩ := field_facts _ he
  obtain ⟨b1, b2⟩ := field_facts (f := f) (2 ^ f.eb - 1) (by omega)
  rw [expBits_eq hn]
  refine ⟨a1, b1, ?_⟩
  rw [a2]
  unfold FT.infMag
  rw [b2]
  have hfin := (class_facts hf a.toNat).2.1
  rw [hfin]
  unfold Spec.class_
  dsimp only
  generalize a.toNat / 2 ^ f.mb % 2 ^ f.eb = e at *
  by_cases h : e = 2 ^ f.eb - 1
  · rw [if_pos h, h]
    split <;> simp
  · rw [if_neg h]
    have : ¬ (((2 ^ f.eb - 1) * 2 ^ f.mb : Nat) : Int) = ((e * 2 ^ f.mb : Nat) : Int) := by
      intro hc
      have hc' : (2 ^ f.eb - 1) * 2 ^ f.mb = e * 2 ^ f.mb := by exact_mod_cast hc
      exact h (Nat.eq_of_mul_eq_mul_right h2 hc').symm
    rw [decide_eq_false this]
    split
    · split <;> simp
    · simp

/-- The tests which use registers say the same as those which do not. -/
theorem test_vector {f : FT} {n w : Nat} (hf : Fmt f) (hn : n = 1 + f.eb + f.mb) {t : Test} (ht : t.fast = true) (v : List (BitVec n))
    (hv : v.length = w) : testFV f w t v = v.map fun a => boolByte (testF f t a.toNat) := by
  have h0 : 0 < n := by omega
  cases t <;> first | exact absurd ht (by decide) | skip
  · refine (lanes_lutInv h0 (fun a => f.eq a.toNat a.toNat) v hv).trans (List.map_congr_left fun a _ => ?_)
    unfold testF FT.eq
    simp
  · refine (lanes_lut h0 (fun a => f.eq a.toNat a.toNat) v hv).trans (List.map_congr_left fun a _ => ?_)
    unfold testF FT.eq
    simp
  · refine (lanes_lut h0 (fun a => !f.isNan f.infMag && !f.isNan (expBits f a) && decide (f.key f.infMag ≠ f.key (expBits f a))) v hv).trans
      (List.map_congr_left fun a _ => ?_)
    obtain ⟨h1, h2, h3⟩ := exp_eq_iff hf hn a
    dsimp only [testF]
    rw [h1, h2, decide_not, h3]
    simp
  · refine (lanes_lut h0 (fun a => f.eq f.infMag (expBits f a)) v hv).trans (List.map_congr_left fun a _ => ?_)
    obtain ⟨h1, h2, h3⟩ := exp_eq_iff hf hn a
    dsimp only [testF]
    unfold FT.eq
    rw [h1, h2, h3]
    simp

/-- Every test of an array of floats or doubles, whatever its length, the alignment and the work of the threads: each row says what the class of
its number says. -/
theorem test_rows {f : FT} {n w : Nat} (hf : Fmt f) (hn : n = 1 + f.eb + f.mb) (hw : w * n = 256) (t : Test) (wide : Bool) (xs : List (BitVec n))
    {workers : Nat} {nt : Bool} {par : Option (List Nat)} (h : ChunkSched workers xs.length nt par) :
    (unaryWork (testCall f w t wide) xs par).bind (runWrites xs.length) =
      some (xs.map fun a => some (boolByte (t.meaning (Spec.class_ f a.toNat) (f.neg a.toNat)))) := by
  have hmap : (xs.map fun a => some (boolByte (t.meaning (Spec.class_ f a.toNat) (f.neg a.toNat)))) =
      (xs.map fun a => boolByte (testF f t a.toNat)).map some := by
    rw [List.map_map]
    exact List.map_congr_left fun a _ => by simp [test_scalar hf]
  rw [hmap]
  have hw' : (0 < w ∧ w ∣ chunk) := by
    rcases hf with rfl | rfl
    · have hn' : n = 32 := hn
      rw [hn'] at hw
      have : w = 8 := by omega
      subst this; exact ⟨by decide, by decide⟩
    · have hn' : n = 64 := hn
      rw [hn'] at hw
      have : w = 4 := by omega
      subst this; exact ⟨by decide, by decide⟩
  cases ht : t.fast with
  | true =>
    have e : testCall (n := n) f w t wide = fastCall (testFV f w t) (fun a => some (boolByte (testF f t a.toNat))) w wide := by
      funext l; unfold testCall; rw [ht]; rfl
    rw [e, fastWork_exact (g := fun a => boolByte (testF f t a.toNat)) hw'.1 hw'.2 (fun l hl => test_vector hf hn ht l hl) wide xs (fun _ _ => rfl) h,
      outRows_same _ _ _ _ (fun _ _ => rfl)]
  | false =>
    have e : testCall (n := n) f w t wide = slowCall (fun a => some (boolByte (testF f t a.toNat))) := by
      funext l; unfold testCall; rw [ht]; rfl
    rw [e, slowWork_exact (g := fun a => boolByte (testF f t a.toNat)) xs (fun _ _ => rfl) h]

/-- The class of an integer: riptide's invalid counts as NaN. -/
def intClass (t : IT) (x : Int) : Spec.Class := if x = t.inv then .nan else if x = 0 then .zero else .normal

theorem inv_ne_zero {t : IT} (hb : 0 < t.bits) : t.inv ≠ 0 := by
  unfold IT.inv IT.lo IT.hi
  have h1 : (0 : Int) < 2 ^ (t.bits - 1) := IT.pow_pos _
  have h2 : (2 : Int) ^ t.bits = 2 * 2 ^ (t.bits - 1) := by
    rw [show t.bits = (t.bits - 1) + 1 by omega, Int.pow_succ]; simp; omega
  rw [h2]
  generalize (2 : Int) ^ (t.bits - 1) = P at *
  cases t.signed <;> simp <;> omega

theorem wrap_zero {t : IT} (hb : 0 < t.bits) {x : Int} (hx : t.InRange x) : IT.wrap ⟨t.bits, true⟩ x = 0 ↔ x = 0 := by
  have h1 : (0 : Int) < 2 ^ (t.bits - 1) := IT.pow_pos _
  have h2 : (2 : Int) ^ t.bits = 2 * 2 ^ (t.bits - 1) := by
    rw [show t.bits = (t.bits - 1) + 1 by omega, Int.pow_succ]; simp; omega
  have hl : IT.lo ⟨t.bits, true⟩ = - 2 ^ (t.bits - 1) := rfl
  have hr : -(2 : Int) ^ (t.bits - 1) ≤ x ∧ x < 2 ^ t.bits := by
    obtain ⟨a, b⟩ := hx
    unfold IT.lo at a
    unfold IT.hi at b
    rw [h2] at b ⊢
    generalize (2 : Int) ^ (t.bits - 1) = P at *
    cases hs : t.signed <;> rw [hs] at a b <;> simp at a b <;> omega
  unfold IT.wrap
  rw [hl]
  dsimp only
  constructor
  · intro h
    rw [h2] at h hr
    generalize (2 : Int) ^ (t.bits - 1) = P at *
    have := Int.emod_add_mul_ediv (x - -P) (2 * P)
    have h3 : 2 * P * ((x - -P) / (2 * P)) = x := by omega
    generalize (x - -P) / (2 * P) = q at *
    rcases Int.lt_trichotomy q 0 with hq | hq | hq
    · have : 2 * P * q ≤ 2 * P * (-1) := Int.mul_le_mul_of_nonneg_left (by omega) (by omega)
      omega
    · subst hq; simpa using h3.symm
    · have : 2 * P * 1 ≤ 2 * P * q := Int.mul_le_mul_of_nonneg_left (by omega) (by omega)
      omega
  · intro h
    subst h
    rw [h2]
    generalize (2 : Int) ^ (t.bits - 1) = P at *
    rw [Int.emod_eq_of_lt (by omega) (by omega)]
    omega

/-- Tests of integers follow the class, except that the invalid and zero are said to be normal. -/
theorem test_int_partial {t : IT} (hb : 0 < t.bits) {x : Int} (hx : t.InRange x) {k : Test} {b : Bool} (h : testI t k x = some b)
    (hk : (k ≠ .isnormal ∧ k ≠ .isnotnormal) ∨ intClass t x = .normal) : b = k.meaning (intClass t x) (decide (x < 0)) := by
  have hinv := inv_ne_zero hb
  have hwr := wrap_zero hb hx
  unfold intClass at *
  cases k <;> simp only [testI, Option.some.injEq, reduceCtorEq] at h <;> subst h <;> unfold Test.meaning <;> dsimp only <;>
    (try simp only [hwr]) <;> by_cases h1 : x = t.inv <;> by_cases h2 : x = 0 <;> simp_all

/-- Only the invalid and zero are said to be normal although they are not. -/
theorem test_int_wrong (t : IT) : testI t .isnormal t.inv = some true ∧ Test.isnormal.meaning (intClass t t.inv) false = false := by
  refine ⟨rfl, ?_⟩
  unfold intClass
  rw [if_pos rfl]; rfl

/-- Tests of booleans stored as 0 or 1: true is a normal number and false is zero, which is said to be normal too. -/
theorem test_bool_partial (v : Bool) {k : Test} {b : Bool} (h : testB (boolByte v) k = some b)
    (hk : (k ≠ .isnormal ∧ k ≠ .isnotnormal) ∨ v = true) : b = k.meaning (if v then .normal else .zero) false := by
  cases v <;> cases k <;> simp [testB, boolByte, Test.meaning] at * <;> first | exact h | exact h.symm | simp [h] | trivial

/-- A byte of a boolean array which is neither 0 nor 1, as views make them, can be said to be NaN by one test and not by the other. -/
theorem test_bool_wrong : testB 128 .isnan = some false ∧ testB 128 .isnanorzero = some true ∧ testB 128 .lnot = some false := by decide

/-- The bytes of one character of a string: its code point in little-endian order, one byte for `S` and four for `U`. -/
def charBytes (size c : Nat) : List (BitVec 8) := (List.range size).map fun k => BitVec.ofNat 8 (c / 256 ^ k)

/-- The bytes of a string. -/
def textBytes (size : Nat) (chars : List Nat) : List (BitVec 8) := chars.flatMap (charBytes size)

theorem head_text {size : Nat} (hs : 0 < size) (c : Nat) (cs : List Nat) : (textBytes size (c :: cs)).head? = some (BitVec.ofNat 8 c) := by
  obtain ⟨k, rfl⟩ : ∃ k, size = k + 1 := ⟨size - 1, by omega⟩
  simp [textBytes, charBytes, List.range_succ_eq_map]

/-- A text is said to be invalid exactly if its first character is a multiple of 256. -/
theorem text_iff {size : Nat} (hs : 0 < size) (c : Nat) (cs : List Nat) : textInvalid (textBytes size (c :: cs)) = true ↔ c % 256 = 0 := by
  unfold textInvalid
  rw [head_text hs]
  simp [← BitVec.toNat_inj]

/-- Where no character is 0 before one which is not, and the first is not a multiple of 256 such as U+0100, exactly the empty texts are invalid. -/
theorem text_partial {size : Nat} (hs : 0 < size) (c : Nat) (cs : List Nat) (h0 : c = 0 → ∀ x ∈ cs, x = 0) (h1 : c % 256 = 0 → c = 0) :
    textInvalid (textBytes size (c :: cs)) = Spec.emptyText (c :: cs) := by
  have h := text_iff hs c cs
  unfold Spec.emptyText
  by_cases hc : c = 0
  · rw [h.mpr (by rw [hc])]
    symm
    simpa [hc] using h0 hc
  · have : ¬ c % 256 = 0 := fun h => hc (h1 h)
    rw [Bool.eq_false_iff.mpr (fun hh => this (h.mp hh))]
    simp [hc]

/-- The unguarded statement is false: "Ā" and the bytes "\0a" are texts with characters. -/
theorem text_wrong :
    (textInvalid (textBytes 4 [0x100, 0x62]) = true ∧ Spec.emptyText [0x100, 0x62] = false) ∧
    (textInvalid (textBytes 1 [0, 0x61]) = true ∧ Spec.emptyText [0, 0x61] = false) := by decide

example : textInvalid (textBytes 4 [0x62, 0x100]) = Spec.emptyText [0x62, 0x100] :=
  text_partial (by decide) _ _ (by decide) (by decide)

/-- The hypotheses can be met: nine floats, among them a NaN, an infinity and a subnormal, tested with registers in an array run by one thread. -/
example : (unaryWork (testCall .f32 8 .isnotfinite true) ([0x7fc00000, 0xff800000, 1, 0x3f800000, 0, 0, 0, 0, 0x7f800000] : List (BitVec 32)) none).bind
    (runWrites 9) = some [some 1, some 1, some 0, some 0, some 0, some 0, some 0, some 0, some 1] :=
  test_rows (workers := 3) (nt := false) (f := .f32) (n := 32) (w := 8) (.inl rfl) rfl rfl .isnotfinite true _ (.direct (.inl (by decide)))

example : (true : Bool) = Test.isnan.meaning (intClass .i32 (-2147483648)) true :=
  test_int_partial (t := .i32) (by decide) (by decide) (k := .isnan) rfl (.inl ⟨by decide, by decide⟩)

end Riptide.Unary
