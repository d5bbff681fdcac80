import Verif.Binary.Upcast
/-! What holds of the choice of a common type and of the conversion of scalars. -/
namespace Riptide.Binary

/-- What a type number stands for. -/
inductive Kind where
  | bool
  | int (bits : Nat)
  | uint (bits : Nat)
  | float (bits : Nat)
  deriving DecidableEq, Repr

/-- numpy's types on Linux. -/
def kindOf : Nat → Kind
  | 0 => .bool
  | 1 => .int 8 | 3 => .int 16 | 5 => .int 32 | 7 => .int 64 | 9 => .int 64
  | 2 => .uint 8 | 4 => .uint 16 | 6 => .uint 32 | 8 => .uint 64 | 10 => .uint 64
  | 11 => .float 32 | 12 => .float 64
  | _ => .float 128

/-- The bits of the smallest float type which numpy takes for an integer type. -/
def floatFor (bits : Nat) : Nat := if bits ≤ 8 then 16 else if bits ≤ 16 then 32 else 64

/-- numpy's rules: the smallest type which holds both (64-bit integers count as float64). -/
def promote : Kind → Kind → Kind
  | .bool, k => k
  | k, .bool => k
  | .int a, .int b => .int (max a b)
  | .uint a, .uint b => .uint (max a b)
  | .int a, .uint b => if b < a then .int a else if b < 64 then .int (2 * b) else .float 64
  | .uint b, .int a => if b < a then .int a else if b < 64 then .int (2 * b) else .float 64
  | .float a, .float b => .float (max a b)
  | .int a, .float b => .float (max (floatFor a) b)
  | .uint a, .float b => .float (max (floatFor a) b)
  | .float b, .int a => .float (max (floatFor a) b)
  | .float b, .uint a => .float (max (floatFor a) b)

/-- float32 with an integer of 32 or 64 bits. -/
def narrow : Kind → Kind → Bool
  | .float 32, .int b => decide (32 ≤ b)
  | .float 32, .uint b => decide (32 ≤ b)
  | .int b, .float 32 => decide (32 ≤ b)
  | .uint b, .float 32 => decide (32 ≤ b)
  | _, _ => false

/-- C97: two arrays of the same length are converted to numpy's common type, but for float32 with integers of 32 or 64 bits, which
stays float32. -/
theorem arrays_numpy_iff : ∀ i j : Nat, i ≤ 13 → j ≤ 13 →
    ((checkUpcast false i j).map fun (a, b) => (kindOf a, kindOf b)) =
      if narrow (kindOf i) (kindOf j) then some (.float 32, .float 32)
      else some (promote (kindOf i) (kindOf j), promote (kindOf i) (kindOf j)) := by
  have h : ∀ i j : Fin 14, ((checkUpcast false i.val j.val).map fun (a, b) => (kindOf a, kindOf b)) =
      if narrow (kindOf i.val) (kindOf j.val) then some (.float 32, .float 32)
      else some (promote (kindOf i.val) (kindOf j.val), promote (kindOf i.val) (kindOf j.val)) := by
    decide +kernel
  intro i j hi hj
  exact h ⟨i, by omega⟩ ⟨j, by omega⟩

/-- In a comparison, int64 and uint64 are not converted; the other types are as before. -/
theorem arrays_compare : ∀ i j : Nat, i ≤ 13 → j ≤ 13 →
    ((checkUpcast true i j).map fun (a, b) => (kindOf a, kindOf b)) =
      if (kindOf i = .int 64 ∧ kindOf j = .uint 64) ∨ (kindOf i = .uint 64 ∧ kindOf j = .int 64) then some (kindOf i, kindOf j)
      else (checkUpcast false i j).map fun (a, b) => (kindOf a, kindOf b) := by
  have h : ∀ i j : Fin 14, ((checkUpcast true i.val j.val).map fun (a, b) => (kindOf a, kindOf b)) =
      if (kindOf i.val = .int 64 ∧ kindOf j.val = .uint 64) ∨ (kindOf i.val = .uint 64 ∧ kindOf j.val = .int 64)
      then some (kindOf i.val, kindOf j.val)
      else (checkUpcast false i.val j.val).map fun (a, b) => (kindOf a, kindOf b) := by
    decide +kernel
  intro i j hi hj
  exact h ⟨i, by omega⟩ ⟨j, by omega⟩

/-- float32 and int32 are combined as float32: numpy takes float64. -/
theorem arrays_narrow_wrong : checkUpcast false 11 5 = some (11, 11) ∧ promote (kindOf 11) (kindOf 5) = .float 64 := by decide

/-- A length of 1 is treated otherwise: the type `long` is not replaced then.  The result is numpy's but for float32 with
integers of 32 or 64 bits, for uint64 (`unsigned long`) with a lower signed type (float32 instead of float64) and for uint64
(`unsigned long`) with `long long` (int64). -/
theorem single_numpy_iff : ∀ i j : Nat, i ≤ 13 → j ≤ 13 →
    (getUpcast false i j = some (upcast i j, upcast i j) ∧
    (kindOf (upcast i j) = promote (kindOf i) (kindOf j) ↔
      ¬ (narrow (kindOf i) (kindOf j) = true ∨ (i = 8 ∧ j ∈ [1, 3, 5, 7, 9]) ∨ (j = 8 ∧ i ∈ [1, 3, 5, 7, 9])))) ∧
    (i = 8 ∧ j ∈ [1, 3, 5, 7] → kindOf (upcast i j) = .float 32) ∧ (i = 8 ∧ j = 9 → kindOf (upcast i j) = .int 64) := by
  have h : ∀ i j : Fin 14,
      (getUpcast false i.val j.val = some (upcast i.val j.val, upcast i.val j.val) ∧
      (kindOf (upcast i.val j.val) = promote (kindOf i.val) (kindOf j.val) ↔
        ¬ (narrow (kindOf i.val) (kindOf j.val) = true ∨ (i.val = 8 ∧ j.val ∈ [1, 3, 5, 7, 9]) ∨
          (j.val = 8 ∧ i.val ∈ [1, 3, 5, 7, 9])))) ∧
      (i.val = 8 ∧ j.val ∈ [1, 3, 5, 7] → kindOf (upcast i.val j.val) = .float 32) ∧
      (i.val = 8 ∧ j.val = 9 → kindOf (upcast i.val j.val) = .int 64) := by
    decide +kernel
  intro i j hi hj
  exact h ⟨i, by omega⟩ ⟨j, by omega⟩

/-- The table is symmetric. -/
theorem upcast_comm : ∀ i j : Nat, i ≤ 13 → j ≤ 13 → upcast i j = upcast j i := by
  have h : ∀ i j : Fin 14, upcast i.val j.val = upcast j.val i.val := by decide +kernel
  intro i j hi hj
  exact h ⟨i, by omega⟩ ⟨j, by omega⟩

/-! ## Scalars -/

/-- The values of an integer type. -/
def InType : Kind → Int → Prop
  | .bool, v => v = 0 ∨ v = 1
  | .int b, v => -2 ^ (b - 1) ≤ v ∧ v < 2 ^ (b - 1)
  | .uint b, v => 0 ≤ v ∧ v < 2 ^ b
  | .float _, _ => False

/-- A type in which an array of the kind `d` and the number `v` can be combined without loss; float64 if no integer type holds
both. -/
def Holds (d : Kind) (v : Int) : Kind → Prop
  | .float b => b = 64 ∧ d = .uint 64 ∧ v < 0
  | k => InType k v ∧ ∀ x, InType d x → InType k x

/-- The bit length of a number or of its complement. -/
def magBits (v : Int) : Nat := if v < 0 then bitLen (-(v + 1)).toNat else bitLen v.toNat

theorem bitLen_le (v k : Nat) : bitLen v ≤ k ↔ v < 2 ^ k := by
  unfold bitLen
  split
  · rename_i h; subst h; simp [Nat.two_pow_pos]
  · rename_i h
    constructor
    · intro hk
      exact Nat.lt_of_lt_of_le (Nat.lt_log2_self) (Nat.pow_le_pow_right (by omega) hk)
    · intro hk
      exact (Nat.log2_lt h).mpr hk

theorem magBits_le (v : Int) (k : Nat) : magBits v ≤ k ↔ -2 ^ k ≤ v ∧ v < 2 ^ k := by
  unfold magBits
  have hp : (0 : Int) < 2 ^ k := Int.pow_pos (by omega)
  have hc : ((2 ^ k : Nat) : Int) = (2 : Int) ^ k := by push_cast; rfl
  split
  · rw [bitLen_le]
    omega
  · rw [bitLen_le]
    omega

/-- Whether a type holds the numbers of a sign and bit length. -/
def fitsBits (neg : Bool) (k : Nat) : Kind → Bool
  | .int b => decide (k ≤ b - 1)
  | .uint b => !neg && decide (k ≤ b)
  | _ => false

theorem fitsBits_iff (v : Int) (d : Kind) (hd : d ≠ .bool) : InType d v ↔ fitsBits (decide (v < 0)) (magBits v) d = true := by
  cases d with
  | bool => exact absurd rfl hd
  | int b =>
    simp only [InType, fitsBits, decide_eq_true_eq]
    exact (magBits_le v (b - 1)).symm
  | uint b =>
    simp only [InType, fitsBits, Bool.and_eq_true, Bool.not_eq_true', decide_eq_false_iff_not, decide_eq_true_eq]
    rw [magBits_le]
    have hp : (0 : Int) < 2 ^ b := Int.pow_pos (by omega)
    omega
  | float b => simp [InType, fitsBits]

/-- Whether all values of one kind are values of another, for the kinds there are. -/
def kindLe (d k : Kind) : Bool :=
  match d, k with
  | .bool, .float _ => false
  | .bool, .bool => true
  | .bool, .int b => decide (2 ≤ b)
  | .bool, .uint b => decide (1 ≤ b)
  | .int a, .int b => decide (a ≤ b)
  | .uint a, .uint b => decide (a ≤ b)
  | .uint a, .int b => decide (a ≤ b - 1)
  | _, _ => false

theorem kindLe_sound (d k : Kind) (h : kindLe d k = true) : ∀ x, InType d x → InType k x := by
  intro x hx
  have mono : ∀ a b : Nat, a ≤ b → (2 : Int) ^ a ≤ 2 ^ b := by
    intro a b hab
    have := Nat.pow_le_pow_right (n := 2) (by omega) hab
    exact_mod_cast this
  cases d with
  | bool =>
    cases k with
    | bool => exact hx
    | int b =>
      have hb := mono 1 (b - 1) (by simp [kindLe] at h; omega)
      simp only [InType] at hx ⊢
      omega
    | uint b =>
      have hb := mono 1 b (by simp [kindLe] at h; omega)
      simp only [InType] at hx ⊢
      omega
    | float b => simp [kindLe] at h
  | int a =>
    cases k with
    | int b =>
      have hb := mono (a - 1) (b - 1) (by simp [kindLe] at h; omega)
      simp only [InType] at hx ⊢
      omega
    | _ => simp [kindLe] at h
  | uint a =>
    cases k with
    | uint b =>
      have hb := mono a b (by simpa [kindLe] using h)
      simp only [InType] at hx ⊢
      omega
    | int b =>
      have hb := mono a (b - 1) (by simpa [kindLe] using h)
      simp only [InType] at hx ⊢
      omega
    | _ => simp [kindLe] at h
  | float a => exact hx.elim

/-- The numbers for which the choice fails: a negative number of 8, 16 or 32 bits with an unsigned array, and any other negative
number with an array of `unsigned long`. -/
def BadScalar (dtype : Nat) (v : Int) : Prop :=
  v < 0 ∧ ((dtype ∈ [2, 4, 6, 8, 10] ∧ (magBits v = 8 ∨ magBits v = 16 ∨ magBits v = 32)) ∨ dtype = 8)

/-- What the choice depends on: the type, the sign and the bit length. -/
def upBits (dtype : Nat) (neg : Bool) (k : Nat) : Nat :=
  match getUpcast false dtype (scalarDtype dtype neg k) with
  | some (t, _) => t
  | none => dtype

theorem possiblyUpcast_bits (dtype : Nat) (v : Int) (hd : dtype ≤ 10) (hv : fitsI64 v = true) :
    possiblyUpcast false dtype v = upBits dtype (decide (v < 0)) (magBits v) := by
  unfold possiblyUpcast
  rw [if_pos hd, if_pos hv]
  rfl

/-- An integer type but bool. -/
def isInt : Kind → Bool
  | .int _ => true
  | .uint _ => true
  | _ => false

/-- The cases of `BadScalar`. -/
def badBits (dtype : Nat) (neg : Bool) (k : Nat) : Bool :=
  neg && (((dtype == 2 || dtype == 4 || dtype == 6 || dtype == 8 || dtype == 10) && (k == 8 || k == 16 || k == 32)) || dtype == 8)

/-- All cases of the type, the sign and the bit length at once. -/
theorem upBits_table : ∀ (dtype : Fin 11) (neg : Bool) (k : Fin 64),
    (let t := kindOf (upBits dtype.val neg k.val)
     if badBits dtype.val neg k.val then (t == .float 32) || (isInt t && !fitsBits neg k.val t)
     else (t == .float 64 && kindOf dtype.val == .uint 64 && neg) ||
      (isInt t && fitsBits neg k.val t && kindLe (kindOf dtype.val) t)) = true := by
  decide +kernel

theorem magBits_lt (v : Int) (hv : fitsI64 v = true) : magBits v < 64 := by
  have : magBits v ≤ 63 := (magBits_le v 63).mpr (by simpa [fitsI64] using hv)
  omega

theorem badBits_iff (dtype : Nat) (v : Int) : badBits dtype (decide (v < 0)) (magBits v) = true ↔ BadScalar dtype v := by
  simp [badBits, BadScalar, or_assoc]

/-- C97: an array and a Python `int` of 64 bits are combined in a type which holds the number and all items of the array (float64
for uint64 and a negative number), exactly if the number is not one of `BadScalar`. -/
theorem scalar_type_iff (dtype : Nat) (v : Int) (hd : dtype ≤ 10) (hv : fitsI64 v = true) :
    Holds (kindOf dtype) v (kindOf (possiblyUpcast false dtype v)) ↔ ¬ BadScalar dtype v := by
  have h := upBits_table ⟨dtype, by omega⟩ (decide (v < 0)) ⟨magBits v, magBits_lt v hv⟩
  simp only at h
  rw [possiblyUpcast_bits dtype v hd hv, ← badBits_iff]
  generalize kindOf (upBits dtype (decide (v < 0)) (magBits v)) = t at h
  by_cases hb : badBits dtype (decide (v < 0)) (magBits v) = true
  · rw [if_pos hb] at h
    refine ⟨fun hh => ?_, fun hh => absurd hb hh⟩
    exfalso
    cases t with
    | bool => simp [isInt] at h
    | float b =>
      have hb64 : b = 64 := hh.1
      subst hb64
      simp [isInt] at h
    | int b =>
      have := (fitsBits_iff v (.int b) (by simp)).mp hh.1
      simp [isInt, this] at h
    | uint b =>
      have := (fitsBits_iff v (.uint b) (by simp)).mp hh.1
      simp [isInt, this] at h
  · rw [if_neg hb] at h
    refine ⟨fun _ => hb, fun _ => ?_⟩
    rw [Bool.or_eq_true] at h
    rcases h with h | h
    · simp only [Bool.and_eq_true, beq_iff_eq, decide_eq_true_eq] at h
      obtain ⟨⟨rfl, h2⟩, h3⟩ := h
      exact ⟨rfl, h2, h3⟩
    · simp only [Bool.and_eq_true] at h
      obtain ⟨⟨h1, h2⟩, h3⟩ := h
      have hne : t ≠ .bool := by rintro rfl; simp [isInt] at h1
      have g1 := (fitsBits_iff v t hne).mpr h2
      have g2 := kindLe_sound (kindOf dtype) t h3
      cases t with
      | float b => exact absurd h1 (by simp [isInt])
      | bool => exact ⟨g1, g2⟩
      | int b => exact ⟨g1, g2⟩
      | uint b => exact ⟨g1, g2⟩

/-- A number of an integer type is the number which the kernels see. -/
theorem convertScalar_int (v : Int) (t : Nat) (h0 : t ≠ 0) (h : InType (kindOf t) v) : convertScalar v t = some (.int v) := by
  have hcase : ∀ n : Nat, n ≤ 13 ∨ 13 < n := fun n => by omega
  have key : ∀ (b : Nat), 0 < b → (-2 ^ (b - 1) ≤ v ∧ v < 2 ^ (b - 1)) → Int.bmod v (2 ^ b) = v := by
    intro b hb hv
    have e : (2 : Nat) ^ b = 2 * 2 ^ (b - 1) := by
      rw [← Nat.pow_succ']; congr 1; omega
    have e2 : ((2 ^ (b - 1) : Nat) : Int) = (2 : Int) ^ (b - 1) := by push_cast; rfl
    apply Int.bmod_eq_of_le
    · rw [e]; push_cast; omega
    · rw [e]; push_cast; omega
  match t, h0, h with
  | 1, _, h =>
    have hf : fitsI64 v = true := by simp [InType, kindOf] at h; simp [fitsI64]; omega
    simp only [convertScalar, hf, if_true, wrapTo, tyBits]
    rw [key 8 (by omega) h]
  | 3, _, h =>
    have hf : fitsI64 v = true := by simp [InType, kindOf] at h; simp [fitsI64]; omega
    simp only [convertScalar, hf, if_true, wrapTo, tyBits]
    rw [key 16 (by omega) h]
  | 5, _, h =>
    have hf : fitsI64 v = true := by simp [InType, kindOf] at h; simp [fitsI64]; omega
    simp only [convertScalar, hf, if_true, wrapTo, tyBits]
    rw [key 32 (by omega) h]
  | 7, _, h =>
    have hf : fitsI64 v = true := by simp [InType, kindOf] at h; simp [fitsI64]; omega
    simp only [convertScalar, hf, if_true, wrapTo, tyBits]
    rw [key 64 (by omega) h]
  | 9, _, h =>
    have hf : fitsI64 v = true := by simp [InType, kindOf] at h; simp [fitsI64]; omega
    simp only [convertScalar, hf, if_true, wrapTo, tyBits]
    rw [key 64 (by omega) h]
  | 2, _, h =>
    have h : 0 ≤ v ∧ v < 2 ^ 8 := h
    have hf : fitsI64 v = true := by simp [fitsI64]; omega
    simp only [convertScalar, hf, if_true, wrapTo, tyBits, Bool.false_eq_true, if_false]
    rw [if_pos (.inl h.1)]
    congr 2; omega
  | 4, _, h =>
    have h : 0 ≤ v ∧ v < 2 ^ 16 := h
    have hf : fitsI64 v = true := by simp [fitsI64]; omega
    simp only [convertScalar, hf, if_true, wrapTo, tyBits, Bool.false_eq_true, if_false]
    rw [if_pos (.inl h.1)]
    congr 2; omega
  | 6, _, h =>
    have h : 0 ≤ v ∧ v < 2 ^ 32 := h
    have hf : fitsI64 v = true := by simp [fitsI64]; omega
    simp only [convertScalar, hf, if_true, wrapTo, tyBits, Bool.false_eq_true, if_false]
    rw [if_pos (.inl h.1)]
    congr 2; omega
  | 8, _, h =>
    have h : 0 ≤ v ∧ v < 2 ^ 64 := h
    simp only [convertScalar, wrapTo, tyBits, Bool.false_eq_true, if_false]
    rw [if_pos (by by_cases hc : v < 2 ^ 63
                   · left; rw [if_pos (by simp [fitsI64]; omega)]; exact h.1
                   · right; omega)]
    congr 2; omega
  | 10, _, h =>
    have h : 0 ≤ v ∧ v < 2 ^ 64 := h
    simp only [convertScalar, wrapTo, tyBits, Bool.false_eq_true, if_false]
    rw [if_pos (by by_cases hc : v < 2 ^ 63
                   · left; rw [if_pos (by simp [fitsI64]; omega)]; exact h.1
                   · right; omega)]
    congr 2; omega
  | 11, _, h => exact h.elim
  | 12, _, h => exact h.elim
  | 13, _, h => exact h.elim
  | n + 14, _, h => exact h.elim

/-- The type is bool only for a bool. -/
theorem possiblyUpcast_ne_zero (dtype : Nat) (v : Int) (hd : dtype ≤ 10) (hv : fitsI64 v = true) : possiblyUpcast false dtype v ≠ 0 := by
  have h : ∀ (dtype : Fin 11) (neg : Bool) (k : Fin 64), (upBits dtype.val neg k.val != 0) = true := by decide +kernel
  have := h ⟨dtype, by omega⟩ (decide (v < 0)) ⟨magBits v, magBits_lt v hv⟩
  rw [possiblyUpcast_bits dtype v hd hv]
  simpa using this

/-- The types are those of the table. -/
theorem possiblyUpcast_float (dtype : Nat) (v : Int) (hd : dtype ≤ 10) (hv : fitsI64 v = true) (b : Nat)
    (hb : kindOf (possiblyUpcast false dtype v) = .float b) : possiblyUpcast false dtype v = 11 ∨ possiblyUpcast false dtype v = 12 := by
  have h : ∀ (dtype : Fin 11) (neg : Bool) (k : Fin 64), decide (upBits dtype.val neg k.val ≤ 12) = true := by decide +kernel
  have := h ⟨dtype, by omega⟩ (decide (v < 0)) ⟨magBits v, magBits_lt v hv⟩
  rw [possiblyUpcast_bits dtype v hd hv] at hb ⊢
  have hle := of_decide_eq_true this
  generalize upBits dtype (decide (v < 0)) (magBits v) = t at hb hle
  have h2 : ∀ t : Fin 13, (isInt (kindOf t.val) || kindOf t.val == .bool || t.val == 11 || t.val == 12) = true := by decide
  have h3 := h2 ⟨t, by omega⟩
  simpa [hb, isInt] using h3

/-- C97: the array's items and the number are then combined without loss; for uint64 also numbers from `2^63` to `2^64 - 1`. -/
theorem scalar_value_partial (dtype : Nat) (v : Int) (hd : dtype ≤ 10)
    (hv : (fitsI64 v = true ∧ ¬ BadScalar dtype v) ∨ (kindOf dtype = .uint 64 ∧ 2 ^ 63 ≤ v ∧ v < 2 ^ 64)) :
    ∃ t s, withScalar false false dtype v = (t, some s) ∧ Holds (kindOf dtype) v (kindOf t) ∧
      s = if t = 12 then .flt v else .int v := by
  rcases hv with ⟨hv, hb⟩ | ⟨hk, h1, h2⟩
  · have hh := (scalar_type_iff dtype v hd hv).mpr hb
    have h0 := possiblyUpcast_ne_zero dtype v hd hv
    by_cases hf : ∃ b, kindOf (possiblyUpcast false dtype v) = .float b
    · obtain ⟨b, hf⟩ := hf
      have hb64 : b = 64 := by rw [hf] at hh; exact hh.1
      subst hb64
      have h12 : possiblyUpcast false dtype v = 12 := by
        rcases possiblyUpcast_float dtype v hd hv 64 hf with h | h
        · rw [h] at hf; simp [kindOf] at hf
        · exact h
      refine ⟨12, .flt v, ?_, h12 ▸ hh, by simp⟩
      simp [withScalar, h12, convertScalar, hv]
    · have hin : InType (kindOf (possiblyUpcast false dtype v)) v := by
        revert hh
        cases hk : kindOf (possiblyUpcast false dtype v) with
        | float b => exact absurd ⟨b, hk⟩ hf
        | bool => exact fun h => h.1
        | int b => exact fun h => h.1
        | uint b => exact fun h => h.1
      have hne : possiblyUpcast false dtype v ≠ 12 := by intro h; exact hf ⟨64, by rw [h]; rfl⟩
      refine ⟨possiblyUpcast false dtype v, .int v, ?_, hh, by rw [if_neg hne]⟩
      simp [withScalar, convertScalar_int v _ h0 hin]
  · have hfit : fitsI64 v = false := by simp [fitsI64]; omega
    have h810 : dtype = 8 ∨ dtype = 10 := by
      have h : ∀ d : Fin 11, (kindOf d.val == .uint 64) = true → d.val = 8 ∨ d.val = 10 := by decide
      exact h ⟨dtype, by omega⟩ (by simp [hk])
    have ht : possiblyUpcast false dtype v = dtype := by
      unfold possiblyUpcast
      rw [if_pos hd, hfit]
      simp [h810]
    have hin : InType (kindOf dtype) v := by rw [hk]; exact ⟨by omega, h2⟩
    refine ⟨dtype, .int v, ?_, ?_, by rw [if_neg (by omega)]⟩
    · simp [withScalar, ht, convertScalar_int v dtype (by omega) hin]
    · rw [hk] at hin ⊢
      exact ⟨hin, fun x hx => hx⟩

/-- int8 with 300 is int16; uint8 with -1 is int16; uint32 with -1 is int64; the 64-bit limits are met. -/
example : withScalar false false 1 300 = (3, some (.int 300)) ∧ withScalar false false 2 (-1) = (3, some (.int (-1))) ∧
    withScalar false false 6 (-1) = (7, some (.int (-1))) ∧ withScalar false false 1 (-128) = (1, some (.int (-128))) ∧
    withScalar false false 8 (2 ^ 64 - 1) = (8, some (.int (2 ^ 64 - 1))) ∧ withScalar false false 10 (-1) = (12, some (.flt (-1))) := by
  decide +kernel

/-- A negative number of 8 bits is taken for a positive one: 56 is equal to -200 in an array of uint8. -/
theorem scalar_mixed_wrong : withScalar true false 2 (-200) = (2, some (.int 56)) ∧
    withScalar false false 4 (-200) = (4, some (.int 65336)) ∧ withScalar false false 10 (-200) = (10, some (.int (2 ^ 64 - 200))) := by
  decide +kernel

/-- An array of `unsigned long` and a negative number are combined in float32. -/
theorem scalar_float32_wrong : withScalar false false 8 (-1) = (11, some (.flt (-1))) := by decide +kernel

/-- A number which does not fit 64 bits is -1, for arrays of every type but uint64: it is not an error. -/
theorem scalar_overflow_wrong (cmp : Bool) (dtype : Nat) (v : Int) (hd : dtype ≤ 12) (h8 : dtype ≠ 8) (h10 : dtype ≠ 10)
    (hv : fitsI64 v = false) : withScalar cmp false dtype v = (if dtype = 11 then 11 else 12, some (.flt (-1))) := by
  have ht : possiblyUpcast cmp dtype v = if dtype = 11 then 11 else 12 := by
    unfold possiblyUpcast
    by_cases h : dtype ≤ 10
    · rw [if_pos h, hv]
      have : dtype ≠ 11 := by omega
      simp [h8, h10, this]
    · rw [if_neg h]
      split <;> omega
  unfold withScalar
  simp only [Bool.false_eq_true, if_false]
  rw [ht]
  by_cases h : dtype = 11
  · simp [h, convertScalar, hv]
  · simp [h, convertScalar, hv]

example : withScalar false false 7 (2 ^ 63) = (12, some (.flt (-1))) :=
  scalar_overflow_wrong false 7 _ (by omega) (by omega) (by omega) (by decide)

/-- For uint64, a number which is too large is taken modulo `2^64`, one which is too small is `2^64 - 1`. -/
theorem scalar_overflow_uint64 (v : Int) :
    (2 ^ 64 ≤ v → withScalar false false 8 v = (8, some (.int (v % 2 ^ 64)))) ∧
    (v < -2 ^ 63 → withScalar false false 8 v = (8, some (.int (2 ^ 64 - 1)))) := by
  have ht : ∀ w : Int, fitsI64 w = false → possiblyUpcast false 8 w = 8 := by
    intro w hw; simp [possiblyUpcast, hw]
  constructor
  · intro h
    have hv : fitsI64 v = false := by simp [fitsI64]; omega
    have hc : convertScalar v 8 = some (.int (v % 2 ^ 64)) := by
      simp only [convertScalar, wrapTo, tyBits, hv, Bool.false_eq_true, if_false]
      rw [if_pos (.inr (by omega))]
      congr 2; omega
    simp [withScalar, ht v hv, hc]
  · intro h
    have hv : fitsI64 v = false := by simp [fitsI64]; omega
    have hc : convertScalar v 8 = some (.int (2 ^ 64 - 1)) := by
      simp only [convertScalar, wrapTo, tyBits, hv, Bool.false_eq_true, if_false]
      rw [if_neg (by omega)]
      congr 2
    simp [withScalar, ht v hv, hc]

/-- With a given output the array is not converted: the low bits of the number are taken. -/
theorem scalar_inplace_wrong : withScalar false true 1 300 = (1, some (.int 44)) := by decide +kernel

/-! ## Arrays of one item -/

/-- The only item of an array is the scalar which the kernels see, if the type holds it; for a float type unless it is of uint64
and from `2^63` on. -/
theorem single_value_partial (i t : Nat) (v : Int) (hi : 0 < i ∧ i ≤ 10) (h0 : t ≠ 0) (hv : InType (kindOf i) v)
    (ht : InType (kindOf t) v ∨ ((t = 11 ∨ t = 12) ∧ v < 2 ^ 63)) :
    convertSingle i v t = some (if t = 11 ∨ t = 12 then .flt v else .int v) := by
  -- the value as a signed number
  let value : Int := if i = 8 ∨ i = 10 then Int.bmod v (2 ^ 64) else v
  have hmod : value % 2 ^ 64 = v % 2 ^ 64 ∧ (v < 2 ^ 63 → value = v) := by
    by_cases h : i = 8 ∨ i = 10
    · have hv' : 0 ≤ v ∧ v < 2 ^ 64 := by
        rcases h with rfl | rfl <;> exact hv
      have e : value = Int.bmod v (2 ^ 64) := if_pos h
      rw [e]
      refine ⟨?_, fun hlt => ?_⟩
      · have := Int.bmod_emod (x := v) (m := 2 ^ 64)
        exact_mod_cast this
      · exact Int.bmod_eq_of_le (by omega) (by omega)
    · have e : value = v := if_neg h
      rw [e]
      exact ⟨rfl, fun _ => rfl⟩
  show singleAs value t = _
  rcases ht with ht | ⟨ht, hlt⟩
  · match t, h0, ht with
    | 1, _, h => 
      have h : -2 ^ 7 ≤ v ∧ v < 2 ^ 7 := h
      have := hmod.2 (by omega)
      simp only [this, singleAs, wrapTo, tyBits]
      simp only [if_true]
      rw [Int.bmod_eq_of_le (by omega) (by omega)]; simp
    | 2, _, h =>
      have h : 0 ≤ v ∧ v < 2 ^ 8 := h
      have := hmod.2 (by omega)
      simp only [this, singleAs, wrapTo, tyBits]
      simp; omega
    | 3, _, h =>
      have h : -2 ^ 15 ≤ v ∧ v < 2 ^ 15 := h
      have := hmod.2 (by omega)
      simp only [this, singleAs, wrapTo, tyBits]
      simp only [if_true]
      rw [Int.bmod_eq_of_le (by omega) (by omega)]; simp
    | 4, _, h =>
      have h : 0 ≤ v ∧ v < 2 ^ 16 := h
      have := hmod.2 (by omega)
      simp only [this, singleAs, wrapTo, tyBits]
      simp; omega
    | 5, _, h =>
      have h : -2 ^ 31 ≤ v ∧ v < 2 ^ 31 := h
      have := hmod.2 (by omega)
      simp only [this, singleAs, wrapTo, tyBits]
      simp only [if_true]
      rw [Int.bmod_eq_of_le (by omega) (by omega)]; simp
    | 6, _, h =>
      have h : 0 ≤ v ∧ v < 2 ^ 32 := h
      have := hmod.2 (by omega)
      simp only [this, singleAs, wrapTo, tyBits]
      simp; omega
    | 7, _, h =>
      have h : -2 ^ 63 ≤ v ∧ v < 2 ^ 63 := h
      have := hmod.2 (by omega)
      simp only [this, singleAs, wrapTo, tyBits]
      simp only [if_true]
      rw [Int.bmod_eq_of_le (by omega) (by omega)]; simp
    | 8, _, h =>
      have h : 0 ≤ v ∧ v < 2 ^ 64 := h
      simp only [singleAs, wrapTo, tyBits, Bool.false_eq_true, if_false]
      rw [hmod.1]
      simp; omega
    | 9, _, h =>
      have h : -2 ^ 63 ≤ v ∧ v < 2 ^ 63 := h
      have := hmod.2 (by omega)
      simp only [this, singleAs, wrapTo, tyBits]
      simp only [if_true]
      rw [Int.bmod_eq_of_le (by omega) (by omega)]; simp
    | 10, _, h =>
      have h : 0 ≤ v ∧ v < 2 ^ 64 := h
      simp only [singleAs, wrapTo, tyBits, Bool.false_eq_true, if_false]
      rw [hmod.1]
      simp; omega
    | 11, _, h => exact h.elim
    | 12, _, h => exact h.elim
    | 13, _, h => exact h.elim
    | n + 14, _, h => exact h.elim
  · have := hmod.2 hlt
    rcases ht with rfl | rfl <;> simp [singleAs, this]

example : convertSingle 8 (2 ^ 64 - 1) 8 = some (.int (2 ^ 64 - 1)) :=
  single_value_partial 8 8 _ (by omega) (by omega) ⟨by decide, by decide⟩ (.inl ⟨by decide, by decide⟩)

/-- An item of uint64 from `2^63` on is negative as a float. -/
theorem single_float_wrong (v : Int) (h : 2 ^ 63 ≤ v) (h2 : v < 2 ^ 64) : convertSingle 10 v 12 = some (.flt (v - 2 ^ 64)) := by
  have : Int.bmod v (2 ^ 64) = v - 2 ^ 64 := by
    unfold Int.bmod
    simp only
    rw [if_neg (by omega)]
    omega
  simp [convertSingle, singleAs, this]

end Riptide.Binary
