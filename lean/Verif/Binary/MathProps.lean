import Verif.Binary.MathLemmas
import Verif.Binary.MathSpec
/-! What holds of arithmetic on two arrays. -/
namespace Riptide.Binary
open Riptide.Work Spec

theorem num_valOf (t : IT) (x : BitVec t.bits) : num t x = valOf t x := rfl

theorem ofInt_num (t : IT) (x : BitVec t.bits) : BitVec.ofInt t.bits (num t x) = x := by
  unfold num
  split
  · exact BitVec.ofInt_toInt
  · rw [BitVec.ofInt_natCast, BitVec.ofNat_toNat, BitVec.setWidth_eq]

theorem num_range (t : IT) (h : 0 < t.bits) (x : BitVec t.bits) : t.InRange (num t x) := by
  obtain ⟨n, s⟩ := t
  have h1 := BitVec.toInt_lt (x := x)
  have h2 := BitVec.le_toInt (x := x)
  have h3 := x.isLt
  unfold num IT.InRange IT.lo IT.hi
  simp only at *
  cases s with
  | true => simp only [if_true]; omega
  | false =>
    simp only [Bool.false_eq_true, if_false]
    have : ((x.toNat : Nat) : Int) < ((2 ^ n : Nat) : Int) := by exact_mod_cast h3
    rw [Int.natCast_pow] at this
    simp only [Int.cast_ofNat_Int] at this
    omega

/-- A stored number is the exact one reduced into the range of the type. -/
theorem num_ofInt (t : IT) (h : 0 < t.bits) (z : Int) : num t (BitVec.ofInt t.bits z) = t.wrap z := by
  have hr := num_range t h (BitVec.ofInt t.bits z)
  have hw := t.wrap_inRange h z
  have key : ∀ u v : Int, t.InRange u → t.InRange v → (u - v) % (2 : Int) ^ t.bits = 0 → u = v := by
    intro u v hu hv hm
    unfold IT.InRange at hu hv
    rw [IT.hi_eq t h] at hu hv
    have hp := IT.pow_pos t.bits
    generalize (2 : Int) ^ t.bits = P at *
    obtain ⟨q, hq⟩ := Int.dvd_of_emod_eq_zero hm
    have : q = 0 := by
      rcases Int.lt_trichotomy q 0 with h0 | h0 | h0
      · exfalso
        have : P * q ≤ P * (-1) := Int.mul_le_mul_of_nonneg_left (by omega) (by omega)
        omega
      · exact h0
      · exfalso
        have : P * 1 ≤ P * q := Int.mul_le_mul_of_nonneg_left (by omega) (by omega)
        omega
    subst this
    omega
  apply key _ _ hr hw
  have h1 : ∃ q, num t (BitVec.ofInt t.bits z) = z + (2 : Int) ^ t.bits * q := by
    unfold num
    split
    · rw [BitVec.toInt_ofInt, Int.bmod_def]
      have := Int.emod_add_mul_ediv z ((2 ^ t.bits : Nat) : Int)
      rw [Int.natCast_pow] at *
      simp only [Int.cast_ofNat_Int] at *
      split
      · exact ⟨-(z / 2 ^ t.bits), by rw [Int.mul_neg]; omega⟩
      · exact ⟨-(z / 2 ^ t.bits) - 1, by rw [Int.mul_sub, Int.mul_neg]; omega⟩
    · rw [BitVec.toNat_ofInt, Int.toNat_of_nonneg (Int.emod_nonneg _ (by have := IT.pow_pos t.bits; rw [Int.natCast_pow]; simp only [Int.cast_ofNat_Int]; omega))]
      have := Int.emod_add_mul_ediv z ((2 ^ t.bits : Nat) : Int)
      rw [Int.natCast_pow] at *
      simp only [Int.cast_ofNat_Int] at *
      exact ⟨-(z / 2 ^ t.bits), by rw [Int.mul_neg]; omega⟩
  obtain ⟨q, hq⟩ := h1
  have h2 : ∃ q', t.wrap z = z + (2 : Int) ^ t.bits * q' := by
    unfold IT.wrap
    have := Int.emod_add_mul_ediv (z - t.lo) ((2 : Int) ^ t.bits)
    exact ⟨-((z - t.lo) / 2 ^ t.bits), by rw [Int.mul_neg]; omega⟩
  obtain ⟨q', hq'⟩ := h2
  rw [hq, hq', show z + (2 : Int) ^ t.bits * q - (z + 2 ^ t.bits * q') = 2 ^ t.bits * (q - q') by rw [Int.mul_sub]; omega]
  exact Int.mul_emod_right _ _

theorem cArith_fits (t : IT) (r : Int) (h : Fits t r) : cArith t r = some (BitVec.ofInt t.bits r) := by
  unfold cArith
  dsimp only
  rw [if_neg]
  rintro ⟨h1, h2⟩
  exact h2 (h h1)

theorem cArith_ub (t : IT) (r : Int) (h : ¬ Fits t r) : cArith t r = none := by
  unfold cArith
  dsimp only
  rw [if_pos]
  unfold Fits promoted at h
  exact ⟨Decidable.by_contra fun h1 => h fun h2 => absurd h2 h1, fun h2 => h fun _ => h2⟩

/-- The scalar function of an operation. -/
def sopOf : MOp → SOp
  | .add => .add | .sub => .sub | .mul => .mul | .min => .min | .max => .max | _ => .add

/-- The vector instruction which belongs to an operation at a type. -/
def vecFits (op : MOp) (t : IT) (v : VOp) : Bool :=
  match op with
  | .add => decide (v = .add)
  | .sub => decide (v = .sub)
  | .mul => decide (v = .mullo ∨ (v = .mulu64 ∧ t.bits = 64))
  | .min => decide ((v = .minS ∧ t.signed = true) ∨ (v = .minU ∧ t.signed = false))
  | .max => decide ((v = .maxS ∧ t.signed = true) ∨ (v = .maxU ∧ t.signed = false))
  | _ => false

/-- The loop depends on the main type only. -/
def dispatch (op : MOp) (t : Nat) : Option MKernel :=
  match getFast op .none t t with
  | some k => some k
  | none => getSlow op .none t t

theorem getMath_dispatch (op : MOp) (hx : op ≠ .bitXorSpecial) (mode : Mode) (t1 t2 : Nat) (k : MKernel)
    (hk : getMath op mode t1 t2 = some k) : dispatch op (mainTy mode t1 t2) = some k := by
  have h1 : getFast op mode t1 t2 = getFast op .none (mainTy mode t1 t2) (mainTy mode t1 t2) := by
    unfold getFast mainTy
    simp only [reduceCtorEq, if_false]
    cases op <;> first | rfl | exact absurd rfl hx
  have h2 : getSlow op mode t1 t2 = getSlow op .none (mainTy mode t1 t2) (mainTy mode t1 t2) := by
    unfold getSlow mainTy
    simp only [reduceCtorEq, if_false]
  unfold getMath at hk
  rw [h1, h2] at hk
  unfold dispatch
  split at hk
  · split at hk
    · nomatch hk
    · exact hk
  · nomatch hk

/-- The loops chosen for the arithmetic of integers, checked one by one. -/
theorem dispatch_arith : ∀ op ∈ [MOp.add, .sub, .mul, .min, .max], ∀ t ∈ [1, 2, 3, 4, 5, 6, 7, 8, 9, 10],
    (match dispatch op t, tyOf t with
     | some k, some (.int it) => decide (k.ty = it ∧ k.op = sopOf op ∧
        (k.route = .slow ∨ ((k.route = .fast ∨ (k.route = .sym ∧ op ≠ .sub)) ∧ vecFits op it k.vec = true)))
     | none, some (.int _) => decide (op = .min ∨ op = .max)
     | _, _ => false) = true := by
  decide +kernel

theorem tyOf_int {t : Nat} {it : IT} (h : tyOf t = some (.int it)) (h0 : t ≠ 0) : t ∈ [1, 2, 3, 4, 5, 6, 7, 8, 9, 10] := by
  have : 1 ≤ t ∧ t ≤ 10 := by unfold tyOf at h; split at h <;> first | (simp at h; done) | omega
  simp only [List.mem_cons, List.not_mem_nil, or_false]
  omega

/-- The loops chosen for the arithmetic of integers. -/
theorem getMath_arith (op : MOp) (hop : op ∈ [MOp.add, .sub, .mul, .min, .max]) (mode : Mode) (t1 t2 : Nat) (k : MKernel)
    (hk : getMath op mode t1 t2 = some k) (it : IT) (ht : tyOf (mainTy mode t1 t2) = some (.int it)) (h0 : mainTy mode t1 t2 ≠ 0) :
    k.ty = it ∧ k.op = sopOf op ∧ (k.route = .slow ∨ ((k.route = .fast ∨ (k.route = .sym ∧ op ≠ .sub)) ∧ vecFits op it k.vec = true)) := by
  have h1 := getMath_dispatch op (by rintro rfl; simp at hop) mode t1 t2 k hk
  have h2 := dispatch_arith op hop _ (tyOf_int ht h0)
  rw [h1, ht] at h2
  exact of_decide_eq_true h2

theorem pos_bits_of_tyOf {d : Nat} {t : IT} (h : tyOf d = some (.int t)) :
    t.bits = 8 ∨ t.bits = 16 ∨ t.bits = 32 ∨ t.bits = 64 := by
  unfold tyOf at h
  split at h <;> first | (simp at h; done) | (injection h with h; injection h with h; subst h; decide)

/-- One row with the scalar function. -/
theorem sop_arith (fl : Fl) (op : MOp) (t : IT) (x y : BitVec t.bits) (r : Int) (hr : exact op (valOf t x) (valOf t y) = some r)
    (hf : Fits t r) : (sopOf op).run fl t x y = some (BitVec.ofInt t.bits r) := by
  have hx := num_valOf t x
  have hy := num_valOf t y
  have ex := ofInt_num t x
  have ey := ofInt_num t y
  cases op <;> simp only [exact, Option.some.injEq, reduceCtorEq] at hr <;> subst hr <;> simp only [sopOf, SOp.run, hx, hy]
  · exact cArith_fits _ _ hf
  · exact cArith_fits _ _ hf
  · exact cArith_fits _ _ hf
  · rw [hx] at ex; rw [hy] at ey
    by_cases h : valOf t y < valOf t x
    · rw [if_pos h, if_neg (by omega), ey]
    · rw [if_neg h, if_pos (by omega), ex]
  · rw [hx] at ex; rw [hy] at ey
    by_cases h : valOf t x < valOf t y
    · rw [if_pos h, if_pos (by omega), ey]
    · rw [if_neg h]
      by_cases h' : valOf t x ≤ valOf t y
      · have e : valOf t x = valOf t y := by omega
        rw [if_pos h', ← e, ex]
      · rw [if_neg h', ex]

theorem lane_mulu64 (fl : Fl) (t : IT) (h : t.bits = 64) (x y : BitVec t.bits) : VOp.mulu64.lane fl x y = x * y := by
  obtain ⟨n, s⟩ := t
  subst h
  exact mulU64_eq x y

/-- One row in a register. -/
theorem lane_arith (fl : Fl) (op : MOp) (t : IT) (v : VOp) (hv : vecFits op t v = true) (x y : BitVec t.bits) (r : Int)
    (hr : exact op (valOf t x) (valOf t y) = some r) : v.lane fl x y = BitVec.ofInt t.bits r := by
  have ex : BitVec.ofInt t.bits (valOf t x) = x := ofInt_num t x
  have ey : BitVec.ofInt t.bits (valOf t y) = y := ofInt_num t y
  cases op <;> simp only [exact, Option.some.injEq, reduceCtorEq] at hr <;> subst hr <;>
    simp only [vecFits, decide_eq_true_eq] at hv
  · subst hv
    rw [BitVec.ofInt_add, ex, ey]; rfl
  · subst hv
    rw [Int.sub_eq_add_neg, BitVec.ofInt_add, BitVec.ofInt_neg, ex, ey, ← BitVec.sub_eq_add_neg]; rfl
  · rw [BitVec.ofInt_mul, ex, ey]
    rcases hv with rfl | ⟨rfl, h⟩
    · rfl
    · exact lane_mulu64 fl t h x y
  · rcases hv with ⟨rfl, h⟩ | ⟨rfl, h⟩
    all_goals
      simp only [VOp.lane]
      have hx : valOf t x = if t.signed then x.toInt else (x.toNat : Int) := rfl
      have hy : valOf t y = if t.signed then y.toInt else (y.toNat : Int) := rfl
      rw [h] at hx hy
      simp only [if_true, Bool.false_eq_true, if_false] at hx hy
      split
      · rw [if_pos (by omega), ex]
      · by_cases h' : valOf t x ≤ valOf t y
        · have e : valOf t x = valOf t y := by omega
          rw [if_pos h', e, ey]
        · rw [if_neg h', ey]
  · rcases hv with ⟨rfl, h⟩ | ⟨rfl, h⟩
    all_goals
      simp only [VOp.lane]
      have hx : valOf t x = if t.signed then x.toInt else (x.toNat : Int) := rfl
      have hy : valOf t y = if t.signed then y.toInt else (y.toNat : Int) := rfl
      rw [h] at hx hy
      simp only [if_true, Bool.false_eq_true, if_false] at hx hy
      split
      · rw [if_neg (by omega), ex]
      · rw [if_pos (by omega), ey]

theorem exact_comm (op : MOp) (h : op ≠ .sub) (a b : Int) : exact op a b = exact op b a := by
  cases op <;> simp only [exact, ne_eq, not_true_eq_false] at h ⊢
  · rw [Int.add_comm]
  · rw [Int.mul_comm]
  · congr 1; split <;> split <;> omega
  · congr 1; split <;> split <;> omega

theorem exact_some {op : MOp} (hop : op ∈ [MOp.add, .sub, .mul, .min, .max]) (a b : Int) : ∃ r, exact op a b = some r := by
  simp only [List.mem_cons, List.not_mem_nil, or_false] at hop
  rcases hop with rfl | rfl | rfl | rfl | rfl <;> exact ⟨_, rfl⟩

/-- C91: adding, subtracting, multiplying and taking the smaller or larger of two integers gives the exact result reduced to the
type, in every row, in whatever loop, in place or not, with or without a scalar, and under every schedule; provided that
the calculation does not overflow a signed type in a row (which the vector instructions allow, but C++ does not). -/
theorem math_int_partial (fl : Fl) (op : MOp) (hop : op ∈ [MOp.add, .sub, .mul, .min, .max]) (mode : Mode) (t1 t2 : Nat)
    (k : MKernel) (hk : getMath op mode t1 t2 = some k) (it : IT) (ht : tyOf (mainTy mode t1 t2) = some (.int it))
    (h0 : mainTy mode t1 t2 ≠ 0) (addr : Option Nat) (hd : ∀ p, addr = some p → it.bits / 8 ∣ p)
    (len : Nat) (a b : List (BitVec k.ty.bits)) (x y : Nat → BitVec k.ty.bits)
    (ha : Feeds (mode = .first) len a x) (hb : Feeds (mode = .second) len b y)
    (r : Nat → Int) (hr : ∀ i, i < len → exact op (valOf it (x i)) (valOf it (y i)) = some (r i)) (hf : ∀ i, i < len → Fits it (r i))
    {workers : Nat} {nt : Bool} {par : Option (List Nat)} (h : ChunkSched workers len nt par) :
    k.ty = it ∧ ∃ out : Nat → BitVec k.ty.bits,
      twoStub (k.run fl addr mode) mode a b len par = some ((List.range len).map fun (i : Nat) => some (out i)) ∧
      ∀ i, i < len → valOf it (out i) = it.wrap (r i) := by
  obtain ⟨hty, hsop, hroute⟩ := getMath_arith op hop mode t1 t2 k hk it ht h0
  obtain ⟨route, ty, sop, vec⟩ := k
  simp only at hty hsop hroute
  subst hty hsop
  have hbits := pos_bits_of_tyOf ht
  have hw : 0 < 256 / ty.bits := by rcases hbits with h | h | h | h <;> rw [h] <;> decide
  have hsz : 0 < ty.bits / 8 := by rcases hbits with h | h | h | h <;> rw [h] <;> decide
  have hws : 256 / ty.bits * (ty.bits / 8) = 32 := by rcases hbits with h | h | h | h <;> rw [h]
  refine ⟨rfl, fun i => BitVec.ofInt ty.bits (r i), ?_, fun i hi => num_ofInt ty (by omega) (r i)⟩
  rw [twoStub_eq _ mode a b len x y (fun (i : Nat) => BitVec.ofInt ty.bits (r i)) ?_ ha hb h]
  · rw [List.map_map]; rfl
  · intro a' b' s l hl ha' hb'
    have hS : ∀ i, i < l → (sopOf op).run fl ty (x (s + i)) (y (s + i)) = some (BitVec.ofInt ty.bits (r (s + i))) :=
      fun i hi => sop_arith fl op ty _ _ _ (hr _ (by omega)) (hf _ (by omega))
    have hV : vecFits op ty vec = true → ∀ i, i < l → vec.lane fl (x (s + i)) (y (s + i)) = BitVec.ofInt ty.bits (r (s + i)) :=
      fun hv i hi => lane_arith fl op ty vec hv _ _ _ (hr _ (by omega))
    rcases hroute with rfl | ⟨rfl | ⟨rfl, hns⟩, hv⟩
    · exact slowLoop_eq _ mode a' b' l _ _ _ hw ha' hb' hS
    · exact fastLoop_eq _ _ _ _ addr mode a' b' l _ _ _ hw (Nat.le_refl _) hsz hws hd ha' hb' hS (hV hv)
    · refine symLoop_eq _ _ _ _ addr mode a' b' l _ _ _ hw (Nat.le_refl _) hsz hws hd ha' hb' hS (hV hv) ?_
      intro i hi
      rw [hV hv i hi]
      exact lane_arith fl op ty vec hv _ _ _ (by rw [exact_comm op hns]; exact hr _ (by omega))

/-- A loop whose scalar and vector operations give `r` in each row gives `r` under every schedule. -/
theorem kernel_rows (fl : Fl) (k : MKernel) (hrev : k.route ≠ .rev)
    (hbits : k.ty.bits = 8 ∨ k.ty.bits = 16 ∨ k.ty.bits = 32 ∨ k.ty.bits = 64) (addr : Option Nat)
    (hd : ∀ p, addr = some p → k.ty.bits / 8 ∣ p) (mode : Mode)
    (len : Nat) (a b : List (BitVec k.ty.bits)) (x y r : Nat → BitVec k.ty.bits)
    (ha : Feeds (mode = .first) len a x) (hb : Feeds (mode = .second) len b y)
    (hS : ∀ i, i < len → k.op.run fl k.ty (x i) (y i) = some (r i))
    (hV : k.route ≠ .slow → ∀ i, i < len → k.vec.lane fl (x i) (y i) = r i)
    (hC : k.route = .sym → ∀ i, i < len → k.vec.lane fl (y i) (x i) = k.vec.lane fl (x i) (y i))
    {workers : Nat} {nt : Bool} {par : Option (List Nat)} (h : ChunkSched workers len nt par) :
    twoStub (k.run fl addr mode) mode a b len par = some ((List.range len).map fun (i : Nat) => some (r i)) := by
  obtain ⟨route, ty, sop, vec⟩ := k
  simp only at *
  have hw : 0 < 256 / ty.bits := by rcases hbits with h | h | h | h <;> rw [h] <;> decide
  have hsz : 0 < ty.bits / 8 := by rcases hbits with h | h | h | h <;> rw [h] <;> decide
  have hws : 256 / ty.bits * (ty.bits / 8) = 32 := by rcases hbits with h | h | h | h <;> rw [h]
  rw [twoStub_eq _ mode a b len x y r ?_ ha hb h]
  · rw [List.map_map]; rfl
  · intro a' b' s l hl ha' hb'
    have hS' := fun i (hi : i < l) => hS (s + i) (by omega)
    cases route with
    | slow => exact slowLoop_eq _ mode a' b' l _ _ _ hw ha' hb' hS'
    | fast =>
      exact fastLoop_eq _ _ _ _ addr mode a' b' l _ _ _ hw (Nat.le_refl _) hsz hws hd ha' hb' hS'
        (fun i hi => hV (by decide) (s + i) (by omega))
    | sym =>
      exact symLoop_eq _ _ _ _ addr mode a' b' l _ _ _ hw (Nat.le_refl _) hsz hws hd ha' hb' hS'
        (fun i hi => hV (by decide) (s + i) (by omega)) (fun i hi => hC rfl (s + i) (by omega))
    | rev => exact absurd rfl hrev

/-! ## Bits -/

/-- The loops chosen for bitwise operations, checked one by one. -/
theorem dispatch_bits : ∀ op ∈ [MOp.bitAnd, .bitOr, .bitXor, .bitXorSpecial, .bitAndNot, .bitNotAnd], ∀ t ∈ [0, 1, 2, 3, 4, 5, 6, 7, 8, 9, 10],
    (match dispatch op t, tyOf t with
     | some k, some (.int it) => decide (k.ty.bits = it.bits ∧
        (k.op, k.vec, k.route) ∈ (match op with
          | .bitAnd => [(SOp.and, VOp.and, Route.sym)]
          | .bitOr => [(SOp.or, VOp.or, Route.sym)]
          | .bitXor | .bitXorSpecial => [(SOp.xor, VOp.xor, Route.sym)]
          | .bitAndNot => [(SOp.andnot, VOp.andnot, Route.rev)]
          | .bitNotAnd => [(SOp.andnot, VOp.andnot, Route.fast)]
          | _ => []))
     | _, _ => false) = true := by
  decide +kernel

theorem tyOf_int0 {t : Nat} {it : IT} (h : tyOf t = some (.int it)) : t ∈ [0, 1, 2, 3, 4, 5, 6, 7, 8, 9, 10] := by
  by_cases h0 : t = 0
  · subst h0; decide
  · exact List.mem_cons_of_mem _ (tyOf_int h h0)

/-- C91: the bitwise operations, except `BITWISE_ANDNOT`, act on the bits of each row. -/
theorem math_bits (fl : Fl) (op : MOp) (hop : op ∈ [MOp.bitAnd, .bitOr, .bitXor, .bitNotAnd]) (mode : Mode) (t1 t2 : Nat)
    (k : MKernel) (hk : getMath op mode t1 t2 = some k) (it : IT) (ht : tyOf (mainTy mode t1 t2) = some (.int it))
    (addr : Option Nat) (hd : ∀ p, addr = some p → it.bits / 8 ∣ p)
    (len : Nat) (a b : List (BitVec k.ty.bits)) (x y : Nat → BitVec k.ty.bits)
    (ha : Feeds (mode = .first) len a x) (hb : Feeds (mode = .second) len b y)
    {workers : Nat} {nt : Bool} {par : Option (List Nat)} (h : ChunkSched workers len nt par) :
    k.ty.bits = it.bits ∧ ∃ out : Nat → BitVec k.ty.bits,
      twoStub (k.run fl addr mode) mode a b len par = some ((List.range len).map fun (i : Nat) => some (out i)) ∧
      ∀ i, i < len → ∀ j, j < it.bits → some ((out i).getLsbD j) = bitFn op ((x i).getLsbD j) ((y i).getLsbD j) := by
  have hne : op ≠ .bitXorSpecial := by rintro rfl; simp at hop
  have h1 := getMath_dispatch op hne mode t1 t2 k hk
  have h2 := dispatch_bits op (by simp at hop ⊢; grind) _ (tyOf_int0 ht)
  rw [h1, ht] at h2
  have h3 := of_decide_eq_true h2
  obtain ⟨hb1, h4⟩ := h3
  have hbits := pos_bits_of_tyOf ht
  rw [← hb1] at hbits hd
  refine ⟨hb1, ?_⟩
  simp only [List.mem_cons, List.not_mem_nil, or_false] at hop
  rcases hop with rfl | rfl | rfl | rfl
  all_goals
    simp only [List.mem_singleton, Prod.mk.injEq] at h4
    obtain ⟨e1, e2, e3⟩ := h4
  · refine ⟨fun i => x i &&& y i, kernel_rows fl k (by rw [e3]; decide) hbits addr hd mode len a b x y _ ha hb ?_ ?_ ?_ h, ?_⟩
    · intro i hi; rw [e1]; rfl
    · intro _ i hi; rw [e2]; rfl
    · intro _ i hi; rw [e2]; exact BitVec.and_comm _ _
    · intro i hi j hj; simp [bitFn]
  · refine ⟨fun i => x i ||| y i, kernel_rows fl k (by rw [e3]; decide) hbits addr hd mode len a b x y _ ha hb ?_ ?_ ?_ h, ?_⟩
    · intro i hi; rw [e1]; rfl
    · intro _ i hi; rw [e2]; rfl
    · intro _ i hi; rw [e2]; exact BitVec.or_comm _ _
    · intro i hi j hj; simp [bitFn]
  · refine ⟨fun i => x i ^^^ y i, kernel_rows fl k (by rw [e3]; decide) hbits addr hd mode len a b x y _ ha hb ?_ ?_ ?_ h, ?_⟩
    · intro i hi; rw [e1]; rfl
    · intro _ i hi; rw [e2]; rfl
    · intro _ i hi; rw [e2]; exact BitVec.xor_comm _ _
    · intro i hi j hj; simp [bitFn]
  · refine ⟨fun i => ~~~(x i) &&& y i, kernel_rows fl k (by rw [e3]; decide) hbits addr hd mode len a b x y _ ha hb ?_ ?_ ?_ h, ?_⟩
    · intro i hi; rw [e1]; rfl
    · intro _ i hi; rw [e2]; rfl
    · intro hs; rw [e3] at hs; exact absurd hs (by decide)
    · intro i hi j hj; rw [← hb1] at hj; simp [bitFn, hj]

theorem callBlock_swap {α β : Type} (f : List α → List α → Nat → Option (List β)) (a b : List α) (s l : Nat) :
    callBlock (fun p q n => f q p n) .none a b s l = callBlock f .none b a s l := by
  unfold callBlock; rfl

/-- C91: `BITWISE_ANDNOT` of two arrays acts on the bits of each row.  With a scalar it does not: see `andnot_scalar_wrong`. -/
theorem math_andnot_partial (fl : Fl) (t1 t2 : Nat)
    (k : MKernel) (hk : getMath .bitAndNot .none t1 t2 = some k) (it : IT) (ht : tyOf t1 = some (.int it))
    (addr : Option Nat)
    (len : Nat) (a b : List (BitVec k.ty.bits)) (x y : Nat → BitVec k.ty.bits)
    (ha : ∀ i : Nat, i < len → a[i]? = some (x i)) (hb : ∀ i : Nat, i < len → b[i]? = some (y i))
    {workers : Nat} {nt : Bool} {par : Option (List Nat)} (h : ChunkSched workers len nt par) :
    k.ty.bits = it.bits ∧ ∃ out : Nat → BitVec k.ty.bits,
      twoStub (k.run fl addr .none) .none a b len par = some ((List.range len).map fun (i : Nat) => some (out i)) ∧
      ∀ i, i < len → ∀ j, j < it.bits → some ((out i).getLsbD j) = bitFn .bitAndNot ((x i).getLsbD j) ((y i).getLsbD j) := by
  have h1 := getMath_dispatch .bitAndNot (by decide) .none t1 t2 k hk
  have ht' : tyOf (mainTy .none t1 t2) = some (.int it) := ht
  have h2 := dispatch_bits .bitAndNot (by decide) _ (tyOf_int0 ht')
  rw [h1, ht'] at h2
  obtain ⟨hb1, h4⟩ := of_decide_eq_true h2
  have hbits := pos_bits_of_tyOf ht'
  rw [← hb1] at hbits
  refine ⟨hb1, ?_⟩
  simp only [List.mem_singleton, Prod.mk.injEq] at h4
  obtain ⟨route, ty, sop, vec⟩ := k
  simp only at h4 hbits hb1 a b x y ha hb ⊢
  obtain ⟨rfl, rfl, rfl⟩ := h4
  have hf : ∀ (z : Nat → BitVec ty.bits) (m : List (BitVec ty.bits)), (∀ i : Nat, i < len → m[i]? = some (z i)) →
      Feeds (decide (Mode.none = .first)) len m z ∧ Feeds (decide (Mode.none = .second)) len m z := by
    intro z m hm
    simp only [Feeds, reduceCtorEq, decide_false, Bool.false_eq_true, if_false]
    exact ⟨hm, hm⟩
  have key := kernel_rows fl ⟨.fast, ty, .andnot, .andnot⟩ (fun h => nomatch h) hbits none (by simp) .none len b a y x
    (fun i => ~~~(y i) &&& x i) (hf y b hb).1 (hf x a ha).2 (fun _ _ => rfl) (fun _ _ _ => rfl) (fun h => nomatch h) h
  refine ⟨fun i => ~~~(y i) &&& x i, ?_, ?_⟩
  · rw [← key]
    unfold twoStub
    cases par with
    | none => rfl
    | some calls => rfl
  · intro i hi j hj
    rw [← hb1] at hj
    simp [bitFn, hj, Bool.and_comm]

/-- With a scalar the inputs are swapped but not the mode: the first item of the array is used for all rows, and the array
is not read further; instead the 32 bytes of the scalar are read as an array, and beyond.  `[7, 5] & ~1` is
`[6, 6]` (it should be `[6, 4]`), and five rows read beyond the scalar. -/
theorem andnot_scalar_wrong (fl : Fl) :
    getMath .bitAndNot .second 9 9 = some ⟨.rev, .i64, .andnot, .andnot⟩ ∧
    twoStub (MKernel.run fl ⟨.rev, .i64, .andnot, .andnot⟩ none .second) .second [7#64, 5#64] (List.replicate 4 1#64) 2 none
      = some [some 6#64, some 6#64] ∧
    twoStub (MKernel.run fl ⟨.rev, .i64, .andnot, .andnot⟩ none .second) .second [7#64, 5#64, 3#64, 1#64, 9#64]
      (List.replicate 4 1#64) 5 none = none :=
  ⟨by decide, by rfl, by rfl⟩

/-! ## Booleans -/

/-- C91: on booleans addition is "or", multiplication "and", subtraction "and not", and the logical operations are themselves. -/
theorem math_bool (fl : Fl) (op : MOp) (f : Bool → Bool → Bool)
    (hop : (op, f) ∈ [(MOp.add, (fun p q => p || q : Bool → Bool → Bool)), (.mul, fun p q => p && q), (.sub, fun p q => p && !q),
      (.logAnd, fun p q => p && q), (.logOr, fun p q => p || q)])
    (mode : Mode) (t1 t2 : Nat) (k : MKernel) (hk : getMath op mode t1 t2 = some k) (ht : mainTy mode t1 t2 = 0)
    (addr : Option Nat) (len : Nat) (a b : List (BitVec k.ty.bits)) (x y : Nat → Bool)
    (ha : Feeds (mode = .first) len a (fun i => if x i then 1 else 0)) (hb : Feeds (mode = .second) len b (fun i => if y i then 1 else 0))
    {workers : Nat} {nt : Bool} {par : Option (List Nat)} (h : ChunkSched workers len nt par) :
    k.ty.bits = 8 ∧
      twoStub (k.run fl addr mode) mode a b len par
        = some ((List.range len).map fun (i : Nat) => some (if f (x i) (y i) then 1 else 0)) := by
  have hne : op ≠ .bitXorSpecial := by rintro rfl; simp at hop
  have h1 := getMath_dispatch op hne mode t1 t2 k hk
  rw [ht] at h1
  simp only [List.mem_cons, Prod.mk.injEq, List.not_mem_nil, or_false] at hop
  rcases hop with ⟨rfl, rfl⟩ | ⟨rfl, rfl⟩ | ⟨rfl, rfl⟩ | ⟨rfl, rfl⟩ | ⟨rfl, rfl⟩ <;>
    (injection h1 with h1; subst h1) <;> refine ⟨rfl, ?_⟩ <;>
    refine kernel_rows fl _ (by decide) (.inl rfl) addr ?_ mode len a b _ _ _ ha hb ?_ ?_ ?_ h
  all_goals first
    | (intro p _; exact Nat.one_dvd p)
    | (intro i hi; cases x i <;> cases y i <;> rfl)
    | (intro hr; exact absurd hr (by decide))
    | (intro _ i hi; cases x i <;> cases y i <;> rfl)

/-- The remainder of booleans is "exclusive or": the remainder of False by True is True. -/
theorem mod_bool_wrong (fl : Fl) :
    getMath .mod .none 0 0 = some ⟨.slow, .i8, .modBool, .add⟩ ∧
    twoStub (MKernel.run fl ⟨.slow, .i8, .modBool, .add⟩ none .none) .none [0#8] [1#8] 1 none = some [some 1#8] ∧
    ((0 : Int).fmod 1 = 0) := ⟨by decide, by rfl, by decide⟩

/-! ## Floating point numbers -/

/-- C91: addition, subtraction, multiplication and division of floating point numbers apply the same IEEE operation to every row,
in registers or singly.  For addition and multiplication the order of the operands must not matter (it does for the bits of a
NaN if both are NaN). -/
theorem math_float (fl : Fl) (op : MOp) (f : (n : Nat) → BitVec n → BitVec n → BitVec n)
    (hop : (op, f) ∈ [(MOp.add, fl.add), (.sub, fl.sub), (.mul, fl.mul), (.div, fl.div)])
    (hadd : ∀ n x y, fl.add n x y = fl.add n y x) (hmul : ∀ n x y, fl.mul n x y = fl.mul n y x)
    (mode : Mode) (t1 t2 : Nat) (k : MKernel) (hk : getMath op mode t1 t2 = some k) (g : FT)
    (ht : tyOf (mainTy mode t1 t2) = some (.flt g))
    (addr : Option Nat) (hd : ∀ p, addr = some p → (1 + g.eb + g.mb) / 8 ∣ p)
    (len : Nat) (a b : List (BitVec k.ty.bits)) (x y : Nat → BitVec k.ty.bits)
    (ha : Feeds (mode = .first) len a x) (hb : Feeds (mode = .second) len b y)
    {workers : Nat} {nt : Bool} {par : Option (List Nat)} (h : ChunkSched workers len nt par) :
    k.ty.bits = 1 + g.eb + g.mb ∧
      twoStub (k.run fl addr mode) mode a b len par = some ((List.range len).map fun (i : Nat) => some (f k.ty.bits (x i) (y i))) := by
  have hne : op ≠ .bitXorSpecial := by rintro rfl; simp at hop
  have h1 := getMath_dispatch op hne mode t1 t2 k hk
  have hlit : (mainTy mode t1 t2 = 11 ∧ g = .f32) ∨ (mainTy mode t1 t2 = 12 ∧ g = .f64) := by
    generalize mainTy mode t1 t2 = t at *
    unfold tyOf at ht; split at ht <;> first | (simp at ht; done) | (injection ht with ht; injection ht with ht; subst ht; simp)
  simp only [List.mem_cons, Prod.mk.injEq, List.not_mem_nil, or_false] at hop
  rcases hlit with ⟨e, rfl⟩ | ⟨e, rfl⟩ <;> rw [e] at h1 <;>
    rcases hop with ⟨rfl, rfl⟩ | ⟨rfl, rfl⟩ | ⟨rfl, rfl⟩ | ⟨rfl, rfl⟩ <;>
    (injection h1 with h1; subst h1) <;> refine ⟨rfl, ?_⟩ <;>
    refine kernel_rows fl _ (by decide) (by decide) addr hd mode len a b _ _ _ ha hb (fun _ _ => rfl) (fun _ _ _ => rfl) ?_ h <;>
    first
    | (intro hr; exact absurd hr (by decide))
    | (intro _ i hi; exact hadd _ _ _)
    | (intro _ i hi; exact hmul _ _ _)

/-! ## Overflow -/

/-- Adding 1 to nine 32-bit numbers `2^31 - 1`: the first eight wrap in a register, the ninth overflows in C++.  Multiplying two
16-bit unsigned numbers calculates in `int`, which overflows. -/
theorem math_overflow (fl : Fl) :
    getMath .add .second 5 5 = some ⟨.sym, .i32, .add, .add⟩ ∧
    MKernel.run fl ⟨.sym, .i32, .add, .add⟩ none .second (List.replicate 8 0x7FFFFFFF#32) (List.replicate 8 1#32) 8
      = some (List.replicate 8 0x80000000#32) ∧
    MKernel.run fl ⟨.sym, .i32, .add, .add⟩ none .second (List.replicate 9 0x7FFFFFFF#32) (List.replicate 8 1#32) 9 = none ∧
    getMath .mul .none 4 4 = some ⟨.slow, .u16, .mul, .add⟩ ∧
    MKernel.run fl ⟨.slow, .u16, .mul, .add⟩ none .none [65535#16] [65535#16] 1 = none :=
  ⟨by decide, by rfl, by rfl, by decide, by rfl⟩

/-- In place with an address which is no multiple of the size of an item: after 7 single rows the address is 30, and the registers
are read with aligned instructions. -/
theorem math_misaligned (fl : Fl) :
    MKernel.run fl ⟨.fast, .i32, .sub, .sub⟩ (some 2) .second (List.replicate 16 5#32) (List.replicate 8 1#32) 16 = none := by
  rfl

/-- Small signed types never overflow: they are calculated in `int`. -/
theorem fits_small (it : IT) (hit : it = .i8 ∨ it = .i16 ∨ it = .u8) (op : MOp) (x y : BitVec it.bits) (r : Int)
    (hr : exact op (valOf it x) (valOf it y) = some r) : Fits it r := by
  intro _
  have key : ∀ u v : Int, -32768 ≤ u → u ≤ 32767 → -32768 ≤ v → v ≤ 32767 → exact op u v = some r → -2147483648 ≤ r ∧ r ≤ 2147483647 := by
    intro u v h1 h2 h3 h4 h
    cases op <;> simp only [exact, Option.some.injEq, reduceCtorEq] at h <;> subst h
    · omega
    · omega
    · have : (u * v).natAbs ≤ 32768 * 32768 := by
        rw [Int.natAbs_mul]; exact Nat.mul_le_mul (by omega) (by omega)
      omega
    · split <;> omega
    · split <;> omega
  have hw : ∀ z : BitVec it.bits, -32768 ≤ valOf it z ∧ valOf it z ≤ 32767 := by
    intro z
    have hz := num_range it (by rcases hit with rfl | rfl | rfl <;> decide) z
    rw [num_valOf] at hz
    generalize valOf it z = w at hz
    rcases hit with rfl | rfl | rfl <;> simp [IT.InRange, IT.lo, IT.hi, IT.i8, IT.i16, IT.u8] at hz <;> omega
  have h5 := key _ _ (hw x).1 (hw x).2 (hw y).1 (hw y).2 hr
  rcases hit with rfl | rfl | rfl <;>
    simp [IT.InRange, IT.lo, IT.hi, IT.i8, IT.i16, IT.u8, promoted, IT.i32] <;> omega

/-- In place with an offset of 4 bytes: seven rows singly, then a register, then the rest. -/
example (fl : Fl) : ∃ par, ChunkSched 0 17 false par ∧
    twoStub (MKernel.run fl ⟨.fast, .i32, .sub, .sub⟩ (some 4) .second) .second ((List.range 17).map fun (i : Nat) => BitVec.ofNat 32 i)
      (List.replicate 8 1#32) 17 par = some ((List.range 17).map fun (i : Nat) => some (BitVec.ofInt 32 (i - 1))) :=
  ⟨none, .direct (.inl (by decide)), by rfl⟩

end Riptide.Binary
