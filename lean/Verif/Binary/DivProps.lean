import Verif.Binary.MathProps
/-! What holds of floor division, remainder, differences of dates and extremes of floating point numbers. -/
namespace Riptide.Binary
open Riptide.Work Spec

theorem fits_of_inRange (t : IT) (hb : t.bits = 8 ∨ t.bits = 16 ∨ t.bits = 32 ∨ t.bits = 64) (r : Int) (h : t.InRange r) : Fits t r := by
  intro _
  obtain ⟨n, s⟩ := t
  simp only at hb
  rcases hb with rfl | rfl | rfl | rfl <;> cases s <;>
    simp [promoted, IT.InRange, IT.lo, IT.hi, IT.i32] at h ⊢ <;> omega

/-- A bound on a quotient whose operands have opposite signs. -/
theorem opposite_bounds (a b : Int) (hb : b ≠ 0) (h : decide (a < 0) ≠ decide (b < 0)) :
    a.tdiv b ≤ 0 ∧ -(a.natAbs : Int) ≤ a.tdiv b ∧ -(a.natAbs : Int) ≤ a.fdiv b ∧ a.fdiv b ≤ a.tdiv b ∧
    a.fdiv b = (if a.tmod b ≠ 0 then a.tdiv b - 1 else a.tdiv b) := by
  have hs : (0 ≤ a ∧ b < 0) ∨ (a < 0 ∧ 0 < b) := by
    by_cases h1 : a < 0 <;> by_cases h2 : b < 0 <;> simp [h1, h2] at h <;> omega
  have hn := Int.natAbs_tdiv_le_natAbs a b
  have hle : a.tdiv b ≤ 0 := by
    rcases hs with ⟨h1, h2⟩ | ⟨h1, h2⟩
    · obtain ⟨c, rfl⟩ : ∃ c, b = -c := ⟨-b, by omega⟩
      rw [Int.tdiv_neg]
      have := Int.tdiv_nonneg h1 (show (0 : Int) ≤ c by omega)
      omega
    · obtain ⟨c, rfl⟩ : ∃ c, a = -c := ⟨-a, by omega⟩
      rw [Int.neg_tdiv]
      have := Int.tdiv_nonneg (show (0 : Int) ≤ c by omega) (show 0 ≤ b by omega)
      omega
  have hf : a.fdiv b = (if a.tmod b ≠ 0 then a.tdiv b - 1 else a.tdiv b) := by
    rw [Int.fdiv_eq_tdiv]
    by_cases hd : b ∣ a
    · rw [if_pos hd, if_neg (by simpa using Int.tmod_eq_zero_of_dvd hd)]; omega
    · rw [if_neg hd, if_pos (fun h => hd (Int.dvd_of_tmod_eq_zero h))]
      rcases hs with ⟨h1, h2⟩ | ⟨h1, h2⟩
      · rw [if_pos h1, if_neg (by omega)]
      · rw [if_neg (by omega), if_pos (by omega), Int.sign_eq_one_of_pos h2]
  refine ⟨hle, by omega, ?_, ?_, hf⟩
  · rw [hf]
    split
    · rename_i hm
      have h1 : a.natAbs % b.natAbs ≠ 0 := by
        rw [← Int.natAbs_tmod]; omega
      have h2 : (a.tdiv b).natAbs = a.natAbs / b.natAbs := Int.natAbs_tdiv a b
      have h3 : b.natAbs ≠ 1 := fun h => h1 (by rw [h]; exact Nat.mod_one _)
      have h4 : a.natAbs ≠ 0 := fun h => h1 (by rw [h]; exact Nat.zero_mod _)
      have h5 : a.natAbs / b.natAbs ≤ a.natAbs / 2 := Nat.div_le_div_left (by omega) (by decide)
      omega
    · omega
  · rw [hf]; split <;> omega

theorem tmod_bounds (a b : Int) : (a.tmod b).natAbs ≤ a.natAbs ∧ (0 ≤ a → 0 ≤ a.tmod b) ∧ (a ≤ 0 → a.tmod b ≤ 0) := by
  refine ⟨by rw [Int.natAbs_tmod]; exact Nat.mod_le _ _, fun h => Int.tmod_nonneg b h, fun h => ?_⟩
  obtain ⟨c, rfl⟩ : ∃ c, a = -c := ⟨-a, by omega⟩
  rw [Int.neg_tmod]
  have := Int.tmod_nonneg b (show (0 : Int) ≤ c by omega)
  omega

/-- A number between a value of the type and zero, or opposite to a positive one, is in range. -/
theorem inRange_small (t : IT) (hb : 0 < t.bits) (a z : Int) (ha : t.InRange a) (h : (0 ≤ z ∧ z ≤ a) ∨ (a ≤ z ∧ z ≤ 0)) : t.InRange z := by
  unfold IT.InRange at *
  have h0 : t.lo ≤ 0 := by
    unfold IT.lo; split
    · have := IT.pow_pos (t.bits - 1); omega
    · omega
  have h1 : 0 ≤ t.hi := by rw [IT.hi_eq t hb]; have := ha.1; have := ha.2; rw [IT.hi_eq t hb] at this; unfold IT.lo; split
                           · obtain ⟨k, hk⟩ : ∃ k, t.bits = k + 1 := ⟨t.bits - 1, by omega⟩
                             rw [hk, Int.pow_succ]; have := IT.pow_pos k; simp only [Nat.add_sub_cancel]; omega
                           · have := IT.pow_pos t.bits; omega
  omega

theorem inRange_neg (t : IT) (a z : Int) (hs : t.signed = true) (ha : t.InRange a) (_h0 : 0 ≤ a) (h : -a ≤ z ∧ z ≤ 0) : t.InRange z := by
  unfold IT.InRange IT.lo IT.hi at *
  rw [hs] at *
  simp only [if_true] at *
  have := IT.pow_pos (t.bits - 1)
  omega

theorem signed_of_neg (t : IT) (x : BitVec t.bits) (h : num t x < 0) : t.signed = true := by
  unfold num at h; split at h
  · assumption
  · omega

/-- Floor division in C++ gives the exact quotient rounded down, reduced into the type; it is undefined just when the quotient
does not fit. -/
theorem floorDivOp_eq (t : IT) (hb : t.bits = 8 ∨ t.bits = 16 ∨ t.bits = 32 ∨ t.bits = 64) (x y : BitVec t.bits) :
    floorDivOp t x y = if num t y = 0 then some 0 else cArith t ((num t x).fdiv (num t y)) := by
  have hp : 0 < t.bits := by omega
  unfold floorDivOp
  dsimp only
  by_cases hy : num t y = 0
  · rw [if_neg (by simpa using hy), if_pos hy]
  rw [if_pos hy, if_neg hy]
  by_cases hs : decide (num t x < 0) = decide (num t y < 0)
  · rw [if_pos hs]
    congr 1
    rw [Int.fdiv_eq_tdiv]
    have h1 : (num t x < 0) ↔ (num t y < 0) := by simpa using hs
    split
    · omega
    · split
      · rw [if_pos (by omega)]; omega
      · rw [if_neg (by omega), Int.sign_eq_neg_one_of_neg (by omega)]; omega
  · rw [if_neg hs]
    obtain ⟨h1, h2, h3, h4, h5⟩ := opposite_bounds _ _ hy hs
    have hx := num_range t hp x
    have hsg : t.signed = true := by
      by_cases hxn : num t x < 0
      · exact signed_of_neg t x hxn
      · apply signed_of_neg t y
        simp only [hxn, decide_false] at hs
        by_cases hyn : num t y < 0
        · exact hyn
        · simp [hyn] at hs
    have hin : ∀ z : Int, -((num t x).natAbs : Int) ≤ z → z ≤ 0 → t.InRange z := by
      intro z hz1 hz2
      by_cases h0 : 0 ≤ num t x
      · exact inRange_neg t _ z hsg hx h0 ⟨by omega, hz2⟩
      · exact inRange_small t hp _ z hx (.inr ⟨by omega, hz2⟩)
    have hq := hin _ h2 h1
    have hr : t.InRange ((num t x).tmod (num t y)) := by
      obtain ⟨g1, g2, g3⟩ := tmod_bounds (num t x) (num t y)
      apply inRange_small t hp _ _ hx
      by_cases h0 : 0 ≤ num t x
      · have := g2 h0; omega
      · have := g3 (by omega); omega
    rw [cArith_fits t _ (fits_of_inRange t hb _ hq), cArith_fits t _ (fits_of_inRange t hb _ hr),
      cArith_fits t _ (fits_of_inRange t hb _ (hin _ h3 (by omega)))]
    simp only [Option.bind_some]
    rw [num_ofInt t hp, num_ofInt t hp, IT.wrap_of_inRange t hp hq, IT.wrap_of_inRange t hp hr, h5]
    split <;> rfl

/-- The scalar function of an operation. -/
def slowOf : MOp → SOp
  | .floordiv => .floordiv | .mod => .mod | _ => .subdates

/-- The loops chosen for these operations, checked one by one. -/
theorem dispatch_slow : ∀ op ∈ [MOp.floordiv, .mod, .subdates], ∀ t ∈ [1, 2, 3, 4, 5, 6, 7, 8, 9, 10],
    (match dispatch op t, tyOf t with
     | some k, some (.int it) => decide (k.ty = it ∧ k.route = .slow ∧ k.op = slowOf op)
     | none, _ => decide (op = .subdates)
     | _, _ => false) = true := by
  decide +kernel

theorem slow_kernel (op : MOp) (hop : op ∈ [MOp.floordiv, .mod, .subdates]) (mode : Mode) (t1 t2 : Nat) (k : MKernel)
    (hk : getMath op mode t1 t2 = some k) (it : IT) (ht : tyOf (mainTy mode t1 t2) = some (.int it)) (h0 : mainTy mode t1 t2 ≠ 0) :
    k.ty = it ∧ k.route = .slow ∧ k.op = slowOf op := by
  have hne : op ≠ .bitXorSpecial := by rintro rfl; simp at hop
  have h1 := getMath_dispatch op hne mode t1 t2 k hk
  have h2 := dispatch_slow op hop _ (tyOf_int ht h0)
  rw [h1, ht] at h2
  exact of_decide_eq_true h2

/-- A loop by single rows. -/
theorem slow_rows (fl : Fl) (k : MKernel) (hr : k.route = .slow)
    (hbits : k.ty.bits = 8 ∨ k.ty.bits = 16 ∨ k.ty.bits = 32 ∨ k.ty.bits = 64) (addr : Option Nat) (mode : Mode)
    (len : Nat) (a b : List (BitVec k.ty.bits)) (x y r : Nat → BitVec k.ty.bits)
    (ha : Feeds (mode = .first) len a x) (hb : Feeds (mode = .second) len b y)
    (hS : ∀ i, i < len → k.op.run fl k.ty (x i) (y i) = some (r i))
    {workers : Nat} {nt : Bool} {par : Option (List Nat)} (h : ChunkSched workers len nt par) :
    twoStub (k.run fl addr mode) mode a b len par = some ((List.range len).map fun (i : Nat) => some (r i)) := by
  have hrun : ∀ ad, k.run fl ad mode = k.run fl none mode := by
    intro ad; unfold MKernel.run; rw [hr]
  rw [hrun addr]
  exact kernel_rows fl k (by rw [hr]; decide) hbits none (by simp) mode len a b x y r ha hb hS
    (fun hn => absurd hr hn) (fun hn => by rw [hr] at hn; exact absurd hn (by decide)) h

/-- C92: floor division gives the quotient rounded down, and 0 for the divisor 0, in every row and under every schedule, if
the quotient fits the type C++ calculates in (it does not for the least 32-bit or 64-bit number divided by -1). -/
theorem floordiv_partial (fl : Fl) (mode : Mode) (t1 t2 : Nat) (k : MKernel) (hk : getMath .floordiv mode t1 t2 = some k)
    (it : IT) (ht : tyOf (mainTy mode t1 t2) = some (.int it)) (h0 : mainTy mode t1 t2 ≠ 0) (addr : Option Nat)
    (len : Nat) (a b : List (BitVec k.ty.bits)) (x y : Nat → BitVec k.ty.bits)
    (ha : Feeds (mode = .first) len a x) (hb : Feeds (mode = .second) len b y)
    (hf : ∀ i, i < len → valOf it (y i) ≠ 0 → Fits it ((valOf it (x i)).fdiv (valOf it (y i))))
    {workers : Nat} {nt : Bool} {par : Option (List Nat)} (h : ChunkSched workers len nt par) :
    k.ty = it ∧ ∃ out : Nat → BitVec k.ty.bits,
      twoStub (k.run fl addr mode) mode a b len par = some ((List.range len).map fun (i : Nat) => some (out i)) ∧
      ∀ i, i < len → valOf it (out i) = if valOf it (y i) = 0 then 0 else it.wrap ((valOf it (x i)).fdiv (valOf it (y i))) := by
  obtain ⟨e1, e2, e3⟩ := slow_kernel .floordiv (by decide) mode t1 t2 k hk it ht h0
  have hbits := pos_bits_of_tyOf ht
  subst e1
  have hp : 0 < k.ty.bits := by omega
  refine ⟨rfl, fun i => if num k.ty (y i) = 0 then 0 else BitVec.ofInt _ ((num k.ty (x i)).fdiv (num k.ty (y i))), ?_, ?_⟩
  · refine slow_rows fl k e2 hbits addr mode len a b x y _ ha hb ?_ h
    intro i hi
    rw [e3]
    show floorDivOp _ _ _ = _
    rw [floorDivOp_eq _ hbits]
    split
    · rfl
    · rename_i hy; exact cArith_fits _ _ (hf i hi hy)
  · intro i hi
    show num k.ty _ = if num k.ty _ = 0 then _ else _
    dsimp only
    split
    · rw [show (0 : BitVec k.ty.bits) = BitVec.ofInt _ 0 from (BitVec.ofInt_ofNat _ 0).symm, num_ofInt _ hp]
      apply IT.wrap_of_inRange _ hp
      exact inRange_small _ hp _ 0 (num_range _ hp (x i)) (by omega)
    · rw [num_ofInt _ hp]; rfl

/-- The guard of `floordiv_partial` is exact: if a quotient does not fit, the behaviour is undefined. -/
theorem floordiv_undefined (t : IT) (hb : t.bits = 8 ∨ t.bits = 16 ∨ t.bits = 32 ∨ t.bits = 64) (x y : BitVec t.bits) :
    floorDivOp t x y = none ↔ num t y ≠ 0 ∧ ¬ Fits t ((num t x).fdiv (num t y)) := by
  rw [floorDivOp_eq t hb]
  by_cases hy : num t y = 0
  · simp [hy]
  · rw [if_neg hy]
    refine ⟨fun h => ⟨hy, fun hf => ?_⟩, fun h => cArith_ub _ _ h.2⟩
    rw [cArith_fits _ _ hf] at h; simp at h

/-- C92: the remainder has the sign of the dividend.  The divisor must not be 0. -/
theorem mod_partial (fl : Fl) (mode : Mode) (t1 t2 : Nat) (k : MKernel) (hk : getMath .mod mode t1 t2 = some k)
    (it : IT) (ht : tyOf (mainTy mode t1 t2) = some (.int it)) (h0 : mainTy mode t1 t2 ≠ 0) (addr : Option Nat)
    (len : Nat) (a b : List (BitVec k.ty.bits)) (x y : Nat → BitVec k.ty.bits)
    (ha : Feeds (mode = .first) len a x) (hb : Feeds (mode = .second) len b y)
    (hz : ∀ i, i < len → valOf it (y i) ≠ 0) (hf : ∀ i, i < len → Fits it ((valOf it (x i)).tdiv (valOf it (y i))))
    {workers : Nat} {nt : Bool} {par : Option (List Nat)} (h : ChunkSched workers len nt par) :
    k.ty = it ∧ ∃ out : Nat → BitVec k.ty.bits,
      twoStub (k.run fl addr mode) mode a b len par = some ((List.range len).map fun (i : Nat) => some (out i)) ∧
      ∀ i, i < len → valOf it (out i) = (valOf it (x i)).tmod (valOf it (y i)) := by
  obtain ⟨e1, e2, e3⟩ := slow_kernel .mod (by decide) mode t1 t2 k hk it ht h0
  have hbits := pos_bits_of_tyOf ht
  subst e1
  have hp : 0 < k.ty.bits := by omega
  have hr : ∀ i, k.ty.InRange ((num k.ty (x i)).tmod (num k.ty (y i))) := by
    intro i
    obtain ⟨g1, g2, g3⟩ := tmod_bounds (num k.ty (x i)) (num k.ty (y i))
    apply inRange_small _ hp _ _ (num_range _ hp (x i))
    by_cases h0 : 0 ≤ num k.ty (x i)
    · have := g2 h0; omega
    · have := g3 (by omega); omega
  refine ⟨rfl, fun i => BitVec.ofInt _ ((num k.ty (x i)).tmod (num k.ty (y i))), ?_, ?_⟩
  · refine slow_rows fl k e2 hbits addr mode len a b x y _ ha hb ?_ h
    intro i hi
    rw [e3]
    show modOp _ _ _ = _
    unfold modOp
    rw [if_neg (show ¬ num k.ty (y i) = 0 from hz i hi), cArith_fits k.ty ((num k.ty (x i)).tdiv (num k.ty (y i))) (hf i hi), cArith_fits _ _ (fits_of_inRange _ hbits _ (hr i))]
    rfl
  · intro i hi
    show num k.ty _ = _
    rw [num_ofInt _ hp, IT.wrap_of_inRange _ hp (hr i)]
    rfl

/-- Python's remainder, which has the sign of the divisor, is obtained just when the division is exact or the signs agree. -/
theorem mod_python (a b : Int) (hb : b ≠ 0) : a.tmod b = a.fmod b ↔ a.tmod b = 0 ∨ (a < 0 ↔ b < 0) := by
  rw [Int.fmod_eq_tmod]
  by_cases hd : b ∣ a
  · rw [if_pos hd]; simp [Int.tmod_eq_zero_of_dvd hd]
  · rw [if_neg hd]
    have h1 : a.tmod b ≠ 0 := fun h => hd (Int.dvd_of_tmod_eq_zero h)
    split <;> split <;> omega

/-- `-7 % 3` is -1, not 2; dividing by zero is undefined, and so is `INT_MIN % -1`. -/
theorem mod_wrong (fl : Fl) :
    getMath .mod .second 5 5 = some ⟨.slow, .i32, .mod, .add⟩ ∧
    twoStub (MKernel.run fl ⟨.slow, .i32, .mod, .add⟩ none .second) .second [BitVec.ofInt 32 (-7)] (List.replicate 8 3#32) 1 none
      = some [some (BitVec.ofInt 32 (-1))] ∧ (-7 : Int).fmod 3 = 2 ∧
    twoStub (MKernel.run fl ⟨.slow, .i32, .mod, .add⟩ none .second) .second [5#32] (List.replicate 8 0#32) 1 none = none ∧
    twoStub (MKernel.run fl ⟨.slow, .i32, .mod, .add⟩ none .second) .second [BitVec.ofInt 32 (-2147483648)]
      (List.replicate 8 (BitVec.ofInt 32 (-1))) 1 none = none :=
  ⟨by decide, by rfl, by decide, by rfl, by rfl⟩

/-- `INT_MIN // -1` is undefined for 32 bits; for 8 bits it wraps; dividing by zero gives zero. -/
theorem floordiv_overflow (fl : Fl) :
    getMath .floordiv .second 5 5 = some ⟨.slow, .i32, .floordiv, .add⟩ ∧
    twoStub (MKernel.run fl ⟨.slow, .i32, .floordiv, .add⟩ none .second) .second [BitVec.ofInt 32 (-2147483648)]
      (List.replicate 8 (BitVec.ofInt 32 (-1))) 1 none = none ∧
    twoStub (MKernel.run fl ⟨.slow, .i8, .floordiv, .add⟩ none .none) .none [BitVec.ofInt 8 (-128), BitVec.ofInt 8 (-7), 7#8]
      [BitVec.ofInt 8 (-1), 2#8, 0#8] 3 none = some [some (BitVec.ofInt 8 (-128)), some (BitVec.ofInt 8 (-4)), some 0#8] :=
  ⟨by decide, by rfl, by rfl⟩

/-- C92: the difference of two dates is 0 if either is 0 or invalid, else the exact difference if it fits. -/
theorem subdates_partial (fl : Fl) (mode : Mode) (t1 t2 : Nat) (k : MKernel) (hk : getMath .subdates mode t1 t2 = some k)
    (it : IT) (ht : tyOf (mainTy mode t1 t2) = some (.int it)) (h0 : mainTy mode t1 t2 ≠ 0) (addr : Option Nat)
    (len : Nat) (a b : List (BitVec k.ty.bits)) (x y : Nat → BitVec k.ty.bits)
    (ha : Feeds (mode = .first) len a x) (hb : Feeds (mode = .second) len b y)
    (bad : Int → Prop) (hbad : ∀ z, bad z ↔ z = 0 ∨ z = it.lo) [DecidablePred bad]
    (hf : ∀ i, i < len → ¬ bad (valOf it (x i)) → ¬ bad (valOf it (y i)) → it.InRange (valOf it (x i) - valOf it (y i)))
    {workers : Nat} {nt : Bool} {par : Option (List Nat)} (h : ChunkSched workers len nt par) :
    k.ty = it ∧ ∃ out : Nat → BitVec k.ty.bits,
      twoStub (k.run fl addr mode) mode a b len par = some ((List.range len).map fun (i : Nat) => some (out i)) ∧
      ∀ i, i < len → valOf it (out i) =
        if bad (valOf it (x i)) ∨ bad (valOf it (y i)) then 0 else valOf it (x i) - valOf it (y i) := by
  obtain ⟨e1, e2, e3⟩ := slow_kernel .subdates (by decide) mode t1 t2 k hk it ht h0
  have hbits := pos_bits_of_tyOf ht
  subst e1
  have hp : 0 < k.ty.bits := by omega
  have hcond : ∀ i, (num k.ty (x i) = 0 ∨ num k.ty (y i) = 0 ∨ num k.ty (x i) = k.ty.lo ∨ num k.ty (y i) = k.ty.lo) ↔
      bad (valOf k.ty (x i)) ∨ bad (valOf k.ty (y i)) := by
    intro i; rw [hbad, hbad]; simp only [num_valOf]; grind
  refine ⟨rfl, fun i => if bad (valOf k.ty (x i)) ∨ bad (valOf k.ty (y i)) then 0
      else BitVec.ofInt _ (num k.ty (x i) - num k.ty (y i)), ?_, ?_⟩
  · refine slow_rows fl k e2 hbits addr mode len a b x y _ ha hb ?_ h
    intro i hi
    rw [e3]
    show subDatesOp _ _ _ = _
    unfold subDatesOp
    by_cases hc : bad (valOf k.ty (x i)) ∨ bad (valOf k.ty (y i))
    · rw [if_pos hc, if_pos ((hcond i).mpr hc)]
    · rw [if_neg hc, if_neg (fun hn => hc ((hcond i).mp hn))]
      exact cArith_fits _ _ (fits_of_inRange _ hbits _ (hf i hi (fun h => hc (.inl h)) (fun h => hc (.inr h))))
  · intro i hi
    show num k.ty _ = _
    dsimp only
    split
    · rw [show (0 : BitVec k.ty.bits) = BitVec.ofInt _ 0 from (BitVec.ofInt_ofNat _ 0).symm, num_ofInt _ hp]
      apply IT.wrap_of_inRange _ hp
      exact inRange_small _ hp _ 0 (num_range _ hp (x i)) (by omega)
    · rename_i hc
      rw [num_ofInt _ hp]
      exact IT.wrap_of_inRange _ hp (hf i hi (fun h => hc (.inl h)) (fun h => hc (.inr h)))

/-- The difference of two valid dates may overflow: undefined; and two dates one of which is 0 give the valid span 0. -/
theorem subdates_limits (fl : Fl) :
    getMath .subdates .none 5 5 = some ⟨.slow, .i32, .subdates, .add⟩ ∧
    twoStub (MKernel.run fl ⟨.slow, .i32, .subdates, .add⟩ none .none) .none [2147483647#32] [BitVec.ofInt 32 (-1)] 1 none = none ∧
    twoStub (MKernel.run fl ⟨.slow, .i32, .subdates, .add⟩ none .none) .none [20000#32, 10#32, 0#32] [19990#32, 0x80000000#32, 7#32] 3 none
      = some [some 10#32, some 0#32, some 0#32] :=
  ⟨by decide, by rfl, by rfl⟩

/-! ## Extremes of floating point numbers -/

/-- C92: the minimum (maximum) of floating point numbers is one of the operands; it is a NaN just if one of them is; else it is no
greater (no smaller) than both. -/
theorem float_extreme (fl : Fl) (op : MOp) (hop : op = .min ∨ op = .max) (mode : Mode) (t1 t2 : Nat) (k : MKernel)
    (hk : getMath op mode t1 t2 = some k) (g : FT) (ht : tyOf (mainTy mode t1 t2) = some (.flt g)) (addr : Option Nat)
    (len : Nat) (a b : List (BitVec k.ty.bits)) (x y : Nat → BitVec k.ty.bits)
    (ha : Feeds (mode = .first) len a x) (hb : Feeds (mode = .second) len b y)
    {workers : Nat} {nt : Bool} {par : Option (List Nat)} (h : ChunkSched workers len nt par) :
    k.ty.bits = 1 + g.eb + g.mb ∧ ∃ out : Nat → BitVec k.ty.bits,
      twoStub (k.run fl addr mode) mode a b len par = some ((List.range len).map fun (i : Nat) => some (out i)) ∧
      ∀ i, i < len → (out i = x i ∨ out i = y i) ∧
        (g.isNan (out i).toNat = (g.isNan (x i).toNat || g.isNan (y i).toNat)) ∧
        (g.isNan (x i).toNat = false → g.isNan (y i).toNat = false →
          if op = .min then g.key (out i).toNat ≤ g.key (x i).toNat ∧ g.key (out i).toNat ≤ g.key (y i).toNat
          else g.key (x i).toNat ≤ g.key (out i).toNat ∧ g.key (y i).toNat ≤ g.key (out i).toNat) := by
  have hne : op ≠ .bitXorSpecial := by rcases hop with rfl | rfl <;> decide
  have h1 := getMath_dispatch op hne mode t1 t2 k hk
  have hlit : (mainTy mode t1 t2 = 11 ∧ g = .f32) ∨ (mainTy mode t1 t2 = 12 ∧ g = .f64) := by
    generalize mainTy mode t1 t2 = t at *
    unfold tyOf at ht; split at ht <;> first | (simp at ht; done) | (injection ht with ht; injection ht with ht; subst ht; simp)
  have hk2 : k.route = .slow ∧ k.op = (if op = .min then .fmin else .fmax) ∧ floatOf k.ty.bits = g ∧ k.ty.bits = 1 + g.eb + g.mb := by
    rcases hlit with ⟨e, rfl⟩ | ⟨e, rfl⟩ <;> rw [e] at h1 <;> rcases hop with rfl | rfl <;>
      (injection h1 with h1; subst h1; decide)
  obtain ⟨e1, e2, e3, e4⟩ := hk2
  have hbits : k.ty.bits = 8 ∨ k.ty.bits = 16 ∨ k.ty.bits = 32 ∨ k.ty.bits = 64 := by
    rw [e4]; rcases hlit with ⟨e, rfl⟩ | ⟨e, rfl⟩ <;> decide
  refine ⟨e4, ?_⟩
  rcases hop with rfl | rfl
  · refine ⟨fun i => if g.lt (y i).toNat (x i).toNat || g.isNan (y i).toNat then y i else x i,
      slow_rows fl k e1 hbits addr mode len a b x y _ ha hb ?_ h, ?_⟩
    · intro i hi; rw [e2, if_pos rfl]; unfold SOp.run; rw [e3]
    · intro i hi
      dsimp only
      generalize (x i) = u; generalize (y i) = v
      unfold FT.lt
      cases hu : g.isNan u.toNat <;> cases hv : g.isNan v.toNat <;>
        by_cases hlt : g.key v.toNat < g.key u.toNat <;> simp [hlt, hu, hv] <;> omega
  · refine ⟨fun i => if g.lt (x i).toNat (y i).toNat || g.isNan (y i).toNat then y i else x i,
      slow_rows fl k e1 hbits addr mode len a b x y _ ha hb ?_ h, ?_⟩
    · intro i hi; rw [e2, if_neg (by decide)]; unfold SOp.run; rw [e3]
    · intro i hi
      dsimp only
      generalize (x i) = u; generalize (y i) = v
      unfold FT.lt
      cases hu : g.isNan u.toNat <;> cases hv : g.isNan v.toNat <;>
        by_cases hlt : g.key u.toNat < g.key v.toNat <;> simp [hlt, hu, hv] <;> omega

/-- The minimum of 1 and NaN is NaN, of 1 and 2 it is 1. -/
example (fl : Fl) : ∃ par, ChunkSched 0 3 false par ∧
    twoStub (MKernel.run fl ⟨.slow, .i32, .fmin, .add⟩ none .none) .none [0x3F800000#32, 0x3F800000#32, 0x7FC00000#32]
      [0x40000000#32, 0x7FC00000#32, 0x3F800000#32] 3 par = some [some 0x3F800000#32, some 0x7FC00000#32, some 0x7FC00000#32] :=
  ⟨none, .direct (.inl (by decide)), by rfl⟩

end Riptide.Binary
