import Verif.Crc.Model
import Verif.Crc.Spec
/-! Helper lemmas for CRC64. -/
namespace Riptide.Crc

theorem and_one (x : W64) : (x &&& 1#64 = 1#64) ↔ x.getLsbD 0 = true := by
  constructor
  · intro h
    have := congrArg (fun y => y.getLsbD 0) h
    simpa using this
  · intro h
    apply BitVec.eq_of_getLsbD_eq
    intro i hi
    rw [BitVec.getLsbD_and]
    by_cases h0 : i = 0
    · subst h0; rw [h]; rfl
    · have : (1#64).getLsbD i = false := by simp [h0]
      rw [this]; simp

theorem bitStep_eq (poly x : W64) : bitStep poly x = Spec.shiftBit poly x := by
  unfold bitStep Spec.shiftBit
  simp only [and_one]

theorem shift_xor (a b : W64) (n : Nat) : (a ^^^ b) >>> n = (a >>> n) ^^^ (b >>> n) := by
  apply BitVec.eq_of_getLsbD_eq; intro i hi; simp

theorem bitStep_xor (poly a b : W64) : bitStep poly (a ^^^ b) = bitStep poly a ^^^ bitStep poly b := by
  simp only [bitStep_eq, Spec.shiftBit, BitVec.getLsbD_xor, shift_xor]
  cases a.getLsbD 0 <;> cases b.getLsbD 0 <;> simp <;> apply BitVec.eq_of_getLsbD_eq <;>
    intro i hi <;> simp only [BitVec.getLsbD_xor] <;>
    cases (a >>> 1).getLsbD i <;> cases (b >>> 1).getLsbD i <;> cases poly.getLsbD i <;> rfl

theorem bitSteps_xor (poly : W64) (n : Nat) (a b : W64) :
    bitSteps poly n (a ^^^ b) = bitSteps poly n a ^^^ bitSteps poly n b := by
  induction n generalizing a b with
  | zero => rfl
  | succ n ih => simp only [bitSteps, bitStep_xor, ih]

theorem bitSteps_add (poly : W64) (m n : Nat) (a : W64) :
    bitSteps poly (m + n) a = bitSteps poly n (bitSteps poly m a) := by
  induction m generalizing a with
  | zero => simp [bitSteps]
  | succ m ih => rw [Nat.succ_add]; simp only [bitSteps, ih]

/-- If the low `n` bits are clear, `n` bit steps are a shift. -/
theorem bitSteps_shift (poly : W64) (n : Nat) (x : W64) (h : ∀ i < n, x.getLsbD i = false) :
    bitSteps poly n x = x >>> n := by
  induction n generalizing x with
  | zero => simp [bitSteps]
  | succ n ih =>
    have h1 : bitStep poly x = x >>> 1 := by
      rw [bitStep_eq, Spec.shiftBit, h 0 (by omega)]; rfl
    rw [bitSteps, h1, ih]
    · rw [← BitVec.shiftRight_add, Nat.add_comm]
    · intro i hi
      rw [BitVec.getLsbD_ushiftRight]
      exact h _ (by omega)

theorem zero_steps (poly : W64) (n : Nat) : bitSteps poly n 0#64 = 0#64 := by
  rw [bitSteps_shift _ _ _ (by intros; simp)]; simp

/-- Splitting off the low byte. -/
theorem split_low (x : W64) : x = (lowByte x).zeroExtend 64 ^^^ ((x >>> 8) <<< 8) := by
  apply BitVec.eq_of_getLsbD_eq
  intro i hi
  simp only [lowByte, BitVec.getLsbD_xor, BitVec.truncate_eq_setWidth, BitVec.getLsbD_setWidth,
    BitVec.getLsbD_shiftLeft, BitVec.getLsbD_ushiftRight, hi, decide_true, Bool.true_and]
  by_cases h : i < 8
  · simp [h]
  · have : 8 + (i - 8) = i := by omega
    simp [h, this]

theorem steps_hi (poly x : W64) (n : Nat) :
    bitSteps poly (8 + n) ((x >>> 8) <<< 8) = bitSteps poly n (x >>> 8) := by
  rw [bitSteps_add, bitSteps_shift poly 8]
  · congr 1
    apply BitVec.eq_of_getLsbD_eq
    intro i hi
    simp only [BitVec.getLsbD_shiftLeft, BitVec.getLsbD_ushiftRight]
    by_cases h : 8 + i < 64
    · simp [h]
    · rw [BitVec.getLsbD_of_ge x (8 + i) (by omega)]
      simp; intro h2; exact absurd h2 h
  · intro i hi; simp [BitVec.getLsbD_shiftLeft, hi]

/-- `8 + n` bit steps split over the low byte and the rest. -/
theorem steps_split (poly x : W64) (n : Nat) :
    bitSteps poly (8 + n) x =
      bitSteps poly (8 + n) ((lowByte x).zeroExtend 64) ^^^ bitSteps poly n (x >>> 8) := by
  conv => lhs; rw [split_low x, bitSteps_xor, steps_hi]

theorem look_table (poly : W64) (i : Byte) :
    look (makeTable poly) i = bitSteps poly 8 (i.zeroExtend 64) := by
  unfold look makeTable
  have h : i.toNat < 256 := i.isLt
  rw [Array.getElem?_ofFn]
  simp only [h, dif_pos, Option.getD_some]
  congr 1
  apply BitVec.eq_of_toNat_eq
  simp

/-- A table step is eight bit steps on the register with the byte xored in. -/
theorem byte_step (poly crc : W64) (b : Byte) :
    look (makeTable poly) (lowByte crc ^^^ b) ^^^ (crc >>> 8) =
      bitSteps poly 8 (crc ^^^ b.zeroExtend 64) := by
  have h := steps_split poly (crc ^^^ b.zeroExtend 64) 0
  rw [Nat.add_zero] at h
  rw [h, look_table]
  simp only [bitSteps]
  congr 1
  · congr 1
    apply BitVec.eq_of_getLsbD_eq
    intro i hi
    simp [lowByte]
  · rw [shift_xor]
    have : (b.zeroExtend 64) >>> 8 = 0#64 := by
      apply BitVec.eq_of_getLsbD_eq
      intro i hi
      simp
    rw [this]; simp

theorem slice_eq (poly : W64) (i : Byte) (j : Nat) :
    slice (makeTable poly) i j = bitSteps poly (8 * (j + 1)) (i.zeroExtend 64) := by
  induction j with
  | zero => exact look_table poly i
  | succ j ih =>
    rw [slice, ih]
    have := byte_step poly (bitSteps poly (8 * (j + 1)) (i.zeroExtend 64)) 0#8
    have hx : lowByte (bitSteps poly (8 * (j + 1)) (i.zeroExtend 64)) ^^^ 0#8 =
      lowByte (bitSteps poly (8 * (j + 1)) (i.zeroExtend 64)) := by simp
    rw [hx] at this
    rw [this]
    have : (bitSteps poly (8 * (j + 1)) (i.zeroExtend 64)) ^^^ (0#8).zeroExtend 64 =
      bitSteps poly (8 * (j + 1)) (i.zeroExtend 64) := by simp
    rw [this, ← bitSteps_add]; rfl

theorem look2_eq (poly : W64) (j : Nat) (hj : j < 8) (i : Byte) :
    look2 (makeSlicing (makeTable poly)) j i = bitSteps poly (8 * (j + 1)) (i.zeroExtend 64) := by
  unfold look2 makeSlicing look
  have h : i.toNat < 256 := i.isLt
  rw [Array.getElem?_ofFn]
  simp only [hj, dif_pos, Option.getD_some]
  rw [Array.getElem?_ofFn]
  simp only [h, dif_pos, Option.getD_some]
  rw [slice_eq]
  congr 2
  simp

theorem shift_shift (x : W64) (a b : Nat) : (x >>> a) >>> b = x >>> (a + b) :=
  (BitVec.shiftRight_add x a b).symm

theorem xor_assoc' (a b c : W64) : a ^^^ b ^^^ c = a ^^^ (b ^^^ c) := BitVec.xor_assoc a b c

/-- One slicing-by-8 step is 64 bit steps. -/
theorem step8_eq (poly crc : W64) (p0 p1 p2 p3 p4 p5 p6 p7 : Byte) :
    step8 (makeSlicing (makeTable poly)) crc p0 p1 p2 p3 p4 p5 p6 p7 =
      bitSteps poly 64 (crc ^^^ word p0 p1 p2 p3 p4 p5 p6 p7) := by
  unfold step8
  simp only
  generalize crc ^^^ word p0 p1 p2 p3 p4 p5 p6 p7 = x
  rw [look2_eq _ 7 (by decide), look2_eq _ 6 (by decide), look2_eq _ 5 (by decide),
    look2_eq _ 4 (by decide), look2_eq _ 3 (by decide), look2_eq _ 2 (by decide),
    look2_eq _ 1 (by decide), look2_eq _ 0 (by decide)]
  have e0 : bitSteps poly 64 x = _ := steps_split poly x 56
  have e1 : bitSteps poly 56 (x >>> 8) = _ := steps_split poly (x >>> 8) 48
  have e2 : bitSteps poly 48 (x >>> 16) = _ := steps_split poly (x >>> 16) 40
  have e3 : bitSteps poly 40 (x >>> 24) = _ := steps_split poly (x >>> 24) 32
  have e4 : bitSteps poly 32 (x >>> 32) = _ := steps_split poly (x >>> 32) 24
  have e5 : bitSteps poly 24 (x >>> 40) = _ := steps_split poly (x >>> 40) 16
  have e6 : bitSteps poly 16 (x >>> 48) = _ := steps_split poly (x >>> 48) 8
  have e7 : bitSteps poly 8 (x >>> 56) = _ := steps_split poly (x >>> 56) 0
  simp only [shift_shift, Nat.reduceAdd] at e0 e1 e2 e3 e4 e5 e6 e7
  have h0 : bitSteps poly 0 (x >>> 64) = 0#64 := by
    apply BitVec.eq_of_getLsbD_eq
    intro i _
    rw [bitSteps, BitVec.getLsbD_ushiftRight, BitVec.getLsbD_of_ge x _ (by omega)]
    simp
  rw [h0, BitVec.xor_zero] at e7
  rw [e0, e1, e2, e3, e4, e5, e6, e7]
  simp only [Nat.reduceAdd, Nat.reduceMul, xor_assoc']

/-- The bytes of a word, least significant first. -/
def pack : List Byte → W64
  | [] => 0#64
  | b :: l => b.zeroExtend 64 ^^^ (pack l <<< 8)

/-- The register after a byte: eight bit steps with the byte xored in. -/
def byteFeed (poly crc : W64) (b : Byte) : W64 := bitSteps poly 8 (crc ^^^ b.zeroExtend 64)

theorem tail_eq (poly crc : W64) (l : List Byte) :
    tail (makeTable poly) crc l = l.foldl (byteFeed poly) crc := by
  unfold tail
  congr 1
  funext crc b
  exact byte_step poly crc b

/-- Eight byte steps are 64 bit steps on the register with the whole word xored in. -/
theorem fold_word (poly : W64) : ∀ (l : List Byte), l.length ≤ 8 → ∀ crc : W64,
    l.foldl (byteFeed poly) crc = bitSteps poly (8 * l.length) (crc ^^^ pack l) ∧
    ∀ i, 8 * l.length ≤ i → (pack l).getLsbD i = false := by
  intro l
  induction l with
  | nil => intro _ crc; simp [bitSteps, pack]
  | cons b l ih =>
    intro hl crc
    simp only [List.length_cons] at hl
    have ih1 := ih (by omega) (byteFeed poly crc b)
    simp only [List.foldl_cons, pack, List.length_cons]
    generalize hw : pack l = w at *
    constructor
    · rw [ih1.1, show 8 * (l.length + 1) = 8 + 8 * l.length by omega, bitSteps_add]
      congr 1
      rw [← BitVec.xor_assoc, bitSteps_xor]
      congr 1
      rw [bitSteps_shift poly 8]
      · apply BitVec.eq_of_getLsbD_eq
        intro i hi
        simp only [BitVec.getLsbD_ushiftRight, BitVec.getLsbD_shiftLeft]
        by_cases h : 8 + i < 64
        · simp [h]
        · have := ih1.2 i (by omega)
          rw [this]
          simp; intro h2; exact absurd h2 h
      · intro i hi; simp [BitVec.getLsbD_shiftLeft, hi]
    · intro i hi
      simp only [BitVec.getLsbD_xor, BitVec.getLsbD_shiftLeft]
      rw [ih1.2 (i - 8) (by omega)]
      simp
      intro _
      exact BitVec.getLsbD_of_ge b i (by omega)

theorem byte_or (b : Byte) (w : W64) :
    b.zeroExtend 64 ^^^ (w <<< 8) = b.zeroExtend 64 ||| (w <<< 8) := by
  apply BitVec.eq_of_getLsbD_eq
  intro i hi
  simp only [BitVec.truncate_eq_setWidth, BitVec.getLsbD_or, BitVec.getLsbD_xor,
    BitVec.getLsbD_shiftLeft, BitVec.getLsbD_setWidth]
  by_cases h : i < 8
  · simp [h]
  · rw [BitVec.getLsbD_of_ge b i (by omega)]; simp

theorem word_eq (p0 p1 p2 p3 p4 p5 p6 p7 : Byte) :
    word p0 p1 p2 p3 p4 p5 p6 p7 = pack [p0, p1, p2, p3, p4, p5, p6, p7] := by
  unfold word
  have e : ∀ (b : Byte) (l : List Byte), pack (b :: l) = b.zeroExtend 64 ||| (pack l <<< 8) :=
    fun b l => byte_or b (pack l)
  simp only [e]
  simp only [pack, BitVec.shiftLeft_or_distrib, ← BitVec.shiftLeft_add, Nat.reduceAdd,
    BitVec.or_assoc, BitVec.zero_shiftLeft, BitVec.or_zero]

theorem loop8_eq (poly crc : W64) (l : List Byte) :
    let r := loop8 (makeSlicing (makeTable poly)) crc l
    r.2.foldl (byteFeed poly) r.1 = l.foldl (byteFeed poly) crc := by
  fun_induction loop8 (makeSlicing (makeTable poly)) crc l with
  | case1 crc p0 p1 p2 p3 p4 p5 p6 p7 rest ih =>
    simp only at ih ⊢
    rw [ih, step8_eq, word_eq]
    have := (fold_word poly [p0, p1, p2, p3, p4, p5, p6, p7] (by simp) crc).1
    simp only [List.length_cons, List.length_nil, Nat.zero_add, Nat.reduceAdd, Nat.reduceMul] at this
    rw [← this]
    rfl
  | case2 crc rest h => rfl

theorem calculateCRC64_eq (poly crc : W64) (p : List Byte) :
    calculateCRC64 poly crc p = ~~~(p.foldl (byteFeed poly) (~~~crc)) := by
  unfold calculateCRC64
  simp only
  split
  · rw [tail_eq, loop8_eq]
  · rw [tail_eq]

/-- Feeding the eight bits of a byte one by one is the byte step. -/
theorem feed_byte (poly r : W64) (b : Byte) :
    ((List.range 8).map fun i => b.getLsbD i).foldl (Spec.feedBit poly) r = byteFeed poly r b := by
  -- feeding one bit commutes with having xored the later bits in already
  have feed : ∀ (r : W64) (bit : Bool),
      Spec.feedBit poly r bit = bitStep poly (r ^^^ (if bit then 1#64 else 0#64)) := by
    intro r bit
    rw [bitStep_eq]; unfold Spec.feedBit
    cases bit <;> simp
  have gen : ∀ (bs : List Bool), bs.length ≤ 64 → ∀ r : W64,
      bs.foldl (Spec.feedBit poly) r =
        bitSteps poly bs.length (r ^^^ bs.foldr (fun (b : Bool) (w : W64) =>
          (if b then 1#64 else 0#64) ^^^ (w <<< 1)) 0#64) ∧
      ∀ i, (bs.foldr (fun (b : Bool) (w : W64) =>
          (if b then 1#64 else 0#64) ^^^ (w <<< 1)) 0#64).getLsbD i = (bs[i]?).getD false := by
    intro bs
    induction bs with
    | nil => intro _ r; simp [bitSteps]
    | cons b bs ih =>
      intro hl r
      simp only [List.length_cons] at hl
      have ih1 := ih (by omega) (Spec.feedBit poly r b)
      simp only [List.foldl_cons, List.foldr_cons, List.length_cons]
      generalize (bs.foldr (fun (b : Bool) (w : W64) =>
          (if b then 1#64 else 0#64) ^^^ (w <<< 1)) 0#64) = w at *
      constructor
      · rw [ih1.1, bitSteps, feed, ← BitVec.xor_assoc, bitStep_xor _ _ (w <<< 1)]
        congr 2
        have := bitSteps_shift poly 1 (w <<< 1) (by intro i hi; simp [hi])
        rw [bitSteps, bitSteps] at this
        rw [this]
        apply BitVec.eq_of_getLsbD_eq
        intro i hi
        simp only [BitVec.getLsbD_ushiftRight, BitVec.getLsbD_shiftLeft]
        by_cases h : 1 + i < 64
        · simp [h]
        · rw [ih1.2 i, List.getElem?_eq_none (by omega)]
          simp; intro h2; exact absurd h2 h
      · intro i
        rw [BitVec.getLsbD_xor, BitVec.getLsbD_shiftLeft, ih1.2 (i - 1)]
        cases i with
        | zero => cases b <;> simp
        | succ i =>
          have h1 : (if b then 1#64 else 0#64).getLsbD (i + 1) = false := by
            cases b <;> simp
          rw [h1]
          by_cases h : i + 1 < 64
          · simp [h]
          · rw [List.getElem?_eq_none (by omega), List.getElem?_eq_none (by simp; omega)]
            simp
  have h := gen ((List.range 8).map fun i => b.getLsbD i) (by simp) r
  rw [h.1]
  unfold byteFeed
  simp only [List.length_map, List.length_range]
  congr 2
  apply BitVec.eq_of_getLsbD_eq
  intro i hi
  rw [h.2 i]
  simp only [BitVec.truncate_eq_setWidth, BitVec.getLsbD_setWidth, hi, decide_true, Bool.true_and]
  by_cases h8 : i < 8
  · simp [h8]
  · rw [List.getElem?_eq_none (by simp; omega), BitVec.getLsbD_of_ge b i (by omega)]; rfl

theorem spec_eq (poly crc : W64) (p : List Byte) :
    Spec.crc poly crc p = ~~~(p.foldl (byteFeed poly) (~~~crc)) := by
  unfold Spec.crc Spec.bits
  congr 1
  generalize ~~~crc = r
  induction p generalizing r with
  | nil => rfl
  | cons b p ih => rw [List.flatMap_cons, List.foldl_append, feed_byte, ih]; rfl

/-! ### Injectivity -/

theorem bitStep_inj (poly : W64) (hp : poly.getLsbD 63 = true) {a b : W64}
    (h : bitStep poly a = bitStep poly b) : a = b := by
  have msb : ∀ x : W64, (bitStep poly x).getLsbD 63 = x.getLsbD 0 := by
    intro x
    rw [bitStep_eq, Spec.shiftBit]
    cases hx : x.getLsbD 0
    · simp
    · simp [hp]
  have h0 : a.getLsbD 0 = b.getLsbD 0 := by rw [← msb a, ← msb b, h]
  have hs : a >>> 1 = b >>> 1 := by
    rw [bitStep_eq, bitStep_eq, Spec.shiftBit, Spec.shiftBit, h0] at h
    split at h
    · have := congrArg (fun z => z ^^^ poly) h
      simpa [BitVec.xor_assoc] using this
    · exact h
  apply BitVec.eq_of_getLsbD_eq
  intro i hi
  cases i with
  | zero => exact h0
  | succ i =>
    have := congrArg (fun z => z.getLsbD i) hs
    simpa [Nat.add_comm] using this

theorem bitSteps_inj (poly : W64) (hp : poly.getLsbD 63 = true) (n : Nat) {a b : W64}
    (h : bitSteps poly n a = bitSteps poly n b) : a = b := by
  induction n generalizing a b with
  | zero => exact h
  | succ n ih => exact bitStep_inj poly hp (ih h)

theorem xor_cancel {a b c : W64} (h : a ^^^ b = a ^^^ c) : b = c := by
  have := congrArg (fun z => a ^^^ z) h
  simpa [← BitVec.xor_assoc] using this

theorem xor_cancel_right {a b c : W64} (h : b ^^^ a = c ^^^ a) : b = c := by
  apply xor_cancel (a := a); rw [BitVec.xor_comm, h, BitVec.xor_comm]

theorem foldl_inj (poly : W64) (hp : poly.getLsbD 63 = true) (l : List Byte) {a b : W64}
    (h : l.foldl (byteFeed poly) a = l.foldl (byteFeed poly) b) : a = b := by
  induction l generalizing a b with
  | nil => exact h
  | cons x l ih => exact xor_cancel_right (bitSteps_inj poly hp 8 (ih h))

theorem pack_inj : ∀ (x y : List Byte), x.length = y.length → x.length ≤ 8 → pack x = pack y → x = y := by
  intro x
  induction x with
  | nil => intro y h _ _; cases y with
    | nil => rfl
    | cons => simp at h
  | cons a x ih =>
    intro y hl h8 he
    cases y with
    | nil => simp at hl
    | cons b y =>
      simp only [List.length_cons] at hl h8
      simp only [pack] at he
      have hab : a = b := by
        apply BitVec.eq_of_getLsbD_eq
        intro i hi
        have := congrArg (fun z => z.getLsbD i) he
        simp only [BitVec.getLsbD_xor, BitVec.getLsbD_shiftLeft, BitVec.truncate_eq_setWidth,
          BitVec.getLsbD_setWidth, hi] at this
        have h64 : i < 64 := by omega
        simpa [h64] using this
      subst hab
      have hs := xor_cancel he
      have hx := (fold_word 0#64 x (by omega) 0#64).2
      have hy := (fold_word 0#64 y (by omega) 0#64).2
      have : pack x = pack y := by
        apply BitVec.eq_of_getLsbD_eq
        intro i hi
        by_cases h : i + 8 < 64
        · have := congrArg (fun z => z.getLsbD (i + 8)) hs
          have h9 : ¬ (i + 8 < 8) := by omega
          simp only [BitVec.getLsbD_shiftLeft, h, h9, Nat.add_sub_cancel, decide_true, decide_false,
            Bool.not_false, Bool.true_and] at this
          exact this
        · rw [hx i (by omega), hy i (by omega)]
      rw [ih y (by omega) (by omega) this]

end Riptide.Crc
