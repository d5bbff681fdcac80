import Verif.Binary.Math
import Verif.Binary.Loops
/-! Lemmas about the arithmetic loops. -/
namespace Riptide.Binary
open Riptide.Work Spec

theorem scalar_first {n : Nat} (v : BitVec n) (hn : 0 < 256 / n) : (List.replicate (256 / n) v)[0]? = some v := by
  rw [List.getElem?_replicate, if_pos hn]

theorem slowLoop_eq {n : Nat} {β : Type} (op : BitVec n → BitVec n → Option β) (mode : Mode) (a b : List (BitVec n)) (len : Nat)
    (x y : Nat → BitVec n) (r : Nat → β) (hn : 0 < 256 / n) (ha : Feeds (mode = .first) len a x) (hb : Feeds (mode = .second) len b y)
    (hS : ∀ i, i < len → op (x i) (y i) = some (r i)) : slowLoop op mode a b len = some ((List.range len).map r) := by
  cases mode with
  | none =>
    simp only [Feeds, reduceCtorEq, decide_false, Bool.false_eq_true, if_false] at ha hb
    exact mapM_some_range _ _ _ fun i hi => by rw [ha i hi, hb i hi]; exact hS i hi
  | first =>
    simp only [Feeds, reduceCtorEq, decide_false, decide_true, Bool.false_eq_true, if_false, if_true] at ha hb
    obtain ⟨v, rfl, hv⟩ := ha
    rw [slowLoop]
    rw [scalar_first v hn]
    exact mapM_some_range _ _ _ fun i hi => by rw [hb i hi]; have := hS i hi; rw [hv i] at this; exact this
  | second =>
    simp only [Feeds, reduceCtorEq, decide_false, decide_true, Bool.false_eq_true, if_false, if_true] at ha hb
    obtain ⟨v, rfl, hv⟩ := hb
    rw [slowLoop]
    rw [scalar_first v hn]
    exact mapM_some_range _ _ _ fun i hi => by rw [ha i hi]; have := hS i hi; rw [hv i] at this; exact this

theorem range'_congr {β : Type} (s w len : Nat) (f r : Nat → β) (h : ∀ i, i < len → f i = r i) (hs : s + w ≤ len) :
    (List.range' s w).map f = (List.range' s w).map r := by
  apply List.map_congr_left
  intro i hi
  rw [List.mem_range'_1] at hi
  exact h i (by omega)

theorem babyLen_le (addr size len : Nat) : babyLen addr size len ≤ len := by
  unfold babyLen
  dsimp only
  split
  · split <;> omega
  · omega

/-- After the single rows the address is a multiple of 32, unless too few rows are left for a register. -/
theorem babyLen_aligned (addr size w len : Nat) (hsz : 0 < size) (hw : w * size = 32) (hd : size ∣ addr)
    (hl : w ≤ len - babyLen addr size len) : (addr + babyLen addr size len * size) % 32 = 0 := by
  obtain ⟨q, rfl⟩ := hd
  have h32 : size ∣ 32 := ⟨w, by rw [← hw, Nat.mul_comm]⟩
  unfold babyLen at hl ⊢
  dsimp only at hl ⊢
  by_cases hz : size * q % 32 ≠ 0
  · rw [if_pos hz] at hl ⊢
    have hdvd : size ∣ 32 - size * q % 32 :=
      Nat.dvd_sub h32 ((Nat.dvd_mod_iff h32).2 ⟨q, rfl⟩)
    have hlt := Nat.mod_lt (size * q) (show 32 > 0 by decide)
    have hdiv := Nat.div_mul_cancel hdvd
    by_cases hb : (32 - size * q % 32) / size ≤ len
    · rw [if_pos hb, hdiv]
      have := Nat.div_add_mod (size * q) 32
      omega
    · rw [if_neg hb] at hl
      exfalso
      have h1 : (32 - size * q % 32) / size ≤ w := by
        apply Nat.le_of_mul_le_mul_right _ hsz
        rw [hdiv, hw]; omega
      omega
  · rw [if_neg hz]
    simp only [ne_eq, Decidable.not_not] at hz
    omega

theorem inPlace_eq {n : Nat} (w size : Nat) (opS : BitVec n → BitVec n → Option (BitVec n)) (vec : BitVec n → BitVec n → BitVec n)
    (addr : Nat) (a : List (BitVec n)) (v : BitVec n) (len : Nat) (x r : Nat → BitVec n) (hw : 0 < w) (hwn : w ≤ 256 / n)
    (hsz : 0 < size) (hws : w * size = 32) (hd : size ∣ addr)
    (ha : ∀ i : Nat, i < len → a[i]? = some (x i))
    (hS : ∀ i, i < len → opS (x i) v = some (r i)) (hV : ∀ i, i < len → vec (x i) v = r i) :
    inPlace w size opS vec addr a (List.replicate (256 / n) v) len = some ((List.range len).map r) := by
  have hbl := babyLen_le addr size len
  have hal := babyLen_aligned addr size w len hsz hws hd
  unfold inPlace
  rw [scalar_first v (by omega)]
  simp only [Option.bind_eq_bind, Option.bind_some]
  generalize babyLen addr size len = baby at hbl hal
  rw [mapM_some_range baby _ r (fun i hi => by rw [ha i (by omega)]; exact hS i (by omega))]
  have hdrop : ∀ i : Nat, i < len - baby → (a.drop baby)[i]? = some (x (baby + i)) := by
    intro i hi; rw [List.getElem?_drop]; exact ha _ (by omega)
  have hrest : inPlaceRest w opS vec (addr + baby * size) (a.drop baby) (List.replicate (256 / n) v) v (len - baby)
      = some ((List.range (len - baby)).map fun (i : Nat) => r (baby + i)) := by
    unfold inPlaceRest
    split
    · exact mapM_some_range _ _ _ fun i hi => by rw [hdrop i hi]; exact hS _ (by omega)
    · rw [if_neg (by rw [hal (by omega)]; decide)]
      apply blockLoop_eq w _ _ _ _ hw
      · intro i hi
        rw [loadu_feeds w i (len - baby) (a.drop baby) (fun j => x (baby + j)) hdrop hi, loadu_scalar w v hwn]
        simp only [Option.bind_eq_bind, Option.bind_some, Option.pure_def]
        rw [replicate_range' v (i * w) w, zipWith_range']
        congr 1
        exact range'_congr _ _ (len - baby) _ _ (fun j hj => hV _ (by omega)) hi
      · intro i hi
        rw [hdrop i hi]; exact hS _ (by omega)
  simp only [Option.bind_some]
  rw [hrest]
  simp only [Option.bind_some, Option.pure_def]
  congr 1
  have h2 : (List.range (len - baby)).map (fun (i : Nat) => r (baby + i)) = (List.range' baby (len - baby)).map r := by
    rw [List.range'_eq_map_range, List.map_map]; rfl
  rw [h2, ← List.map_append, List.range_eq_range', List.range_eq_range']
  congr 1
  have := List.range'_append (s := 0) (m := baby) (n := len - baby) (step := 1)
  simp only [Nat.zero_add, Nat.one_mul] at this
  rw [this]
  congr 1; omega

/-- The vector loop treats every row if the two operations agree on it. -/
theorem fastLoop_eq {n : Nat} (w size : Nat) (opS : BitVec n → BitVec n → Option (BitVec n)) (vec : BitVec n → BitVec n → BitVec n)
    (addr : Option Nat) (mode : Mode) (a b : List (BitVec n)) (len : Nat) (x y r : Nat → BitVec n)
    (hw : 0 < w) (hwn : w ≤ 256 / n) (hsz : 0 < size) (hws : w * size = 32) (hd : ∀ p, addr = some p → size ∣ p)
    (ha : Feeds (mode = .first) len a x) (hb : Feeds (mode = .second) len b y)
    (hS : ∀ i, i < len → opS (x i) (y i) = some (r i)) (hV : ∀ i, i < len → vec (x i) (y i) = r i) :
    fastLoop w size opS vec addr mode a b len = some ((List.range len).map r) := by
  cases mode with
  | none =>
    simp only [Feeds, reduceCtorEq, decide_false, Bool.false_eq_true, if_false] at ha hb
    rw [fastLoop]
    apply blockLoop_eq w len _ _ _ hw
    · intro i hi
      rw [loadu_feeds w i len a x ha hi, loadu_feeds w i len b y hb hi]
      simp only [Option.bind_eq_bind, Option.bind_some, Option.pure_def]
      rw [zipWith_range']
      congr 1
      exact range'_congr _ _ len _ _ hV hi
    · intro i hi
      rw [ha i hi, hb i hi]; exact hS i hi
  | first =>
    simp only [Feeds, reduceCtorEq, decide_false, decide_true, Bool.false_eq_true, if_false, if_true] at ha hb
    obtain ⟨v, rfl, hv⟩ := ha
    rw [fastLoop]
    rw [scalar_first v (by omega)]
    simp only [Option.bind_eq_bind, Option.bind_some]
    apply blockLoop_eq w len _ _ _ hw
    · intro i hi
      rw [loadu_scalar w v hwn, loadu_feeds w i len b y hb hi]
      simp only [Option.bind_some, Option.pure_def]
      rw [replicate_range' v (i * w) w, zipWith_range']
      congr 1
      exact range'_congr _ _ len _ _ (fun j hj => by have := hV j hj; rw [hv j] at this; exact this) hi
    · intro i hi
      rw [hb i hi]; have := hS i hi; rw [hv i] at this; exact this
  | second =>
    simp only [Feeds, reduceCtorEq, decide_false, decide_true, Bool.false_eq_true, if_false, if_true] at ha hb
    obtain ⟨v, rfl, hv⟩ := hb
    have hS' : ∀ i, i < len → opS (x i) v = some (r i) := fun i hi => by have := hS i hi; rw [hv i] at this; exact this
    have hV' : ∀ i, i < len → vec (x i) v = r i := fun i hi => by have := hV i hi; rw [hv i] at this; exact this
    cases addr with
    | some p => exact inPlace_eq w size opS vec p a v len x r hw hwn hsz hws (hd p rfl) ha hS' hV'
    | none =>
      rw [fastLoop]
      rw [scalar_first v (by omega)]
      simp only [Option.bind_eq_bind, Option.bind_some]
      apply blockLoop_eq w len _ _ _ hw
      · intro i hi
        rw [loadu_scalar w v hwn, loadu_feeds w i len a x ha hi]
        simp only [Option.bind_some, Option.pure_def]
        rw [replicate_range' v (i * w) w, zipWith_range']
        congr 1
        exact range'_congr _ _ len _ _ hV' hi
      · intro i hi
        rw [ha i hi]; exact hS' i hi

theorem symLoop_eq {n : Nat} (w size : Nat) (opS : BitVec n → BitVec n → Option (BitVec n)) (vec : BitVec n → BitVec n → BitVec n)
    (addr : Option Nat) (mode : Mode) (a b : List (BitVec n)) (len : Nat) (x y r : Nat → BitVec n)
    (hw : 0 < w) (hwn : w ≤ 256 / n) (hsz : 0 < size) (hws : w * size = 32) (hd : ∀ p, addr = some p → size ∣ p)
    (ha : Feeds (mode = .first) len a x) (hb : Feeds (mode = .second) len b y)
    (hS : ∀ i, i < len → opS (x i) (y i) = some (r i)) (hV : ∀ i, i < len → vec (x i) (y i) = r i)
    (hC : ∀ i, i < len → vec (y i) (x i) = vec (x i) (y i)) :
    symLoop w size opS vec addr mode a b len = some ((List.range len).map r) := by
  cases mode with
  | none => exact fastLoop_eq w size opS vec addr .none a b len x y r hw hwn hsz hws hd ha hb hS hV
  | first => exact fastLoop_eq w size opS vec addr .first a b len x y r hw hwn hsz hws hd ha hb hS hV
  | second =>
    exact fastLoop_eq w size opS (fun p q => vec q p) addr .second a b len x y r hw hwn hsz hws hd ha hb hS
      (fun i hi => (hC i hi).trans (hV i hi))

theorem mulU64_eq (x y : BitVec 64) : mulU64 x y = x * y := by
  apply BitVec.eq_of_toNat_eq
  have hx := x.isLt
  have hy := y.isLt
  have hxm : (x &&& BitVec.ofNat 64 0xFFFFFFFF).toNat = x.toNat % 2 ^ 32 := by
    rw [BitVec.toNat_and, show (BitVec.ofNat 64 0xFFFFFFFF).toNat = 2 ^ 32 - 1 from rfl, Nat.and_two_pow_sub_one_eq_mod]
  have hym : (y &&& BitVec.ofNat 64 0xFFFFFFFF).toNat = y.toNat % 2 ^ 32 := by
    rw [BitVec.toNat_and, show (BitVec.ofNat 64 0xFFFFFFFF).toNat = 2 ^ 32 - 1 from rfl, Nat.and_two_pow_sub_one_eq_mod]
  unfold mulU64 mulEpu32
  simp only [BitVec.toNat_add, BitVec.toNat_shiftLeft, BitVec.toNat_ofNat, hxm, hym, BitVec.toNat_ushiftRight, BitVec.toNat_mul,
    Nat.shiftRight_eq_div_pow, Nat.shiftLeft_eq]
  have hx1 : x.toNat / 2 ^ 32 < 2 ^ 32 := by omega
  have hy1 : y.toNat / 2 ^ 32 < 2 ^ 32 := by omega
  rw [Nat.mod_mod, Nat.mod_mod, Nat.mod_eq_of_lt hx1, Nat.mod_eq_of_lt hy1]
  have ex := Nat.div_add_mod x.toNat (2 ^ 32)
  have ey := Nat.div_add_mod y.toNat (2 ^ 32)
  generalize x.toNat % 2 ^ 32 = p at *
  generalize y.toNat % 2 ^ 32 = q at *
  generalize x.toNat / 2 ^ 32 = u at *
  generalize y.toNat / 2 ^ 32 = v at *
  rw [← ex, ← ey]
  have : (2 ^ 32 * u + p) * (2 ^ 32 * v + q) = p * q + (p * v * 2 ^ 32 + q * u * 2 ^ 32) + 2 ^ 64 * (u * v) := by grind
  rw [this, Nat.add_mul_mod_self_left]
  simp [Nat.add_mod, Nat.mod_mul_mod]

end Riptide.Binary
