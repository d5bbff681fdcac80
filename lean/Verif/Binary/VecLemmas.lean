import Verif.Binary.Vec
/-! Each vector comparison is the comparison of its lanes. -/
namespace Riptide.Binary

/-- A boolean as a byte. -/
def byteOf (b : Bool) : BitVec 8 := if b then 1 else 0

/-- Comparison of lanes as signed integers. -/
def sCmp {n : Nat} (op : Cmp) (a b : BitVec n) : Bool :=
  match op with
  | .eq => decide (a.toInt = b.toInt)
  | .ne => decide (a.toInt ≠ b.toInt)
  | .lt => decide (a.toInt < b.toInt)
  | .gt => decide (b.toInt < a.toInt)
  | .le => decide (a.toInt ≤ b.toInt)
  | .ge => decide (b.toInt ≤ a.toInt)

/-- Bit `i` of the number is entry `i`. -/
def bitsOf : List Bool → Nat
  | [] => 0
  | b :: r => b.toNat + 2 * bitsOf r

theorem laneMask_msb {n : Nat} (h : 0 < n) (b : Bool) : (laneMask n b).msb = b := by
  cases b
  · simp [laneMask]
  · simp [laneMask, BitVec.msb_allOnes h]

theorem movemask_mask {n : Nat} (h : 0 < n) (l : List Bool) : movemask (l.map (laneMask n)) = bitsOf l := by
  induction l with
  | nil => rfl
  | cons b r ih =>
    simp only [List.map_cons, movemask, laneMask_msb h, ih, bitsOf]
    cases b <;> simp

theorem bitsOf_lt (l : List Bool) : bitsOf l < 2 ^ l.length := by
  induction l with
  | nil => simp [bitsOf]
  | cons b r ih =>
    simp only [bitsOf, List.length_cons, Nat.pow_succ]
    cases b <;> simp <;> omega

theorem bitsOf_shift (l : List Bool) (j : Nat) (h : j < l.length) : (bitsOf l >>> j) &&& 1 = l[j].toNat := by
  induction l generalizing j with
  | nil => simp at h
  | cons b r ih =>
    rw [Nat.and_one_is_mod]
    cases j with
    | zero =>
      simp only [bitsOf, List.getElem_cons_zero, Nat.shiftRight_zero]
      cases b <;> simp <;> omega
    | succ j =>
      have := ih j (by simpa using h)
      rw [Nat.and_one_is_mod] at this
      simp only [bitsOf, List.getElem_cons_succ]
      rw [Nat.add_comm j 1, Nat.shiftRight_add, Nat.shiftRight_eq_div_pow _ 1, Nat.pow_one]
      have : (b.toNat + 2 * bitsOf r) / 2 = bitsOf r := by cases b <;> simp <;> omega
      rw [this]; assumption

theorem lut_bitsOf (l : List Bool) : lut l.length (bitsOf l) = l.map byteOf := by
  apply List.ext_getElem
  · simp [lut]
  · intro i h1 h2
    have hi : i < l.length := by simpa [lut] using h1
    simp only [lut, List.getElem_map, List.getElem_range]
    rw [bitsOf_shift l i hi]
    cases l[i] <;> rfl

theorem lutInv_bitsOf (l : List Bool) : lutInv l.length (bitsOf l) = l.map fun b => byteOf (!b) := by
  rw [lutInv, lut_bitsOf, List.map_map]
  apply List.map_congr_left
  intro b _; cases b <;> rfl

theorem zip_map {α β γ δ : Type} (f : α → β → γ) (g : γ → δ) (x : List α) (y : List β) :
    List.zipWith (fun a b => g (f a b)) x y = (List.zipWith f x y).map g := by
  rw [List.map_zipWith]

theorem lut_masks {n k : Nat} (h : 0 < n) (p : BitVec n → BitVec n → Bool) (x y : List (BitVec n))
    (hx : x.length = k) (hy : y.length = k) :
    lut k (movemask (List.zipWith (fun a b => laneMask n (p a b)) x y) &&& (2 ^ k - 1))
      = List.zipWith (fun a b => byteOf (p a b)) x y := by
  have hl : (List.zipWith p x y).length = k := by simp [hx, hy]
  have hb := bitsOf_lt (List.zipWith p x y)
  rw [zip_map p (laneMask n), movemask_mask h, Nat.and_two_pow_sub_one_eq_mod, zip_map p byteOf]
  rw [hl] at hb
  rw [Nat.mod_eq_of_lt hb]
  conv => lhs; rw [← hl]
  exact lut_bitsOf _

theorem lutInv_masks {n k : Nat} (h : 0 < n) (p : BitVec n → BitVec n → Bool) (x y : List (BitVec n))
    (hx : x.length = k) (hy : y.length = k) :
    lutInv k (movemask (List.zipWith (fun a b => laneMask n (p a b)) x y) &&& (2 ^ k - 1))
      = List.zipWith (fun a b => byteOf (!p a b)) x y := by
  have hl : (List.zipWith p x y).length = k := by simp [hx, hy]
  have hb := bitsOf_lt (List.zipWith p x y)
  rw [zip_map p (laneMask n), movemask_mask h, Nat.and_two_pow_sub_one_eq_mod, zip_map p (fun b => byteOf (!b))]
  rw [hl] at hb
  rw [Nat.mod_eq_of_lt hb]
  conv => lhs; rw [← hl]
  exact lutInv_bitsOf _

theorem zipWith_flip {α β : Type} (f : α → α → β) (x y : List α) :
    List.zipWith f y x = List.zipWith (fun a b => f b a) x y := by
  rw [List.zipWith_comm]

theorem zipWith_congr' {α β γ : Type} {f g : α → β → γ} (h : ∀ a b, f a b = g a b) (x : List α) (y : List β) :
    List.zipWith f x y = List.zipWith g x y := by
  have : f = g := funext fun a => funext (h a)
  rw [this]

theorem beq_toInt {n : Nat} (a b : BitVec n) : (a == b) = decide (a.toInt = b.toInt) := by
  by_cases h : a = b
  · simp [h]
  · have : a.toInt ≠ b.toInt := fun e => h (BitVec.toInt_inj.1 e)
    simp [h, this]

/-- Comparisons of 32-bit and 64-bit lanes with the lookup tables. -/
theorem comp32i_lanes {n k : Nat} (h : 0 < n) (op : Cmp) (x y : List (BitVec n)) (hx : x.length = k) (hy : y.length = k) :
    comp32i k op x y = List.zipWith (fun a b => byteOf (sCmp op a b)) x y := by
  cases op <;> simp only [comp32i, cmpeq, cmpgt]
  · rw [lut_masks h _ x y hx hy]; exact zipWith_congr' (fun a b => by rw [beq_toInt]; rfl) _ _
  · rw [lutInv_masks h _ x y hx hy]
    exact zipWith_congr' (fun a b => by rw [beq_toInt]; simp [sCmp]) _ _
  · rw [lut_masks h _ y x hy hx, zipWith_flip]; rfl
  · rw [lut_masks h _ x y hx hy]; rfl
  · rw [lutInv_masks h _ x y hx hy]
    exact zipWith_congr' (fun a b => by simp [sCmp, ← Int.not_lt]) _ _
  · rw [lutInv_masks h _ y x hy hx, zipWith_flip]
    exact zipWith_congr' (fun a b => by simp [sCmp, ← Int.not_lt]) _ _

theorem compF_lanes {n k : Nat} (h : 0 < n) (f : FT) (op : Cmp) (x y : List (BitVec n)) (hx : x.length = k)
    (hy : y.length = k) :
    compF f k op x y = List.zipWith (fun a b => byteOf (fpred f op a.toNat b.toNat)) x y :=
  lut_masks h (fun a b => fpred f op a.toNat b.toNat) x y hx hy

theorem zipWith_replicate' {α β γ : Type} (f : α → β → γ) (b : β) (x : List α) (k : Nat) (h : x.length = k) :
    List.zipWith f x (List.replicate k b) = x.map fun a => f a b := by
  apply List.ext_getElem
  · simp [h]
  · intro i h1 h2; simp

theorem vand_masks (n k : Nat) (p : BitVec n → BitVec n → Bool) (x y : List (BitVec n)) (hx : x.length = k) (hy : y.length = k) :
    vand (List.zipWith (fun a b => laneMask n (p a b)) x y) (List.replicate k 1)
      = List.zipWith (fun a b => if p a b then (1 : BitVec n) else 0) x y := by
  rw [vand, zipWith_replicate' _ _ _ _ (by simp [hx, hy]), List.map_zipWith]
  apply zipWith_congr'
  intro a b
  cases p a b <;> simp [laneMask]

theorem vxor_masks (n k : Nat) (p : BitVec n → BitVec n → Bool) (x y : List (BitVec n)) (hx : x.length = k) (hy : y.length = k) :
    vxor (List.zipWith (fun a b => if p a b then (1 : BitVec n) else 0) x y) (List.replicate k 1)
      = List.zipWith (fun a b => if !p a b then (1 : BitVec n) else 0) x y := by
  rw [vxor, zipWith_replicate' _ _ _ _ (by simp [hx, hy]), List.map_zipWith]
  apply zipWith_congr'
  intro a b
  cases p a b <;> simp

/-- Comparisons of 8-bit lanes. -/
theorem comp8i_lanes (op : Cmp) (x y : List (BitVec 8)) (hx : x.length = 32) (hy : y.length = 32) :
    comp8i op x y = List.zipWith (fun a b => byteOf (sCmp op a b)) x y := by
  cases op <;> simp only [comp8i, cmpeq, cmpgt]
  · rw [vand_masks 8 32 _ x y hx hy]; exact zipWith_congr' (fun a b => by rw [beq_toInt]; rfl) _ _
  · rw [vand_masks 8 32 _ x y hx hy, vxor_masks 8 32 _ x y hx hy]
    exact zipWith_congr' (fun a b => by rw [beq_toInt]; simp [sCmp, byteOf]) _ _
  · rw [vand_masks 8 32 _ y x hy hx, zipWith_flip]; rfl
  · rw [vand_masks 8 32 _ x y hx hy]; rfl
  · rw [vand_masks 8 32 _ x y hx hy, vxor_masks 8 32 _ x y hx hy]
    exact zipWith_congr' (fun a b => by simp [sCmp, byteOf, Int.not_lt]) _ _
  · rw [vand_masks 8 32 _ y x hy hx, vxor_masks 8 32 _ y x hy hx, zipWith_flip]
    exact zipWith_congr' (fun a b => by simp [sCmp, byteOf, Int.not_lt]) _ _

theorem pack16_map (l : List Bool) (h : l.length = 16) :
    pack16 (l.map fun b => if b then (1 : BitVec 16) else 0) = l.map byteOf := by
  have hs : ∀ l : List Bool, (l.map fun b => if b then (1 : BitVec 16) else 0).map sat8 = l.map byteOf := by
    intro l
    rw [List.map_map]
    apply List.map_congr_left
    intro b _; cases b <;> rfl
  rw [pack16, packs16]
  simp only [← List.map_drop, ← List.map_take]
  rw [List.take_append_of_le_length (by simp [h]), List.take_append_of_le_length (by simp [h])]
  simp only [← List.map_append, ← List.map_take, hs]
  rw [List.take_append_of_le_length (l₁ := l.drop 8) (by simp [h]), List.take_of_length_le (l := l.drop 8) (by simp [h]),
    List.take_append_drop, List.take_of_length_le (by simp [h])]

/-- Comparisons of 16-bit lanes. -/
theorem comp16i_lanes (op : Cmp) (x y : List (BitVec 16)) (hx : x.length = 16) (hy : y.length = 16) :
    comp16i op x y = List.zipWith (fun a b => byteOf (sCmp op a b)) x y := by
  have key : ∀ (p : BitVec 16 → BitVec 16 → Bool) (x y : List (BitVec 16)), x.length = 16 → y.length = 16 →
      pack16 (List.zipWith (fun a b => if p a b then (1 : BitVec 16) else 0) x y)
        = List.zipWith (fun a b => byteOf (p a b)) x y := by
    intro p x y hx hy
    rw [zip_map p (fun b => if b then (1 : BitVec 16) else 0), zip_map p byteOf, pack16_map _ (by simp [hx, hy])]
  cases op <;> simp only [comp16i, cmpeq, cmpgt]
  · rw [vand_masks 16 16 _ x y hx hy, key _ x y hx hy]
    exact zipWith_congr' (fun a b => by rw [beq_toInt]; rfl) _ _
  · rw [vand_masks 16 16 _ x y hx hy, vxor_masks 16 16 _ x y hx hy, key (fun a b => !(a == b)) x y hx hy]
    exact zipWith_congr' (fun a b => by rw [beq_toInt]; simp [sCmp, byteOf]) _ _
  · rw [vand_masks 16 16 _ y x hy hx, key _ y x hy hx, zipWith_flip]; rfl
  · rw [vand_masks 16 16 _ x y hx hy, key _ x y hx hy]; rfl
  · rw [vand_masks 16 16 _ x y hx hy, vxor_masks 16 16 _ x y hx hy, key (fun a b => !decide (b.toInt < a.toInt)) x y hx hy]
    exact zipWith_congr' (fun a b => by simp [sCmp, byteOf, Int.not_lt]) _ _
  · rw [vand_masks 16 16 _ y x hy hx, vxor_masks 16 16 _ y x hy hx, key (fun a b => !decide (b.toInt < a.toInt)) y x hy hx, zipWith_flip]
    exact zipWith_congr' (fun a b => by simp [sCmp, byteOf, Int.not_lt]) _ _

theorem eight {α : Type} (l : List α) (h : l.length = 8) :
    ∃ a b c d e f g i, l = [a, b, c, d, e, f, g, i] := by
  match l, h with
  | [a, b, c, d, e, f, g, i], _ => exact ⟨a, b, c, d, e, f, g, i, rfl⟩

theorem bytes32_mask (b : Bool) : bytes32 [laneMask 32 b] = [laneMask 8 b, laneMask 8 b, laneMask 8 b, laneMask 8 b] := by
  cases b <;> decide

theorem bytes32_cons (b : Bool) (r : List (BitVec 32)) :
    bytes32 (laneMask 32 b :: r) = laneMask 8 b :: laneMask 8 b :: laneMask 8 b :: laneMask 8 b :: bytes32 r := by
  have := bytes32_mask b
  simp only [bytes32, List.flatMap_cons, List.flatMap_nil, List.append_nil] at this ⊢
  rw [this]; rfl

theorem gather32_spec (b1 b2 b3 b4 : List Bool) (h1 : b1.length = 8) (h2 : b2.length = 8) (h3 : b3.length = 8)
    (h4 : b4.length = 8) :
    gather32 (bytes32 (b1.map (laneMask 32))) (bytes32 (b2.map (laneMask 32))) (bytes32 (b3.map (laneMask 32)))
      (bytes32 (b4.map (laneMask 32))) = (b1 ++ b2 ++ b3 ++ b4).map byteOf := by
  have hm : ∀ b, (laneMask 8 b) &&& 1#8 = byteOf b := by decide
  obtain ⟨p0, p1, p2, p3, p4, p5, p6, p7, rfl⟩ := eight b1 h1
  obtain ⟨q0, q1, q2, q3, q4, q5, q6, q7, rfl⟩ := eight b2 h2
  obtain ⟨r0, r1, r2, r3, r4, r5, r6, r7, rfl⟩ := eight b3 h3
  obtain ⟨s0, s1, s2, s3, s4, s5, s6, s7, rfl⟩ := eight b4 h4
  simp only [List.map_cons, List.map_nil, bytes32_cons]
  have hr : List.range 32 = [0,1,2,3,4,5,6,7,8,9,10,11,12,13,14,15,16,17,18,19,20,21,22,23,24,25,26,27,28,29,30,31] := by decide
  simp only [gather32, shuffle8, permute32, hr, List.map_cons, List.map_nil, shuf1, shuf2, shuf3, shuf4, perm, vor, vand]
  simp [hm, bytes32, List.replicate]

/-- The 32 comparisons of `COMP32i_EQS` come out in the order of the rows. -/
theorem comp32iEqs_lanes (x1 y1 x2 y2 x3 y3 x4 y4 : List (BitVec 32)) (h1 : x1.length = 8) (h2 : y1.length = 8)
    (h3 : x2.length = 8) (h4 : y2.length = 8) (h5 : x3.length = 8) (h6 : y3.length = 8) (h7 : x4.length = 8)
    (h8 : y4.length = 8) :
    comp32iEqs x1 y1 x2 y2 x3 y3 x4 y4
      = List.zipWith (fun a b => byteOf (sCmp .eq a b)) (x1 ++ x2 ++ x3 ++ x4) (y1 ++ y2 ++ y3 ++ y4) := by
  have hz : ∀ x y : List (BitVec 32), cmpeq x y = (List.zipWith (fun a b => sCmp .eq a b) x y).map (laneMask 32) := by
    intro x y
    rw [cmpeq, List.map_zipWith]
    exact zipWith_congr' (fun a b => by rw [beq_toInt]; rfl) _ _
  rw [comp32iEqs, hz, hz, hz, hz, gather32_spec _ _ _ _ (by simp [h1, h2]) (by simp [h3, h4]) (by simp [h5, h6]) (by simp [h7, h8])]
  rw [List.zipWith_append (by simp [h1, h2, h3, h4, h5, h6]), List.zipWith_append (by simp [h1, h2, h3, h4]), List.zipWith_append (by simp [h1, h2])]
  simp only [List.map_append, List.map_zipWith]

end Riptide.Binary
