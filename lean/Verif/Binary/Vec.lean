import Verif.Common.Num
/-! # Vector instructions used by the comparisons, `src/Compare.cpp`

A register is the list of its lanes, lowest address first; a lane is its bit pattern. -/
namespace Riptide.Binary

/-- The six comparisons, `MATH_OPERATION`, `src/CommonInc.h:213-219`. -/
inductive Cmp where
  | eq | ne | lt | gt | le | ge
  deriving DecidableEq, Repr

/-- A lane of a comparison result: all ones or all zeros (`_mm256_cmpeq_*`, `_mm256_cmpgt_*`). -/
def laneMask (n : Nat) (b : Bool) : BitVec n := if b then BitVec.allOnes n else 0

/-- `_mm256_cmpeq_epi8/16/32/64`. -/
def cmpeq {n : Nat} (x y : List (BitVec n)) : List (BitVec n) := List.zipWith (fun a b => laneMask n (a == b)) x y

/-- `_mm256_cmpgt_epi8/16/32/64`: signed comparison. -/
def cmpgt {n : Nat} (x y : List (BitVec n)) : List (BitVec n) :=
  List.zipWith (fun a b => laneMask n (decide (b.toInt < a.toInt))) x y

/-- `_mm256_movemask_ps`, `_mm256_movemask_pd`: bit `i` is the top bit of lane `i`. -/
def movemask {n : Nat} : List (BitVec n) → Nat
  | [] => 0
  | v :: r => (if v.msb then 1 else 0) + 2 * movemask r

/-- The bytes of `gBooleanLUT64[i]` (`k = 8`) and `gBooleanLUT32[i]` (`k = 4`),
`src/RipTide.cpp:1878-1896`. -/
def lut (k i : Nat) : List (BitVec 8) := (List.range k).map fun (j : Nat) => BitVec.ofNat 8 ((i >>> j) &&& 1)

/-- The bytes of `gBooleanLUT64Inverse[i]` and `gBooleanLUT32Inverse[i]`, `src/RipTide.cpp:1898-1906`:
every byte is xored with 1. -/
def lutInv (k i : Nat) : List (BitVec 8) := (lut k i).map (· ^^^ 1)

/-- `_mm256_and_si256`, lane by lane. -/
def vand {n : Nat} (x y : List (BitVec n)) : List (BitVec n) := List.zipWith (· &&& ·) x y
/-- `_mm256_or_si256`, lane by lane. -/
def vor {n : Nat} (x y : List (BitVec n)) : List (BitVec n) := List.zipWith (· ||| ·) x y
/-- `_mm256_xor_si256`, lane by lane. -/
def vxor {n : Nat} (x y : List (BitVec n)) : List (BitVec n) := List.zipWith (· ^^^ ·) x y

/-- `COMP32i_*` (`k = 8`, `src/Compare.cpp:152-182`) and `COMP64i_*` (`k = 4`, lines 184-216). -/
def comp32i {n : Nat} (k : Nat) (op : Cmp) (x y : List (BitVec n)) : List (BitVec 8) :=
  match op with
  | .eq => lut k (movemask (cmpeq x y) &&& (2 ^ k - 1))
  | .ne => lutInv k (movemask (cmpeq x y) &&& (2 ^ k - 1))
  | .gt => lut k (movemask (cmpgt x y) &&& (2 ^ k - 1))
  | .lt => lut k (movemask (cmpgt y x) &&& (2 ^ k - 1))
  | .ge => lutInv k (movemask (cmpgt y x) &&& (2 ^ k - 1))
  | .le => lutInv k (movemask (cmpgt x y) &&& (2 ^ k - 1))

/-- `COMP8i_*`, `src/Compare.cpp:218-249`, with `mask1` of ones. -/
def comp8i (op : Cmp) (x y : List (BitVec 8)) : List (BitVec 8) :=
  let ones := List.replicate 32 (1 : BitVec 8)
  match op with
  | .eq => vand (cmpeq x y) ones
  | .ne => vxor (vand (cmpeq x y) ones) ones
  | .gt => vand (cmpgt x y) ones
  | .lt => vand (cmpgt y x) ones
  | .ge => vxor (vand (cmpgt y x) ones) ones
  | .le => vxor (vand (cmpgt x y) ones) ones

/-- Signed saturation of a 16-bit lane to 8 bits, `_mm256_packs_epi16`. -/
def sat8 (v : BitVec 16) : BitVec 8 :=
  if v.toInt > 127 then 127 else if v.toInt < -128 then BitVec.ofInt 8 (-128) else v.truncate 8

/-- `_mm256_packs_epi16`: in each half of the register first the lanes of `x`, then those of `y`. -/
def packs16 (x y : List (BitVec 16)) : List (BitVec 8) :=
  (x.take 8).map sat8 ++ (y.take 8).map sat8 ++ (x.drop 8).map sat8 ++ (y.drop 8).map sat8

/-- The end of `COMP16i_*`, `src/Compare.cpp:256-258`: the upper half is inserted as lower half of a
second register, both are packed and the lower half of the result is taken. -/
def pack16 (m0 : List (BitVec 16)) : List (BitVec 8) := (packs16 m0 (m0.drop 8 ++ m0.drop 8)).take 16

/-- `COMP16i_*`, `src/Compare.cpp:251-300`, with `mask1` of ones. -/
def comp16i (op : Cmp) (x y : List (BitVec 16)) : List (BitVec 8) :=
  let ones := List.replicate 16 (1 : BitVec 16)
  match op with
  | .eq => pack16 (vand (cmpeq x y) ones)
  | .ne => pack16 (vxor (vand (cmpeq x y) ones) ones)
  | .gt => pack16 (vand (cmpgt x y) ones)
  | .lt => pack16 (vand (cmpgt y x) ones)
  | .ge => pack16 (vxor (vand (cmpgt y x) ones) ones)
  | .le => pack16 (vxor (vand (cmpgt x y) ones) ones)

/-- The bytes of a register of 32-bit lanes, lowest address first. -/
def bytes32 (x : List (BitVec 32)) : List (BitVec 8) :=
  x.flatMap fun v => [v.extractLsb' 0 8, v.extractLsb' 8 8, v.extractLsb' 16 8, v.extractLsb' 24 8]

/-- `_mm256_shuffle_epi8`: in each half, byte `k` is the byte named by the lower four bits of the
selector, or zero if the top bit of the selector is set. -/
def shuffle8 (x : List (BitVec 8)) (sel : List Nat) : List (BitVec 8) :=
  (List.range 32).map fun (k : Nat) =>
    let s := sel.getD k 0
    if 128 ≤ s then 0 else x.getD (k / 16 * 16 + s % 16) 0

/-- `_mm256_permutevar8x32_epi32`: lane `j` (four bytes) is the lane named by the index. -/
def permute32 (x : List (BitVec 8)) (idx : List Nat) : List (BitVec 8) :=
  (List.range 32).map fun (k : Nat) => x.getD (idx.getD (k / 4) 0 % 8 * 4 + k % 4) 0

/-- The arguments of `_mm256_set_epi8` come highest first: 12 times 0x80, then 12, 8, 4, 0, in both
halves: `g_shuffle1`, `src/Compare.cpp:69-72`. -/
def shuf1 : List Nat :=
  ([128, 128, 128, 128, 128, 128, 128, 128, 128, 128, 128, 128, 12, 8, 4, 0,
    128, 128, 128, 128, 128, 128, 128, 128, 128, 128, 128, 128, 12, 8, 4, 0] : List Nat).reverse
/-- `g_shuffle2`, `src/Compare.cpp:76-79`. -/
def shuf2 : List Nat :=
  ([128, 128, 128, 128, 128, 128, 128, 128, 12, 8, 4, 0, 128, 128, 128, 128,
    128, 128, 128, 128, 128, 128, 128, 128, 12, 8, 4, 0, 128, 128, 128, 128] : List Nat).reverse
/-- `g_shuffle3`, `src/Compare.cpp:81-84`. -/
def shuf3 : List Nat :=
  ([128, 128, 128, 128, 12, 8, 4, 0, 128, 128, 128, 128, 128, 128, 128, 128,
    128, 128, 128, 128, 12, 8, 4, 0, 128, 128, 128, 128, 128, 128, 128, 128] : List Nat).reverse
/-- `g_shuffle4`, `src/Compare.cpp:86-89`. -/
def shuf4 : List Nat :=
  ([12, 8, 4, 0, 128, 128, 128, 128, 128, 128, 128, 128, 128, 128, 128, 128,
    12, 8, 4, 0, 128, 128, 128, 128, 128, 128, 128, 128, 128, 128, 128, 128] : List Nat).reverse
/-- `g_permute`, `src/Compare.cpp:91`: `_mm256_set_epi32(7, 3, 6, 2, 5, 1, 4, 0)`, highest first. -/
def perm : List Nat := ([7, 3, 6, 2, 5, 1, 4, 0] : List Nat).reverse

/-- The shuffles, ors and the permutation of `COMP32i_EQS`, `src/Compare.cpp:99-107`, on the bytes of
the four comparison results. -/
def gather32 (c1 c2 c3 c4 : List (BitVec 8)) : List (BitVec 8) :=
  let m4 := vor (vor (shuffle8 c1 shuf1) (shuffle8 c2 shuf2)) (vor (shuffle8 c3 shuf3) (shuffle8 c4 shuf4))
  vand (permute32 m4 perm) (List.replicate 32 1)

/-- `COMP32i_EQS`, `src/Compare.cpp:95-108`: 32 comparisons of 32-bit integers, 32 bytes. -/
def comp32iEqs (x1 y1 x2 y2 x3 y3 x4 y4 : List (BitVec 32)) : List (BitVec 8) :=
  gather32 (bytes32 (cmpeq x1 y1)) (bytes32 (cmpeq x2 y2)) (bytes32 (cmpeq x3 y3)) (bytes32 (cmpeq x4 y4))

/-- `_mm256_cmp_ps`, `_mm256_cmp_pd` with the predicates `_CMP_EQ_OS`, `_CMP_NEQ_US`, `_CMP_LT_OS`,
`_CMP_GT_OS`, `_CMP_LE_OS`, `_CMP_GE_OS` chosen at `src/Compare.cpp:976-1010`: the ordered predicates
are false and the unordered one is true if an operand is not a number. -/
def fpred (f : FT) (op : Cmp) (a b : Nat) : Bool :=
  let un := f.isNan a || f.isNan b
  match op with
  | .eq => !un && decide (f.key a = f.key b)
  | .ne => un || decide (f.key a ≠ f.key b)
  | .lt => !un && decide (f.key a < f.key b)
  | .gt => !un && decide (f.key b < f.key a)
  | .le => !un && decide (f.key a ≤ f.key b)
  | .ge => !un && decide (f.key b ≤ f.key a)

/-- The vector part of `CompareFloat` (`k = 8`, `src/Compare.cpp:469-470`) and `CompareDouble` (`k = 4`,
lines 537-538). -/
def compF {n : Nat} (f : FT) (k : Nat) (op : Cmp) (x y : List (BitVec n)) : List (BitVec 8) :=
  lut k (movemask (List.zipWith (fun a b => laneMask n (fpred f op a.toNat b.toNat)) x y) &&& (2 ^ k - 1))

end Riptide.Binary
