/-! # Model of the string comparisons of `src/Sort.cpp` and `src/Bins.cpp` -/
namespace Riptide.Str

/-- `COMPARE_LT`, `src/Sort.cpp:85-94`. -/
def compareLt (ascending : Bool) (x y : Nat) : Bool := if ascending then decide (x < y) else decide (x > y)

/-- `STRING_LT<Ascending>(s1, s2, len)`, `src/Sort.cpp:96-111`, on two strings of the same width;
`UNICODE_LT`, lines 116-133, is the same on the `len / 4` code points. -/
def sortLt (ascending : Bool) : List Nat → List Nat → Bool
  | x :: xs, y :: ys => if x ≠ y then compareLt ascending x y else sortLt ascending xs ys
  | _, _ => false

/-- Outcome of the `for` loop which the four functions of `src/Bins.cpp:977-1157` share: the first
pair of different bytes, or which string ran out first, with the byte of the other string at that
position. -/
inductive Scan
  | differ (x y : Nat)
  | same
  | firstEnds (c2 : Nat)
  | secondEnds (c1 : Nat)

/-- The loops over the shorter width, `src/Bins.cpp:982-1018`. -/
def scan : List Nat → List Nat → Scan
  | [], [] => .same
  | [], y :: _ => .firstEnds y
  | x :: _, [] => .secondEnds x
  | x :: xs, y :: ys => if x ≠ y then .differ x y else scan xs ys

/-- `STRING_LTEQ`, `src/Bins.cpp:977-1022`. -/
def binLe (s1 s2 : List Nat) : Bool :=
  match scan s1 s2 with
  | .differ x y => decide (x < y)
  | .same => true
  | .firstEnds c => if c = 0 then true else true
  | .secondEnds c => if c = 0 then true else false

/-- `STRING_LT`, `src/Bins.cpp:1024-1067`. -/
def binLt (s1 s2 : List Nat) : Bool :=
  match scan s1 s2 with
  | .differ x y => decide (x < y)
  | .same => false
  | .firstEnds c => if c = 0 then false else true
  | .secondEnds c => if c = 0 then false else false

/-- `STRING_GTEQ`, `src/Bins.cpp:1069-1112`. -/
def binGe (s1 s2 : List Nat) : Bool :=
  match scan s1 s2 with
  | .differ x y => decide (x > y)
  | .same => true
  | .firstEnds c => if c = 0 then true else false
  | .secondEnds c => if c = 0 then true else true

/-- `STRING_GT`, `src/Bins.cpp:1114-1157`. -/
def binGt (s1 s2 : List Nat) : Bool :=
  match scan s1 s2 with
  | .differ x y => decide (x > y)
  | .same => false
  | .firstEnds c => if c = 0 then false else false
  | .secondEnds c => if c = 0 then false else true

/-- Little-endian value of some bytes: `*(uintN_t *)c`. -/
def le : List Nat → Nat
  | [] => 0
  | b :: bs => b + 256 * le bs

/-- The comparisons made for at most 8 bytes, `src/Sort.cpp:141-220`, 224-318: widths of the loads, and
whether the comparison looks at `Ascending` (the trailing single byte of widths 3, 5 and 7 does not,
nor does a single byte left over from a longer value). -/
def tailWords (first : Bool) : Nat → List (Nat × Bool)
  | 1 => [(1, first)]
  | 2 => [(2, true)]
  | 3 => [(2, true), (1, false)]
  | 4 => [(4, true)]
  | 5 => [(4, true), (1, false)]
  | 6 => [(4, true), (2, true)]
  | 7 => [(4, true), (2, true), (1, false)]
  | 8 => [(8, true)]
  | _ => []

/-- All the comparisons of `VOID_LT` for a width, `src/Sort.cpp:141-318`. -/
def wordsFrom (first : Bool) (len : Nat) : List (Nat × Bool) :=
  if _h : len > 8 then (8, true) :: wordsFrom false (len - 8) else tailWords first len
termination_by len

/-- Comparing word by word. -/
def wordLt (ascending : Bool) : List (Nat × Bool) → List Nat → List Nat → Bool
  | [], _, _ => false
  | (w, dir) :: ws, s1, s2 =>
    if le (s1.take w) ≠ le (s2.take w) then
      compareLt (if dir then ascending else true) (le (s1.take w)) (le (s2.take w))
    else wordLt ascending ws (s1.drop w) (s2.drop w)

/-- `VOID_LT<Ascending>`, `src/Sort.cpp:135-322`. -/
def voidLt (ascending : Bool) (s1 s2 : List Nat) : Bool :=
  wordLt ascending (wordsFrom true s1.length) s1 s2

end Riptide.Str
