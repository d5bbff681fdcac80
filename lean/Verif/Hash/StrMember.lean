import Verif.Hash.Member
/-! # Model of `ismember` on fixed-width strings, `src/HashLinear.cpp`

Characters are bytes (or code units of unicode arrays); a string is the list of all its characters,
padding included, so its length is the width of its array. -/
namespace Riptide.Hash
open Riptide.Work

/-- The characters that are hashed: up to the first NUL or the end, `HASH_STRING` and `HASH_UNICODE`,
`src/HashLinear.cpp:262-283`. -/
def hashedPart (s : List Nat) : List Nat := s.takeWhile (fun c => decide (c ≠ 0))

/-- The slot: any hash `H` of those characters (`fasthash64`, or a chain of `_mm_crc32_u32`), masked with
`HashSize - 1` in *both* modes, `src/HashLinear.cpp:3694-3696`, 3705-3707. -/
def strHash (H : List Nat → Nat) (size : Nat) (s : List Nat) : Nat := H (hashedPart s) &&& (size - 1)

/-- `STRING_MATCH2` / `UNICODE_MATCH2`, `src/HashLinear.cpp:316-376`: only one character after the end of
the shorter string is looked at.  Two strings that end together would read one character past both; the
callers never pass equal widths. -/
def match2 : List Nat → List Nat → Bool
  | [], [] => false
  | [], y :: _ => decide (y = 0)
  | x :: _, [] => decide (x = 0)
  | x :: xs, y :: ys => decide (x = y) && match2 xs ys

/-- The comparison used: `STRING_MATCH` (`src/HashLinear.cpp:301-313`) when the widths are the same,
`STRING_MATCH2` otherwise, `src/HashLinear.cpp:4267-4326`.  The widths of two arrays are the lengths of
their elements, so the test is made per pair here. -/
def strMatch (k x : List Nat) : Bool :=
  if k.length = x.length then decide (k = x) else match2 k x

/-- `IsMemberHashString32`, `src/HashLinear.cpp:4821-4841` (one thread). -/
def isMemberStr (H : List Nat → Nat) (size : Nat) (a b : List (List Nat)) :
    Option (List (Option (Bool × Int))) :=
  isMember (fun _ => true) (strHash H size) strMatch size a b none

/-- One element of the categorical lookups, `IsMemberStringCategorical`, `src/HashLinear.cpp:4044-4264`,
and `IsMemberCategorical`, 1917-1992: position + 1, or 0.  `t` is the type of the output (`U`). -/
def catOne {K : Type} (hash : K → Nat) (eq : K → K → Bool) (tbl : Slots K Int) (x : K) : Option Int :=
  match find tbl (fun y => eq y x) (hash x) with
  | .ok (some j) => some (j + 1)
  | .ok none => some 0
  | .error _ => none

/-- `IsMemberHashStringCategorical`, `src/HashLinear.cpp:4760-4818`: the positions, looked up in blocks,
and the `missed` flag (every block ors its own into it). -/
def isMemberStrCat (t : IT) (H : List Nat → Nat) (size : Nat) (a b : List (List Nat))
    (par : Option (List Nat)) : Option (List (Option Int) × Bool) :=
  match insertAll (fun _ => true) (strHash H size) strMatch (fun i => t.wrap i) 0 b (fresh _ Int size) with
  | .error _ => none
  | .ok tbl =>
    ((elemWork (fun i => (a[i]?).bind (catOne (strHash H size) strMatch tbl)) a.length par).bind
      (runWrites a.length)).map fun out =>
        (out, a.any fun x => decide (catOne (strHash H size) strMatch tbl x = some 0))

end Riptide.Hash
