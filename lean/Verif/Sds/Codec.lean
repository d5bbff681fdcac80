/-! # Compression and files as the code of `src/SDSFile.cpp` sees them

Bytes are numbers.  zstd itself is not modelled: a `Codec` is any pair of functions, and `Codec.Lawful` says what is asked of it. -/
namespace Riptide.Sds

/-- `CompressData`, `DecompressData`, `DecompressDataPartial` and `CompressGetBound`, `src/SDSFile.cpp:217-335`.  `comp` gets the room for
its result and may fail; `part` gets some bytes and how many are wanted.  The level is part of `comp`. -/
structure Codec where
  comp : Nat → List Nat → Option (List Nat)
  decomp : List Nat → Option (List Nat)
  part : List Nat → Nat → Option (List Nat)
  bound : Nat → Nat

/-- The bytes which are read beyond the bound for a partial read, `2 * 65536`, `src/SDSFile.cpp:1341`. -/
def slack : Nat := 2 * 65536

/-- What is asked of a codec.  zstd splits the data in blocks of at most 128 KiB, which is why the bound of the wanted bytes and `slack`
more are enough for a partial read. -/
structure Codec.Lawful (c : Codec) : Prop where
  bound_ge : ∀ n, n ≤ c.bound n
  room : ∀ {a : Nat} {l z : List Nat}, c.comp a l = some z → z.length ≤ a
  back : ∀ {a : Nat} {l z : List Nat}, c.comp a l = some z → c.decomp z = some l
  some_bytes : ∀ {a : Nat} {l z : List Nat}, c.comp a l = some z → 0 < z.length
  part_back : ∀ {a : Nat} {l z : List Nat} {n k : Nat}, c.comp a l = some z → n ≤ l.length → min z.length (c.bound n + slack) ≤ k →
    c.part (z.take k) n = some (l.take n)

/-! ### Files -/

/-- `SDSFileReadChunk`, `src/SDSFile.cpp:754-805`: reads which are too short fail; no bytes can be read
anywhere.  Reads are split above 2^31 bytes there, to the same
effect. -/
def readAt (f : List Nat) (pos len : Nat) : Option (List Nat) :=
  if len = 0 ∨ pos + len ≤ f.length then some ((f.drop pos).take len) else none

/-- `SDSFileWriteChunk`, `src/SDSFile.cpp:809-858`: `pwrite`; a gap behind the end of a file is filled with zeros. -/
def writeAt (f : List Nat) (pos : Nat) (l : List Nat) : List Nat :=
  if l = [] then f
  else (f.take pos ++ List.replicate (pos - f.length) 0) ++ l ++ f.drop (pos + l.length)

/-- The little-endian bytes of a number, as `int64_t` are stored in files. -/
def le : Nat → Nat → List Nat
  | 0, _ => []
  | k + 1, n => n % 256 :: le k (n / 256)

/-- The number with these bytes. -/
def unle : List Nat → Nat
  | [] => 0
  | b :: l => b + 256 * unle l

/-- The numbers in a header of `int64_t`. -/
def unle8s : Nat → List Nat → List Nat
  | 0, _ => []
  | k + 1, l => unle (l.take 8) :: unle8s k (l.drop 8)

theorem le_length : ∀ k n : Nat, (le k n).length = k
  | 0, _ => rfl
  | k + 1, n => by simp [le, le_length k]

theorem unle_le : ∀ k n : Nat, n < 256 ^ k → unle (le k n) = n
  | 0, n, h => by simp [le, unle]; simp at h; omega
  | k + 1, n, h => by
    have h1 : n / 256 < 256 ^ k := by
      rw [Nat.div_lt_iff_lt_mul (by decide)]; rw [Nat.pow_succ] at h; exact h
    simp only [le, unle, unle_le k _ h1]; omega

theorem unle8s_le : ∀ (l : List Nat), (∀ n ∈ l, n < 256 ^ 8) → unle8s l.length (l.flatMap (le 8)) = l
  | [], _ => rfl
  | n :: l, h => by
    have h1 : ((n :: l).flatMap (le 8)) = le 8 n ++ l.flatMap (le 8) := rfl
    rw [h1]
    show unle ((le 8 n ++ l.flatMap (le 8)).take 8) :: unle8s l.length ((le 8 n ++ l.flatMap (le 8)).drop 8) = _
    rw [List.take_left' (le_length 8 n), List.drop_left' (le_length 8 n),
      unle_le 8 n (h n (by simp)), unle8s_le l (fun m hm => h m (by simp [hm]))]

theorem le8s_length : ∀ l : List Nat, (l.flatMap (le 8)).length = 8 * l.length
  | [] => rfl
  | n :: l => by
    have h1 : ((n :: l).flatMap (le 8)) = le 8 n ++ l.flatMap (le 8) := rfl
    rw [h1, List.length_append, le_length, le8s_length l, List.length_cons]; omega

/-- A file holds these bytes at a place. -/
def HasAt (f : List Nat) (pos : Nat) (l : List Nat) : Prop := readAt f pos l.length = some l

theorem hasAt_iff {f : List Nat} {pos : Nat} {l : List Nat} :
    HasAt f pos l ↔ (l.length = 0 ∨ pos + l.length ≤ f.length) ∧ (f.drop pos).take l.length = l := by
  unfold HasAt readAt
  split
  · constructor
    · intro h; exact ⟨by assumption, Option.some.inj h⟩
    · intro h; rw [h.2]
  · constructor
    · nofun
    · intro h; exact absurd h.1 (by assumption)

theorem hasAt_append {f : List Nat} {pos : Nat} {a b : List Nat} :
    HasAt f pos (a ++ b) ↔ HasAt f pos a ∧ HasAt f (pos + a.length) b := by
  simp only [hasAt_iff, List.length_append]
  constructor
  · rintro ⟨h1, h2⟩
    have ha : (f.drop pos).take a.length = a := by
      have := congrArg (List.take a.length) h2
      rw [List.take_take, List.take_left] at this
      rw [show min a.length (a.length + b.length) = a.length by omega] at this
      exact this
    have hb : (f.drop (pos + a.length)).take b.length = b := by
      have := congrArg (List.drop a.length) h2
      rw [List.drop_take, List.drop_left, List.drop_drop, Nat.add_sub_cancel_left] at this
      exact this
    exact ⟨⟨by omega, ha⟩, by omega, hb⟩
  · rintro ⟨⟨h1, h2⟩, h3, h4⟩
    refine ⟨by omega, ?_⟩
    rw [List.take_add, h2, List.drop_drop, h4]

theorem hasAt_take {f : List Nat} {pos : Nat} {l : List Nat} (h : HasAt f pos l) {k : Nat} (hk : k ≤ l.length) :
    readAt f pos k = some (l.take k) := by
  have h1 := (List.take_append_drop k l).symm
  rw [h1] at h
  have h2 := (hasAt_append.mp h).1
  unfold HasAt at h2
  rwa [List.length_take, Nat.min_eq_left hk] at h2

end Riptide.Sds
