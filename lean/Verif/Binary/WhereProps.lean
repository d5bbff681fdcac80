import Verif.Binary.Where
/-! What holds of `Where` and of the addition of strings. -/
namespace Riptide.Binary
open Riptide.Work

/-- What the row `i` of a choice is: all bytes of the item of an array, or the scalar (a text filled up with zeros). -/
def choiceRow (m : Mem) (size : Nat) (str : Bool) : Choice → Nat → List (BitVec 8)
  | .arr p item, i => readMem m (p + i * item) item
  | .scal s, _ => if str then s ++ List.replicate (size - s.length) 0 else s.take size

/-- What `np.where` gives: the condition's items are `sc` bytes apart. -/
def whereSpec (m : Mem) (n size pc sc : Nat) (str : Bool) (c1 c2 : Choice) : List (List (BitVec 8)) :=
  (List.range n).map fun i => if m (pc + i * sc) ≠ 0 then choiceRow m size str c1 i else choiceRow m size str c2 i

/-- A choice which has the output's item size. -/
def Fits (size : Nat) (str : Bool) : Choice → Prop
  | .arr _ item => item = size
  | .scal s => if str then s.length ≤ size else size ≤ s.length

/-- The addresses of two arrays are a multiple of the item size apart, if this is 1, 2, 4 or 8. -/
def Aligned (size : Nat) : Choice → Choice → Prop
  | .arr p1 _, .arr p2 _ => size ∈ [1, 2, 4, 8] → ((p2 : Int) - p1) % size = 0
  | _, _ => True

theorem readRow_ok (m : Mem) (n size p i : Nat) (hi : i < n) : readRow m n size p size i = some (readMem m (p + i * size) size) :=
  if_pos (Nat.mul_le_mul_right _ hi)

theorem deltaRow_ok (m : Mem) (n size p1 p2 i : Nat) (c : Bool) (hi : i < n) (h : ((p2 : Int) - p1) % size = 0) :
    deltaRow m n size p1 size p2 size c i = some (if c then readMem m (p1 + i * size) size else readMem m (p2 + i * size) size) := by
  unfold deltaRow
  rw [if_pos h]
  simp only [ite_self]
  rw [if_pos (Nat.mul_le_mul_right _ hi)]
  cases c with
  | true =>
    have : ((p1 : Int) + ((i : Int) + ((p2 : Int) - p1) / size * 0) * size).toNat = p1 + i * size := by
      rw [Int.mul_zero, Int.add_zero]
      exact Int.toNat_natCast (p1 + i * size)
    simp only [if_true, this]
  | false =>
    have hd : ((p2 : Int) - p1) / size * size = (p2 : Int) - p1 := Int.ediv_mul_cancel (Int.dvd_of_emod_eq_zero h)
    have : ((p1 : Int) + ((i : Int) + ((p2 : Int) - p1) / size * 1) * size).toNat = p2 + i * size := by
      rw [Int.mul_one, Int.add_mul, hd]
      have : (p1 : Int) + ((i : Int) * size + ((p2 : Int) - p1)) = ((p2 + i * size : Nat) : Int) := by push_cast; omega
      rw [this]; exact Int.toNat_natCast _
    simp only [Bool.false_eq_true, if_false, this]

/-- The choice which the loops use has the rows of the choice given. -/
theorem padChoice_ok (m : Mem) (size : Nat) (str : Bool) (c : Choice) (h : Fits size str c) :
    ∃ c', padChoice str size c = some c' ∧ (match c, c' with
      | .arr p item, .arr p' item' => p' = p ∧ item' = item
      | .scal _, .scal s' => ∀ i, s' = choiceRow m size str c i
      | _, _ => False) := by
  cases c with
  | arr p item => exact ⟨.arr p item, rfl, rfl, rfl⟩
  | scal s =>
    unfold Fits at h
    cases str with
    | true =>
      have h : s.length ≤ size := by simpa using h
      exact ⟨.scal (s ++ List.replicate (size - s.length) 0), by simp [padChoice, padScalar, h], fun _ => by simp [choiceRow]⟩
    | false =>
      have h : size ≤ s.length := by simpa using h
      exact ⟨.scal (s.take size), by simp [padChoice, padScalar, h], fun _ => by simp [choiceRow]⟩

/-- C95: every row is the item of the first choice where the condition is true and of the second where it is false, whatever the
item size, whichever of the choices are scalars and however the rows are divided among threads; if the array's items have the
size of the output's, a text is not longer than that, the arrays are a multiple of it apart and the condition is not strided. -/
theorem where_partial (m : Mem) (n size pc : Nat) (str : Bool) (c1 c2 : Choice) (h1 : Fits size str c1) (h2 : Fits size str c2)
    (hal : Aligned size c1 c2) {workers : Nat} {nt : Bool} {par : Option (List Nat)} (hs : ChunkSched workers n nt par) :
    (whereCall m n size pc str c1 c2 par).bind (runWrites n) = some ((whereSpec m n size pc 1 str c1 c2).map some) := by
  obtain ⟨a, ha, ha'⟩ := padChoice_ok m size str c1 h1
  obtain ⟨b, hb, hb'⟩ := padChoice_ok m size str c2 h2
  have hcall : whereCall m n size pc str c1 c2 par = elemWork (whereRow m n size pc a b) n par := by
    unfold whereCall; rw [ha, hb]; rfl
  rw [hcall]
  unfold whereSpec
  refine elemWork_exact (whereRow m n size pc a b) _ ?_ hs
  intro i hi
  rw [Nat.mul_one]
  -- both loops give the row
  have hstr : ∀ c : Bool, whereString m n size c i a b = some (if c then choiceRow m size str c1 i else choiceRow m size str c2 i) := by
    intro c
    cases c1 with
    | arr p1 i1 =>
      cases a with
      | scal s => exact ha'.elim
      | arr p1' i1' =>
        obtain ⟨rfl, rfl⟩ := ha'
        have h1 : i1' = size := h1
        subst h1
        cases c2 with
        | arr p2 i2 =>
          cases b with
          | scal s => exact hb'.elim
          | arr p2' i2' =>
            obtain ⟨rfl, rfl⟩ := hb'
            have h2 : i2' = i1' := h2
            subst h2
            cases c <;> simp [whereString, choiceRow, readRow_ok, hi]
        | scal s =>
          cases b with
          | arr p2 i2 => exact hb'.elim
          | scal s' =>
            have hb' := hb' i
            cases c <;> simp [whereString, readRow_ok, hi, hb'] <;> rfl
    | scal s1 =>
      cases a with
      | arr p1 i1 => exact ha'.elim
      | scal s1' =>
        have ha' := ha' i
        cases c2 with
        | arr p2 i2 =>
          cases b with
          | scal s => exact hb'.elim
          | arr p2' i2' =>
            obtain ⟨rfl, rfl⟩ := hb'
            have h2 : i2' = size := h2
            subst h2
            cases c <;> simp [whereString, readRow_ok, hi, ha'] <;> rfl
        | scal s =>
          cases b with
          | arr p2 i2 => exact hb'.elim
          | scal s' =>
            have hb' := hb' i
            cases c <;> simp [whereString, ha', hb']
  have htyped : size ∈ [1, 2, 4, 8] → ∀ c : Bool, whereTyped m n size c i a b = whereString m n size c i a b := by
    intro hm c
    cases a with
    | scal s => cases b <;> rfl
    | arr p1 i1 =>
      cases b with
      | scal s => rfl
      | arr p2 i2 =>
        cases c1 with
        | scal s => exact ha'.elim
        | arr q1 j1 =>
          cases c2 with
          | scal s => exact hb'.elim
          | arr q2 j2 =>
            obtain ⟨rfl, rfl⟩ := ha'
            obtain ⟨rfl, rfl⟩ := hb'
            have e1 : i1 = size := h1
            have e2 : i2 = size := h2
            subst e1
            subst e2
            show deltaRow _ _ _ _ _ _ _ _ _ = (if c then _ else _)
            rw [deltaRow_ok m n i2 p1 p2 i c hi (hal hm)]
            cases c <;> simp [readRow_ok, hi]
  have hrow : whereRow m n size pc a b i = whereString m n size (decide (m (pc + i) ≠ 0)) i a b := by
    unfold whereRow
    split
    · exact htyped (by simp) _
    · exact htyped (by simp) _
    · exact htyped (by simp) _
    · exact htyped (by simp) _
    · rfl
  rw [hrow, hstr]
  simp

/-- A memory for the examples: the byte at `a` is `a`. -/
def demoMem : Mem := fun a => BitVec.ofNat 8 a

/-- Three rows of 4 bytes, a condition true, false, true. -/
example : (whereCall (fun a => if a = 11 then 0 else demoMem a) 3 4 10 false (.arr 100 4) (.arr 40 4) none).bind (runWrites 3)
    = some [some [100, 101, 102, 103], some [44, 45, 46, 47], some [108, 109, 110, 111]] := by
  decide

/-- A text which is longer than the output's items is written past the end of the memory for it. -/
theorem where_text_undefined (m : Mem) (n size pc : Nat) (s : List (BitVec 8)) (c2 : Choice) (par : Option (List Nat))
    (h : size < s.length) : whereCall m n size pc true (.scal s) c2 par = none := by
  have : padChoice true size (.scal s) = none := by
    unfold padChoice padScalar
    simp only [if_true]
    rw [if_neg (by omega)]
    rfl
  unfold whereCall
  rw [this]
  rfl

/-- Arrays of strings of 4 bytes which are not a multiple of 4 apart are compared by an undefined subtraction. -/
theorem where_delta_undefined :
    whereCall demoMem 2 4 0 true (.arr 100 4) (.arr 201 4) none = none ∧
    (whereCall demoMem 2 5 0 true (.arr 100 5) (.arr 201 5) none).isSome = true := by
  decide

/-- The strides of the condition are not looked at: with every second item of a mask as the condition, the mask itself is read. -/
theorem where_mask_wrong :
    let m : Mem := fun a => if a = 10 ∨ a = 12 then 1 else if a < 20 then 0 else demoMem a
    (whereCall m 2 1 10 false (.arr 100 1) (.arr 40 1) none).bind (runWrites 2) = some [some [100], some [41]] ∧
    whereSpec m 2 1 10 2 false (.arr 100 1) (.arr 40 1) = [[100], [101]] := by
  decide

/-- An array whose items do not have the output's size is read with that size: too far for a smaller one, at the wrong places for
a larger one. -/
theorem where_item_wrong :
    whereCall (fun a => if a < 20 then 1 else demoMem a) 2 8 10 false (.arr 100 4) (.arr 40 8) none = none ∧
    (whereCall (fun a => if a < 20 then 1 else demoMem a) 2 1 10 false (.arr 100 2) (.arr 40 1) none).bind (runWrites 2)
      = some [some [100], some [101]] := by
  decide

/-! ## Addition of strings -/

/-- A text of a fixed number of characters: no zero inside, then zeros. -/
def IsText {w : Nat} (x t : List (BitVec w)) : Prop := (∀ c ∈ t, c ≠ 0) ∧ ∃ k, x = t ++ List.replicate k 0

theorem copyText_text {w : Nat} : ∀ (t : List (BitVec w)) (k : Nat), (∀ c ∈ t, c ≠ 0) → copyText (t ++ List.replicate k 0) = t
  | [], 0, _ => rfl
  | [], k + 1, _ => by rw [List.nil_append, List.replicate_succ, copyText, if_pos rfl]
  | c :: r, k, h => by
    rw [List.cons_append, copyText, if_neg (h c (by simp)), copyText_text r k (fun d hd => h d (List.mem_cons_of_mem _ hd))]

/-- The sum of two texts is the text of both, whatever the size of a character. -/
theorem concatRow_text {w : Nat} (x y s t : List (BitVec w)) (hx : IsText x s) (hy : IsText y t) :
    IsText (concatRow x y) (s ++ t) ∧ (concatRow x y).length = x.length + y.length := by
  obtain ⟨hs, k, rfl⟩ := hx
  obtain ⟨ht, l, rfl⟩ := hy
  unfold concatRow
  rw [copyText_text s k hs, copyText_text t l ht]
  refine ⟨⟨?_, _, rfl⟩, ?_⟩
  · intro c hc
    rcases List.mem_append.mp hc with hc | hc
    · exact hs c hc
    · exact ht c hc
  · simp only [List.length_append, List.length_replicate]
    omega

/-- Without the condition: the sum has the size of both, and ends with zeros after the first parts. -/
theorem concatRow_length {w : Nat} (x y : List (BitVec w)) : (concatRow x y).length = x.length + y.length := by
  have h : ∀ l : List (BitVec w), (copyText l).length ≤ l.length := by
    intro l
    induction l with
    | nil => simp [copyText]
    | cons c r ih => rw [copyText]; split <;> simp <;> omega
  unfold concatRow
  have := h x
  have := h y
  simp only [List.length_append, List.length_replicate]
  omega

/-- The items of an array of `k` characters each. -/
def Rows {w : Nat} (a : List (BitVec w)) (k : Nat) (rows : List (List (BitVec w))) : Prop :=
  a = rows.flatten ∧ ∀ r ∈ rows, r.length = k

theorem strRow_rows {w : Nat} (a : List (BitVec w)) (k : Nat) (rows : List (List (BitVec w))) (h : Rows a k rows) (i : Nat) (hi : i < rows.length) :
    strRow a k i = some rows[i] := by
  obtain ⟨rfl, hk⟩ := h
  have key : ∀ (rows : List (List (BitVec w))), (∀ r ∈ rows, r.length = k) → ∀ i (hi : i < rows.length),
      k * (i + 1) ≤ rows.flatten.length ∧ (rows.flatten.drop (k * i)).take k = rows[i] := by
    intro rows
    induction rows with
    | nil => intro _ i hi; simp at hi
    | cons r rows ih =>
      intro hk i hi
      have hr := hk r (by simp)
      cases i with
      | zero =>
        refine ⟨by simp [hr], ?_⟩
        simp [← hr]
      | succ i =>
        obtain ⟨e1, e2⟩ := ih (fun s hs => hk s (List.mem_cons_of_mem _ hs)) i (by simpa using hi)
        constructor
        · rw [List.flatten_cons, List.length_append, hr, Nat.mul_add k (i + 1) 1]; omega
        · rw [List.flatten_cons, List.drop_append, List.drop_eq_nil_of_le (by rw [hr, Nat.mul_add]; omega), List.nil_append, hr,
            Nat.mul_add k i 1, Nat.mul_one, Nat.add_sub_cancel]
          simpa using e2
  obtain ⟨e1, e2⟩ := key rows hk i hi
  unfold strRow
  rw [if_pos e1, e2]

/-- What `numpy.char.add` gives for texts without zeros inside: row by row, a scalar with every row. -/
def sumRow {w : Nat} (mode : CMode) (xs ys : List (List (BitVec w))) (i : Nat) : List (BitVec w) × List (BitVec w) :=
  match mode with
  | .none => (xs.getD i [], ys.getD i [])
  | .first => (xs.getD 0 [], ys.getD i [])
  | .second => (xs.getD i [], ys.getD 0 [])

/-- C96: every row of the output is the text of the first row followed by that of the second, then zeros, of the size of both
together; for byte strings, unicode and both kinds of scalars, if no text has a zero inside. -/
theorem concat_partial {w : Nat} (mode : CMode) (a b : List (BitVec w)) (k1 k2 n : Nat) (xs ys tx ty : List (List (BitVec w)))
    (ha : Rows a k1 xs) (hb : Rows b k2 ys)
    (hn1 : if mode = .first then xs.length = 1 else xs.length = n) (hn2 : if mode = .second then ys.length = 1 else ys.length = n)
    (htx : tx.length = xs.length ∧ ∀ i (h : i < xs.length), IsText xs[i] (tx.getD i []))
    (hty : ty.length = ys.length ∧ ∀ i (h : i < ys.length), IsText ys[i] (ty.getD i [])) :
    ∃ out, concat mode a b k1 k2 n = some out ∧ out.length = n ∧ ∀ i (h : i < out.length),
      IsText out[i] ((sumRow mode tx ty i).1 ++ (sumRow mode tx ty i).2) ∧ out[i].length = k1 + k2 := by
  let i1 : Nat → Nat := firstRow mode
  let i2 : Nat → Nat := secondRow mode
  have h1 : ∀ i, i < n → i1 i < xs.length := by
    intro i hi
    cases mode with
    | first => have : xs.length = 1 := by simpa using hn1
               show 0 < _; omega
    | none => have : xs.length = n := by simpa using hn1
              show i < _; omega
    | second => have : xs.length = n := by simpa using hn1
                show i < _; omega
  have h2 : ∀ i, i < n → i2 i < ys.length := by
    intro i hi
    cases mode with
    | second => have : ys.length = 1 := by simpa using hn2
                show 0 < _; omega
    | none => have : ys.length = n := by simpa using hn2
              show i < _; omega
    | first => have : ys.length = n := by simpa using hn2
               show i < _; omega
  have hrow : ∀ i ∈ List.range n, concatAt mode a b k1 k2 i = some (concatRow (xs.getD (i1 i) []) (ys.getD (i2 i) [])) := by
    intro i hi
    have hi := List.mem_range.mp hi
    unfold concatAt
    rw [strRow_rows a k1 xs ha (i1 i) (h1 i hi), strRow_rows b k2 ys hb (i2 i) (h2 i hi)]
    simp [h1 i hi, h2 i hi]
  refine ⟨(List.range n).map fun i => concatRow (xs.getD (i1 i) []) (ys.getD (i2 i) []), ?_, by simp, ?_⟩
  · unfold concat
    exact mapM_some _ _ _ hrow
  · intro i hi
    have hi : i < n := by simpa using hi
    simp only [List.getElem_map, List.getElem_range]
    have e1 := htx.2 (i1 i) (h1 i hi)
    have e2 := hty.2 (i2 i) (h2 i hi)
    have g1 : xs.getD (i1 i) [] = xs[i1 i]'(h1 i hi) := by simp [h1 i hi]
    have g2 : ys.getD (i2 i) [] = ys[i2 i]'(h2 i hi) := by simp [h2 i hi]
    rw [g1, g2]
    obtain ⟨f1, f2⟩ := concatRow_text _ _ _ _ e1 e2
    refine ⟨?_, ?_⟩
    · have : ((sumRow mode tx ty i).1 ++ (sumRow mode tx ty i).2) = tx.getD (i1 i) [] ++ ty.getD (i2 i) [] := by
        cases mode <;> rfl
      rw [this]; exact f1
    · rw [f2, ha.2 _ (List.getElem_mem _), hb.2 _ (List.getElem_mem _)]

/-- Two items `ab` and `c` of 3 and the scalar `xy`. -/
example : concat (w := 8) .second [0x61, 0x62, 0, 0x63, 0, 0] [0x78, 0x79] 3 2 2
    = some [[0x61, 0x62, 0x78, 0x79, 0], [0x63, 0x78, 0x79, 0, 0]] := by decide

/-- A zero inside of a text ends it: numpy keeps what follows. -/
theorem concat_zero_wrong : concat (w := 8) .none [0x61, 0, 0x62] [0x63] 3 1 1 = some [[0x61, 0x63, 0, 0]] := by decide

/-- The type of the scalar is not compared with that of the array (an operation in place skips the check): `ab` as a unicode scalar
adds only its first letter to byte strings, and bytes which are fewer than 4 add nothing to unicode. -/
theorem concat_mixed_wrong :
    concat (w := 8) .second [0x78] (ucs4 [0x61, 0x62]) 1 8 1 = some [[0x78, 0x61, 0, 0, 0, 0, 0, 0, 0]] ∧
    concat (w := 32) .second [0x78] [] 1 (3 / 4) 1 = some [[0x78]] := by decide

end Riptide.Binary
