import Verif.Hash.MultiKeyLemmas
/-! # Membership of rows of several arrays (C121) -/
namespace Riptide.Hash
open Spec Riptide.Work

theorem index_of_longer {n m : Nat} : indexType (if m > n then m else n) = indexType (max n m) := by
  congr 1
  split <;> omega

/-- **C121**, as the code has it: whatever the hash, the hint and the schedule, every row is found at the first row with the same *bytes* (items of all arrays
behind each other), if the rows have the same number of bytes and the table has a slot to spare. -/
theorem members_by_bytes (H : List UInt8 → Nat) (A B : KeyArg) (hint nA nB : Nat) (hA0 : A.cols ≠ []) (hB0 : B.cols ≠ [])
    (hA : ∀ c ∈ A.cols, IsArray nA c) (hB : ∀ c ∈ B.cols, IsArray nB c) (hfA : NoFilter A) (hfB : NoFilter B) (hnA : 0 < nA) (hnB : 0 < nB)
    (hlong : max nA nB ≤ 2 ^ 63) (hw : (A.cols.map (·.width)).sum = (B.cols.map (·.width)).sum) {size : Nat}
    (hsize : allocSize .mask (hintOr hint nB) false = some size) (hroom : distinct (fun x y => decide (x = y)) (rowsOf B.cols nB) < size)
    {workers : Nat} {nt : Bool} {par : Option (List Nat)} (hs : ChunkSched workers nA nt par) :
    ∃ out : List (Bool × Int), multiKeyIsMember H A B hint par = some (.arrays (out.map some)) ∧ out.length = nA ∧
      ∀ (i : Nat) x r, (rowsOf A.cols nA)[i]? = some x → out[i]? = some r →
        IsAnswer (fun y => y.flatten = x.flatten) (rowsOf B.cols nB) (indexType (max nA nB)).inv r.1 r.2 := by
  obtain ⟨p, hp, hpr, hpw, hpk⟩ := prepared hA0 hA hfA
  obtain ⟨q, hq, hqr, hqw, hqk⟩ := prepared hB0 hB hfB
  have hlen : ∀ {arg : KeyArg} {n : Nat}, (∀ c ∈ arg.cols, IsArray n c) → ∀ x ∈ (rowsOf arg.cols n).map List.flatten,
      x.length = (arg.cols.map (·.width)).sum := by
    intro arg n hc x hx
    rw [List.mem_map] at hx
    obtain ⟨r, hr, rfl⟩ := hx
    obtain ⟨i, hi, rfl⟩ := mem_rowsOf hr
    rw [List.length_flatten, row_length hc hi]
  have hla : ((rowsOf A.cols nA).map List.flatten).length = nA := by simp [rowsOf]
  have hlb : ((rowsOf B.cols nB).map List.flatten).length = nB := by simp [rowsOf]
  obtain ⟨out, h1, h2, h3⟩ := isMemberMk_exact (indexType (max nA nB)) H (size := size) (a := (rowsOf A.cols nA).map List.flatten)
    (b := (rowsOf B.cols nB).map List.flatten) (w := (A.cols.map (·.width)).sum) (hlen hA) (fun x hx => by rw [hw]; exact hlen hB x hx)
    (by rw [distinct_rows hB]; exact hroom)
    (by
      intro i hi
      rw [hlb] at hi
      exact wrap_index hlong (by omega))
    (workers := workers) (nt := nt) (par := par) (by rw [hla]; exact hs)
  refine ⟨out, ?_, by rw [h2, hla], ?_⟩
  · unfold multiKeyIsMember
    rw [hp, hq]
    dsimp only
    rw [if_neg (by rw [hpr, hqr]; omega), if_neg (by rw [hpw, hqw]; simpa using hw), hpk, hqk, hqr, hpr, hsize]
    dsimp only
    rw [index_of_longer, h1]
  · intro i x r hx hr
    have := h3 i x.flatten r (by rw [List.getElem?_map, hx]; rfl) hr
    rcases this with ⟨e1, j, e2, ⟨y, hy, hyx⟩, hmin⟩ | ⟨e1, e2, e3⟩
    · refine .inl ⟨e1, j, e2, ?_, ?_⟩
      · rw [List.getElem?_map] at hy
        cases hz : (rowsOf B.cols nB)[j]? with
        | none => rw [hz] at hy; exact absurd hy (by simp)
        | some z =>
          rw [hz, Option.map_some] at hy
          injection hy with hy
          exact ⟨z, rfl, hy.trans hyx⟩
      · intro k z hk hz
        exact hmin k z.flatten hk (by rw [List.getElem?_map, hz]; rfl)
    · exact .inr ⟨e1, e2, fun z hz => e3 _ (List.mem_map.mpr ⟨z, hz, rfl⟩)⟩

/-- **C121**: a row is found at the first row that agrees in every array, if the arrays have the same widths one by one, no third key is taken for a filter,
there are rows on both sides, and the hint leaves a slot to spare.  What is missing: the cases without one of those (`split_differently`, `third_not_bool`,
`no_rows`, `small_hint`, `exactly_full`), and that the items agree as bytes, not as values (`compared_by_bits`). -/
theorem members_by_columns_partial (H : List UInt8 → Nat) (A B : KeyArg) (hint nA nB : Nat) (hA0 : A.cols ≠ [])
    (hA : ∀ c ∈ A.cols, IsArray nA c) (hB : ∀ c ∈ B.cols, IsArray nB c) (hfA : NoFilter A) (hfB : NoFilter B) (hnA : 0 < nA) (hnB : 0 < nB)
    (hlong : max nA nB ≤ 2 ^ 63) (hw : A.cols.map (·.width) = B.cols.map (·.width)) {size : Nat}
    (hsize : allocSize .mask (hintOr hint nB) false = some size) (hroom : distinct (fun x y => decide (x = y)) (rowsOf B.cols nB) < size)
    {workers : Nat} {nt : Bool} {par : Option (List Nat)} (hs : ChunkSched workers nA nt par) :
    ∃ out : List (Bool × Int), multiKeyIsMember H A B hint par = some (.arrays (out.map some)) ∧ out.length = nA ∧
      ∀ (i : Nat) x r, (rowsOf A.cols nA)[i]? = some x → out[i]? = some r →
        IsAnswer (fun y => y = x) (rowsOf B.cols nB) (indexType (max nA nB)).inv r.1 r.2 := by
  have hB0 : B.cols ≠ [] := by
    intro h
    rw [h] at hw
    exact hA0 (by simpa using hw)
  obtain ⟨out, h1, h2, h3⟩ := members_by_bytes H A B hint nA nB hA0 hB0 hA hB hfA hfB hnA hnB hlong (by rw [hw]) hsize hroom hs
  refine ⟨out, h1, h2, fun i x r hx hr => ?_⟩
  obtain ⟨k, hk, rfl⟩ := mem_rowsOf (List.mem_of_getElem? hx)
  have hsame : ∀ y ∈ rowsOf B.cols nB, y.flatten = (A.cols.map fun c => item c k).flatten → y = A.cols.map fun c => item c k := by
    intro y hy he
    obtain ⟨l, hl, rfl⟩ := mem_rowsOf hy
    exact flatten_inj (by rw [row_length hA hk, row_length hB hl, hw]) he
  rcases h3 i _ r hx hr with ⟨e1, j, e2, ⟨y, hy, hyx⟩, hmin⟩ | ⟨e1, e2, e3⟩
  · exact .inl ⟨e1, j, e2, ⟨y, hy, hsame y (List.mem_of_getElem? hy) hyx⟩, fun k' z hk' hz he => hmin k' z hk' hz (by rw [he])⟩
  · exact .inr ⟨e1, e2, fun z hz he => e3 z hz (by rw [he])⟩

/-- **C121**, without a hint there is always a slot to spare. -/
theorem unhinted_members_partial (H : List UInt8 → Nat) (A B : KeyArg) (nA nB : Nat) (hA0 : A.cols ≠ [])
    (hA : ∀ c ∈ A.cols, IsArray nA c) (hB : ∀ c ∈ B.cols, IsArray nB c) (hfA : NoFilter A) (hfB : NoFilter B) (hnA : 0 < nA) (hnB : 0 < nB)
    (hlA : nA ≤ 2 ^ 63) (hlB : nB ≤ 2 ^ 59) (hw : A.cols.map (·.width) = B.cols.map (·.width))
    {workers : Nat} {nt : Bool} {par : Option (List Nat)} (hs : ChunkSched workers nA nt par) :
    ∃ out : List (Bool × Int), multiKeyIsMember H A B 0 par = some (.arrays (out.map some)) ∧ out.length = nA ∧
      ∀ (i : Nat) x r, (rowsOf A.cols nA)[i]? = some x → out[i]? = some r →
        IsAnswer (fun y => y = x) (rowsOf B.cols nB) (indexType (max nA nB)).inv r.1 r.2 := by
  obtain ⟨s, k, h1, _, _, h2, _⟩ := mask_size nB false hlB
  refine members_by_columns_partial H A B 0 nA nB hA0 hA hB hfA hfB hnA hnB (by omega) hw (size := s) (by simpa [hintOr] using h1) ?_ hs
  have := distinct_le (fun x y : List (List UInt8) => decide (x = y)) (rowsOf B.cols nB)
  have hl : (rowsOf B.cols nB).length = nB := by simp [rowsOf]
  omega

/-! ## What is missing -/

/-- No rows on one side: an error that says that the lengths do not match. -/
theorem no_rows (H : List UInt8 → Nat) (A B : KeyArg) (hint nA nB : Nat) (hA0 : A.cols ≠ []) (hB0 : B.cols ≠ [])
    (hA : ∀ c ∈ A.cols, IsArray nA c) (hB : ∀ c ∈ B.cols, IsArray nB c) (hfA : NoFilter A) (hfB : NoFilter B) (h0 : nA = 0 ∨ nB = 0)
    (par : Option (List Nat)) : multiKeyIsMember H A B hint par = some .error := by
  obtain ⟨p, hp, hpr, hpw, hpk⟩ := prepared hA0 hA hfA
  obtain ⟨q, hq, hqr, hqw, hqk⟩ := prepared hB0 hB hfB
  unfold multiKeyIsMember
  rw [hp, hq]
  dsimp only
  rw [if_pos (by rw [hpr, hqr]; exact h0)]

/-- Rows of different numbers of bytes are refused. -/
theorem widths_differ (H : List UInt8 → Nat) (A B : KeyArg) (hint nA nB : Nat) (hA0 : A.cols ≠ []) (hB0 : B.cols ≠ [])
    (hA : ∀ c ∈ A.cols, IsArray nA c) (hB : ∀ c ∈ B.cols, IsArray nB c) (hfA : NoFilter A) (hfB : NoFilter B)
    (hw : (A.cols.map (·.width)).sum ≠ (B.cols.map (·.width)).sum) (par : Option (List Nat)) :
    multiKeyIsMember H A B hint par = some .error := by
  obtain ⟨p, hp, hpr, hpw, hpk⟩ := prepared hA0 hA hfA
  obtain ⟨q, hq, hqr, hqw, hqk⟩ := prepared hB0 hB hfB
  unfold multiKeyIsMember
  rw [hp, hq]
  dsimp only
  split
  · rfl
  · rw [if_pos (by rw [hpw, hqw]; exact hw)]

/-- Arrays of different lengths on one side are refused. -/
theorem lengths_differ (H : List UInt8 → Nat) (A B : KeyArg) (hint : Nat) (hA0 : A.cols ≠ []) (hB0 : B.cols ≠ [])
    (hB : ∃ n, (∀ c ∈ B.cols, IsArray n c) ∧ NoFilter B) (hd : ∃ c ∈ A.cols, ∃ d ∈ A.cols, c.rows ≠ d.rows) (par : Option (List Nat)) :
    multiKeyIsMember H A B hint par = some .error := by
  obtain ⟨n, hB, hfB⟩ := hB
  obtain ⟨q, hq, _⟩ := prepared hB0 hB hfB
  have hp : prepare A = some none := by
    unfold prepare
    generalize A.cols = cols at *
    cases cols with
    | nil => exact absurd rfl hA0
    | cons c cs =>
      dsimp only
      rw [if_neg]
      intro h
      rw [Bool.and_eq_true, List.all_eq_true] at h
      have hall : ∀ d ∈ c :: cs, d.rows = c.rows := by
        intro d hd'
        rcases List.mem_cons.mp hd' with rfl | hd'
        · rfl
        · simpa using h.1 d hd'
      obtain ⟨x, hx, y, hy, hne⟩ := hd
      exact hne ((hall x hx).trans (hall y hy).symm)
  unfold multiKeyIsMember
  rw [hp, hq]

/-- Three or more keys in a tuple: the third one is taken for a filter, and refused unless it is boolean. -/
theorem third_not_bool (H : List UInt8 → Nat) (cs : List KeyCol) (B : KeyArg) (hint : Nat) (c : KeyCol) (h3 : cs[2]? = some c) (hb : c.isBool = false)
    (hB0 : B.cols ≠ []) (hB : ∃ n, (∀ c ∈ B.cols, IsArray n c) ∧ NoFilter B) (par : Option (List Nat)) :
    multiKeyIsMember H (.tuple cs) B hint par = some .error := by
  obtain ⟨n, hB, hfB⟩ := hB
  obtain ⟨q, hq, _⟩ := prepared hB0 hB hfB
  have hp : prepare (.tuple cs) = some none := by
    unfold prepare
    cases cs with
    | nil => simp at h3
    | cons d ds =>
      show (if _ then _ else _) = _
      rw [if_neg]
      simp [thirdOk, h3, hb]
  unfold multiKeyIsMember
  rw [hp, hq]

/-- No array at all: the entry of the first is read. -/
theorem no_arrays (H : List UInt8 → Nat) (B : KeyArg) (hint : Nat) (par : Option (List Nat)) :
    multiKeyIsMember H (.tuple []) B hint par = none ∧ multiKeyIsMember H B (.list []) hint par = none := by
  constructor
  · rfl
  · unfold multiKeyIsMember
    cases prepare B <;> rfl

end Riptide.Hash
