import Verif.Binary.TextsSpec
/-! # What is proved of the addition of texts -/
namespace Riptide.Binary.Texts
open Spec

/-- Copying a text that lies in the memory gives what is before the first zero. -/
theorem copyText_text {mem : List Nat} {n p : Nat} (h : p + n ≤ mem.length) : ∃ t, copyText mem n p = some t ∧ IsText ((mem.drop p).take n) t := by
  induction n generalizing p with
  | zero => exact ⟨[], rfl, by simp, .inl (by simp)⟩
  | succ n ih =>
    have hp : p < mem.length := by omega
    have hd : mem.drop p = mem[p] :: mem.drop (p + 1) := List.drop_eq_getElem_cons hp
    unfold copyText
    rw [List.getElem?_eq_getElem hp]
    simp only
    by_cases hc : mem[p] = 0
    · rw [if_pos hc]
      exact ⟨[], rfl, by simp, .inr ⟨(mem.drop (p + 1)).take n, by rw [hd, hc]; simp⟩⟩
    · rw [if_neg hc]
      obtain ⟨t, ht, h0, hs⟩ := ih (p := p + 1) (by omega)
      refine ⟨mem[p] :: t, by rw [ht]; rfl, by simp [h0, Ne.symm hc], ?_⟩
      rw [hd, List.take_succ_cons]
      rcases hs with hs | ⟨r, hs⟩
      · exact .inl (by rw [hs])
      · exact .inr ⟨r, by rw [hs]; rfl⟩

/-- Copying reads outside of the memory only if the memory ends before the item and no zero comes. -/
theorem copyText_undefined {mem : List Nat} {n p : Nat} (hp : p ≤ mem.length) : copyText mem n p = none ↔ mem.length < p + n ∧ 0 ∉ mem.drop p := by
  induction n generalizing p with
  | zero => simp [copyText]; omega
  | succ n ih =>
    unfold copyText
    by_cases h : p < mem.length
    · have hd : mem.drop p = mem[p] :: mem.drop (p + 1) := List.drop_eq_getElem_cons h
      rw [List.getElem?_eq_getElem h, hd]
      simp only
      by_cases hc : mem[p] = 0
      · simp [hc]
      · rw [if_neg hc, Option.map_eq_none_iff, ih (by omega)]
        simp only [List.mem_cons, not_or, Ne.symm hc, not_false_eq_true, true_and]
        have e : p + 1 + n = p + (n + 1) := by omega
        rw [e]
    · have e : mem.length = p := by omega
      rw [List.getElem?_eq_none (by omega)]
      simp [← e]

/-- A text is not longer than its item. -/
theorem text_length_le {l t : List Nat} (h : IsText l t) : t.length ≤ l.length := by
  rcases h.2 with rfl | ⟨r, rfl⟩
  · exact Nat.le_refl _
  · simp

/-- **One item of the result is one text after the other, then zeros up to its size.** -/
theorem item_text {m1 m2 : List Nat} {w1 w2 p1 p2 : Nat} (h1 : p1 + w1 ≤ m1.length) (h2 : p2 + w2 ≤ m2.length) :
    ∃ a b r, IsText ((m1.drop p1).take w1) a ∧ IsText ((m2.drop p2).take w2) b ∧ item m1 m2 w1 w2 p1 p2 = some r ∧ r.length = w1 + w2 ∧ r = a ++ b ++ List.replicate (w1 + w2 - (a ++ b).length) 0 := by
  obtain ⟨a, ha, ta⟩ := copyText_text h1
  obtain ⟨b, hb, tb⟩ := copyText_text h2
  have la := text_length_le ta
  have lb := text_length_le tb
  simp only [List.length_take, List.length_drop] at la lb
  refine ⟨a, b, _, ta, tb, by unfold item; rw [ha, hb], ?_, by simp⟩
  simp
  omega

/-- The loop gives so many items, each as the single one. -/
theorem concat_items {mode : Mode} {m1 m2 : List Nat} {w1 w2 n i : Nat} (h : ∀ k < n, (item m1 m2 w1 w2 (start (mode == .first) w1 (i + k)) (start (mode == .second) w2 (i + k))).isSome) :
    ∃ l, concat mode m1 m2 w1 w2 n i = some l ∧ l.length = n ∧ ∀ k < n, l[k]? = item m1 m2 w1 w2 (start (mode == .first) w1 (i + k)) (start (mode == .second) w2 (i + k)) := by
  induction n generalizing i with
  | zero => exact ⟨[], rfl, rfl, fun k hk => by omega⟩
  | succ n ih =>
    obtain ⟨l, hl, hn, hk⟩ := ih (i := i + 1) (fun k hk => by
      have := h (k + 1) (by omega)
      have e : i + 1 + k = i + (k + 1) := by omega
      rw [e]
      exact this)
    obtain ⟨r, hr⟩ := Option.isSome_iff_exists.1 (h 0 (by omega))
    simp only [Nat.add_zero] at hr
    refine ⟨r :: l, by unfold concat; rw [hr, hl], by simp [hn], ?_⟩
    intro k hkn
    cases k with
    | zero => simp [hr]
    | succ k =>
      rw [List.getElem?_cons_succ, hk k (by omega)]
      have e : i + 1 + k = i + (k + 1) := by omega
      rw [e]

/-- The loop over memories which hold all items: every item is the text of the first, then that of the second, then zeros. -/
theorem concat_texts {mode : Mode} {m1 m2 : List Nat} {w1 w2 n : Nat} (h1 : (if mode = .first then w1 else w1 * n) ≤ m1.length) (h2 : (if mode = .second then w2 else w2 * n) ≤ m2.length) :
    ∃ l, concat mode m1 m2 w1 w2 n 0 = some l ∧ l.length = n ∧ ∀ k < n, ∃ a b r, l[k]? = some r ∧ IsText (Slot m1 w1 (if mode = .first then 0 else k)) a ∧
      IsText (Slot m2 w2 (if mode = .second then 0 else k)) b ∧ r.length = w1 + w2 ∧ r = a ++ b ++ List.replicate (w1 + w2 - (a ++ b).length) 0 := by
  have hs : ∀ (c : Bool) (w k : Nat), start c w k = w * (if c = true then 0 else k) := by
    intro c w k
    cases c <;> simp [start]
  have hfit : ∀ (c : Bool) (w k L : Nat), k < n → (if c = true then w else w * n) ≤ L → w * (if c = true then 0 else k) + w ≤ L := by
    intro c w k L hk hL
    cases c with
    | true => simpa using hL
    | false =>
      simp only [Bool.false_eq_true, if_false] at hL ⊢
      have : w * (k + 1) ≤ w * n := Nat.mul_le_mul_left w hk
      rw [Nat.mul_succ] at this
      omega
  have hone : ∀ k < n, ∃ a b r, item m1 m2 w1 w2 (start (mode == .first) w1 (0 + k)) (start (mode == .second) w2 (0 + k)) = some r ∧ IsText (Slot m1 w1 (if mode = .first then 0 else k)) a ∧
      IsText (Slot m2 w2 (if mode = .second then 0 else k)) b ∧ r.length = w1 + w2 ∧ r = a ++ b ++ List.replicate (w1 + w2 - (a ++ b).length) 0 := by
    intro k hk
    rw [hs, hs, Nat.zero_add]
    have e1 : ((mode == .first) = true) = (mode = .first) := by simp
    have e2 : ((mode == .second) = true) = (mode = .second) := by simp
    have f1 := hfit (mode == .first) w1 k m1.length hk (by simpa using h1)
    have f2 := hfit (mode == .second) w2 k m2.length hk (by simpa using h2)
    obtain ⟨a, b, r, ta, tb, hr, hl, he⟩ := item_text f1 f2
    refine ⟨a, b, r, hr, ?_, ?_, hl, he⟩
    · simpa [Slot] using ta
    · simpa [Slot] using tb
  obtain ⟨l, hl, hn, hk⟩ := concat_items (mode := mode) (m1 := m1) (m2 := m2) (w1 := w1) (w2 := w2) (n := n) (i := 0) (fun k hk => by
    obtain ⟨a, b, r, hr, -⟩ := hone k hk
    rw [hr]
    rfl)
  refine ⟨l, hl, hn, ?_⟩
  intro k hkn
  obtain ⟨a, b, r, hr, rest⟩ := hone k hkn
  exact ⟨a, b, r, by rw [hk k hkn, hr], rest⟩

/-- **Two arrays of bytes of one length**: the result is an array of bytes, each item the text of the first and then that of the second; the sizes of the items are added. -/
theorem addTexts_arrays (hasOut : Bool) {s1 s2 : Nat} {d1 d2 m1 m2 : List Nat} (hd : length d1 = length d2) (h1 : s1 * length d1 ≤ m1.length) (h2 : s2 * length d2 ≤ m2.length) :
    ∃ l, addTexts hasOut (.arr 18 s1 d1 m1) (.arr 18 s2 d2 m2) = .new 18 (s1 + s2) [length d1] l ∧ l.length = length d1 ∧ ∀ k < length d1, ∃ a b r, l[k]? = some r ∧ IsText (Slot m1 s1 k) a ∧
      IsText (Slot m2 s2 k) b ∧ r.length = s1 + s2 ∧ IsNumpyText r (a ++ b) := by
  obtain ⟨l, hl, hn, hk⟩ := concat_texts (mode := .none) (n := length d1) (by simpa using h1) (by simpa [hd] using h2)
  refine ⟨l, by simp only [addTexts, hd, and_self, if_true, add] at hl ⊢; rw [hl], hn, ?_⟩
  intro k hkn
  obtain ⟨a, b, r, hr, ta, tb, hlen, he⟩ := hk k hkn
  refine ⟨a, b, r, hr, by simpa using ta, by simpa using tb, hlen, ?_, _, he⟩
  intro h0
  have := List.mem_of_getLast? h0
  rcases List.mem_append.1 this with h | h
  · exact ta.1 h
  · exact tb.1 h

/-- **An array of bytes and bytes after it**: every item has these bytes appended, up to the first zero in them. -/
theorem addTexts_bytes_after (hasOut : Bool) {s1 : Nat} {d1 m1 v : List Nat} (h1 : s1 * length d1 ≤ m1.length) :
    ∃ l, addTexts hasOut (.arr 18 s1 d1 m1) (.bytes v) = .new 18 (s1 + v.length) [length d1] l ∧ l.length = length d1 ∧ ∀ k < length d1, ∃ a b r, l[k]? = some r ∧ IsText (Slot m1 s1 k) a ∧
      IsText v b ∧ r.length = s1 + v.length ∧ IsNumpyText r (a ++ b) := by
  obtain ⟨l, hl, hn, hk⟩ := concat_texts (mode := .second) (m1 := m1) (m2 := v) (w1 := s1) (w2 := v.length) (n := length d1) (by simpa using h1) (by simp)
  refine ⟨l, ?_, hn, ?_⟩
  · simp [addTexts, withScalar, upType, scalar, add, hl]
  · intro k hkn
    obtain ⟨a, b, r, hr, ta, tb, hlen, he⟩ := hk k hkn
    refine ⟨a, b, r, hr, by simpa using ta, by simpa [Slot] using tb, hlen, ?_, _, he⟩
    intro h0
    have := List.mem_of_getLast? h0
    rcases List.mem_append.1 this with h | h
    · exact ta.1 h
    · exact tb.1 h

/-- **Bytes before an array of bytes**: every item has these bytes put before it. -/
theorem addTexts_bytes_before (hasOut : Bool) {s2 : Nat} {d2 m2 v : List Nat} (h2 : s2 * length d2 ≤ m2.length) :
    ∃ l, addTexts hasOut (.bytes v) (.arr 18 s2 d2 m2) = .new 18 (v.length + s2) [length d2] l ∧ l.length = length d2 ∧ ∀ k < length d2, ∃ a b r, l[k]? = some r ∧ IsText v a ∧
      IsText (Slot m2 s2 k) b ∧ r.length = v.length + s2 ∧ IsNumpyText r (a ++ b) := by
  obtain ⟨l, hl, hn, hk⟩ := concat_texts (mode := .first) (m1 := v) (m2 := m2) (w1 := v.length) (w2 := s2) (n := length d2) (by simp) (by simpa using h2)
  refine ⟨l, ?_, hn, ?_⟩
  · simp [addTexts, withScalar, upType, scalar, add, hl]
  · intro k hkn
    obtain ⟨a, b, r, hr, ta, tb, hlen, he⟩ := hk k hkn
    refine ⟨a, b, r, hr, by simpa [Slot] using ta, by simpa using tb, hlen, ?_, _, he⟩
    intro h0
    have := List.mem_of_getLast? h0
    rcases List.mem_append.1 this with h | h
    · exact ta.1 h
    · exact tb.1 h

/-- There are as many characters as fours of bytes. -/
theorem chars_length (l : List Nat) : (chars l).length = l.length / 4 := by
  induction l using chars.induct with
  | case1 a b c d l ih => simp [chars, ih]; omega
  | case2 l h =>
    match l, h with
    | [], _ => rfl
    | [_], _ => simp [chars]
    | [_, _], _ => simp [chars]
    | [_, _, _], _ => simp [chars]
    | a :: b :: c :: d :: l, h => exact absurd rfl (h a b c d l)

/-- The characters of the bytes of characters are these, for all characters of 32 bits. -/
theorem chars_bytesOf {t : List Nat} (h : ∀ c ∈ t, c < 2 ^ 32) : chars (t.flatMap bytesOf) = t := by
  induction t with
  | nil => rfl
  | cons c t ih =>
    have hc := h c (by simp)
    simp only [List.flatMap_cons, bytesOf, List.cons_append, List.nil_append, chars]
    rw [ih (fun d hd => h d (by simp [hd]))]
    congr 1
    omega

/-- The bytes of a text are four times its characters. -/
theorem flatMap_bytesOf_length (t : List Nat) : (t.flatMap bytesOf).length = 4 * t.length := by
  induction t with
  | nil => rfl
  | cons c t ih => simp [bytesOf] at ih ⊢; omega

/-- **An array of texts and a text after it**: every item has its characters appended; sizes are in fours of bytes. -/
theorem addTexts_text_after (hasOut : Bool) {s1 : Nat} {d1 m1 v : List Nat} (hv : ∀ c ∈ v, c < 2 ^ 32) (h1 : s1 * length d1 ≤ m1.length / 4) :
    ∃ l, addTexts hasOut (.arr 19 (4 * s1) d1 m1) (.text v) = .new 19 ((s1 + v.length) * 4) [length d1] l ∧ l.length = length d1 ∧ ∀ k < length d1, ∃ a b r, l[k]? = some r ∧
      IsText (Slot (chars m1) s1 k) a ∧ IsText v b ∧ r.length = s1 + v.length ∧ IsNumpyText r (a ++ b) := by
  obtain ⟨l, hl, hn, hk⟩ := concat_texts (mode := .second) (m1 := chars m1) (m2 := v) (w1 := s1) (w2 := v.length) (n := length d1) (by simpa [chars_length] using h1) (by simp)
  refine ⟨l, ?_, hn, ?_⟩
  · have e1 : 4 * s1 / 4 = s1 := by omega
    have e2 : 4 * v.length / 4 = v.length := by omega
    simp only [addTexts, withScalar, upType, scalar, add, chars_bytesOf hv, flatMap_bytesOf_length, e1, e2, hl]
    simp
  · intro k hkn
    obtain ⟨a, b, r, hr, ta, tb, hlen, he⟩ := hk k hkn
    refine ⟨a, b, r, hr, by simpa using ta, by simpa [Slot] using tb, hlen, ?_, _, he⟩
    intro h0
    have := List.mem_of_getLast? h0
    rcases List.mem_append.1 this with h | h
    · exact ta.1 h
    · exact tb.1 h

/-- **A text before an array of texts**: every item has its characters put before it. -/
theorem addTexts_text_before (hasOut : Bool) {s2 : Nat} {d2 m2 v : List Nat} (hv : ∀ c ∈ v, c < 2 ^ 32) (h2 : s2 * length d2 ≤ m2.length / 4) :
    ∃ l, addTexts hasOut (.text v) (.arr 19 (4 * s2) d2 m2) = .new 19 ((v.length + s2) * 4) [length d2] l ∧ l.length = length d2 ∧ ∀ k < length d2, ∃ a b r, l[k]? = some r ∧
      IsText v a ∧ IsText (Slot (chars m2) s2 k) b ∧ r.length = v.length + s2 ∧ IsNumpyText r (a ++ b) := by
  obtain ⟨l, hl, hn, hk⟩ := concat_texts (mode := .first) (m1 := v) (m2 := chars m2) (w1 := v.length) (w2 := s2) (n := length d2) (by simp) (by simpa [chars_length] using h2)
  refine ⟨l, ?_, hn, ?_⟩
  · have e1 : 4 * s2 / 4 = s2 := by omega
    have e2 : 4 * v.length / 4 = v.length := by omega
    simp only [addTexts, withScalar, upType, scalar, add, chars_bytesOf hv, flatMap_bytesOf_length, e1, e2, hl]
    simp
  · intro k hkn
    obtain ⟨a, b, r, hr, ta, tb, hlen, he⟩ := hk k hkn
    refine ⟨a, b, r, hr, by simpa [Slot] using ta, by simpa using tb, hlen, ?_, _, he⟩
    intro h0
    have := List.mem_of_getLast? h0
    rcases List.mem_append.1 this with h | h
    · exact ta.1 h
    · exact tb.1 h

/-- **Two arrays of texts of one length.** -/
theorem addTexts_texts (hasOut : Bool) {s1 s2 : Nat} {d1 d2 m1 m2 : List Nat} (hd : length d1 = length d2) (h1 : s1 * length d1 ≤ m1.length / 4) (h2 : s2 * length d2 ≤ m2.length / 4) :
    ∃ l, addTexts hasOut (.arr 19 (4 * s1) d1 m1) (.arr 19 (4 * s2) d2 m2) = .new 19 ((s1 + s2) * 4) [length d1] l ∧ l.length = length d1 ∧ ∀ k < length d1, ∃ a b r, l[k]? = some r ∧
      IsText (Slot (chars m1) s1 k) a ∧ IsText (Slot (chars m2) s2 k) b ∧ r.length = s1 + s2 ∧ IsNumpyText r (a ++ b) := by
  obtain ⟨l, hl, hn, hk⟩ := concat_texts (mode := .none) (m1 := chars m1) (m2 := chars m2) (w1 := s1) (w2 := s2) (n := length d1) (by simpa [chars_length] using h1) (by simpa [hd, chars_length] using h2)
  refine ⟨l, ?_, hn, ?_⟩
  · have e1 : 4 * s1 / 4 = s1 := by omega
    have e2 : 4 * s2 / 4 = s2 := by omega
    simp only [addTexts, hd, and_self, if_true, add, e1, e2] at hl ⊢
    rw [hl]
    simp
  · intro k hkn
    obtain ⟨a, b, r, hr, ta, tb, hlen, he⟩ := hk k hkn
    refine ⟨a, b, r, hr, by simpa using ta, by simpa using tb, hlen, ?_, _, he⟩
    intro h0
    have := List.mem_of_getLast? h0
    rcases List.mem_append.1 this with h | h
    · exact ta.1 h
    · exact tb.1 h

/-- The text of C is the one numpy sees exactly if the latter has no zero in it. -/
theorem isText_numpy {l t : List Nat} (h : IsNumpyText l t) : IsText l t ↔ 0 ∉ t := by
  constructor
  · exact fun h' => h'.1
  · intro h0
    obtain ⟨-, n, rfl⟩ := h
    refine ⟨h0, ?_⟩
    cases n with
    | zero => exact .inl (by simp)
    | succ n => exact .inr ⟨List.replicate n 0, by rw [List.replicate_succ]⟩

/-- A text is determined by its item. -/
theorem text_unique {l t t' : List Nat} (h : IsText l t) (h' : IsText l t') : t = t' := by
  have e : ∀ {l t : List Nat}, IsText l t → l.takeWhile (fun c => c != 0) = t := by
    rintro l t ⟨h0, h | ⟨r, h⟩⟩
    · subst h
      have := List.takeWhile_append_of_pos (p := fun c => c != 0) (l₁ := l) (l₂ := []) (by
        intro c hc
        simp only [bne_iff_ne]
        rintro rfl
        exact h0 hc)
      simpa using this
    · subst h
      rw [List.takeWhile_append_of_pos]
      · simp
      · intro c hc
        simp only [bne_iff_ne]
        rintro rfl
        exact h0 hc
  rw [← e h, e h']

/-- **Of texts without a zero in them the sum is what numpy sees**: the text of the first and then that of the second, for arrays of bytes. With one it is not; see `addTexts_zero_wrong`. -/
theorem addTexts_numpy_partial (hasOut : Bool) {s1 s2 : Nat} {d1 d2 m1 m2 : List Nat} (hd : length d1 = length d2) (h1 : s1 * length d1 ≤ m1.length) (h2 : s2 * length d2 ≤ m2.length) {k : Nat}
    (hk : k < length d1) {a b : List Nat} (ha : IsNumpyText (Slot m1 s1 k) a) (hb : IsNumpyText (Slot m2 s2 k) b) (ha0 : 0 ∉ a) (hb0 : 0 ∉ b) :
    ∃ l r, addTexts hasOut (.arr 18 s1 d1 m1) (.arr 18 s2 d2 m2) = .new 18 (s1 + s2) [length d1] l ∧ l[k]? = some r ∧ IsNumpyText r (a ++ b) := by
  obtain ⟨l, hl, -, h⟩ := addTexts_arrays hasOut hd h1 h2
  obtain ⟨a', b', r, hr, ta, tb, -, hn⟩ := h k hk
  have ea := text_unique ta ((isText_numpy ha).2 ha0)
  have eb := text_unique tb ((isText_numpy hb).2 hb0)
  subst ea eb
  exact ⟨l, r, hl, hr, hn⟩

/-- **No addition of arrays which lie in their memory is undefined**, with or without an output, whatever the scalar. -/
theorem addTexts_defined (hasOut : Bool) {t1 s1 t2 s2 : Nat} {d1 m1 d2 m2 : List Nat} (h1 : s1 * length d1 ≤ m1.length) (h2 : s2 * length d2 ≤ m2.length) (v : In) :
    addTexts hasOut (.arr t1 s1 d1 m1) (.arr t2 s2 d2 m2) ≠ .undefined ∧ ((∀ t s d m, v ≠ .arr t s d m) → addTexts hasOut (.arr t1 s1 d1 m1) v ≠ .undefined ∧ addTexts hasOut v (.arr t2 s2 d2 m2) ≠ .undefined) := by
  have hq : ∀ s d L : Nat, s * d ≤ L → s / 4 * d ≤ L / 4 := by
    intro s d L h
    rw [Nat.le_div_iff_mul_le (by omega)]
    have : s / 4 * 4 ≤ s := Nat.div_mul_le_self s 4
    calc s / 4 * d * 4 = s / 4 * 4 * d := by rw [Nat.mul_right_comm]
      _ ≤ s * d := Nat.mul_le_mul_right d this
      _ ≤ L := h
  have hadd : ∀ (ty : Nat) (mode : Mode) (m1 m2 : List Nat) (s1 s2 len : Nat), (if mode = .first then s1 else s1 * len) ≤ m1.length → (if mode = .second then s2 else s2 * len) ≤ m2.length →
      add ty mode m1 m2 s1 s2 len ≠ .undefined := by
    intro ty mode m1 m2 s1 s2 len g1 g2
    unfold add
    split
    · obtain ⟨l, hl, -⟩ := concat_texts g1 g2
      rw [hl]
      simp
    · split
      · have g1' : (if mode = .first then s1 / 4 else s1 / 4 * len) ≤ (chars m1).length := by
          rw [chars_length]
          split at g1
          · rename_i h; rw [if_pos h]; exact Nat.div_le_div_right g1
          · rename_i h; rw [if_neg h]; exact hq _ _ _ g1
        have g2' : (if mode = .second then s2 / 4 else s2 / 4 * len) ≤ (chars m2).length := by
          rw [chars_length]
          split at g2
          · rename_i h; rw [if_pos h]; exact Nat.div_le_div_right g2
          · rename_i h; rw [if_neg h]; exact hq _ _ _ g2
        obtain ⟨l, hl, -⟩ := concat_texts g1' g2'
        rw [hl]
        simp
      · simp
  have hw : ∀ (ty : Nat) (s : In) (k : List Nat → Out), (∀ b, k b ≠ .undefined) → withScalar hasOut ty s k ≠ .undefined := by
    intro ty s k hk
    unfold withScalar
    split
    · simp
    · split
      · exact hk _
      · simp
  refine ⟨?_, ?_⟩
  · simp only [addTexts]
    split
    · rename_i h
      exact hadd _ _ _ _ _ _ _ (by simpa using h1) (by simpa [h.1] using h2)
    · simp
  · intro hv
    cases v with
    | arr t s d m => exact absurd rfl (hv t s d m)
    | bytes b =>
      refine ⟨?_, ?_⟩
      · simp only [addTexts]
        exact hw _ _ _ fun b => hadd _ _ _ _ _ _ _ (by simpa using h1) (by simp)
      · simp only [addTexts]
        exact hw _ _ _ fun b => hadd _ _ _ _ _ _ _ (by simp) (by simpa using h2)
    | text t =>
      refine ⟨?_, ?_⟩
      · simp only [addTexts]
        exact hw _ _ _ fun b => hadd _ _ _ _ _ _ _ (by simpa using h1) (by simp)
      · simp only [addTexts]
        exact hw _ _ _ fun b => hadd _ _ _ _ _ _ _ (by simp) (by simpa using h2)
    | number =>
      have e : ∀ ty k, withScalar hasOut ty .number k ≠ .undefined := by
        intro ty k
        simp [withScalar, scalar]
      refine ⟨?_, ?_⟩
      · simp only [addTexts]
        exact e _ _
      · simp only [addTexts]
        exact e _ _

/-- **What is left to others**: arrays of two types or of two lengths, numbers, and without an output scalars which are not of the type of the array. -/
theorem addTexts_left (hasOut : Bool) (t1 s1 t2 s2 : Nat) (d1 m1 d2 m2 v : List Nat) :
    (t1 ≠ t2 ∨ length d1 ≠ length d2 → addTexts hasOut (.arr t1 s1 d1 m1) (.arr t2 s2 d2 m2) = .left) ∧
    addTexts hasOut (.arr t1 s1 d1 m1) .number = .left ∧ addTexts hasOut .number (.arr t1 s1 d1 m1) = .left ∧
    (t1 ≠ 19 → addTexts false (.arr t1 s1 d1 m1) (.text v) = .left ∧ addTexts false (.text v) (.arr t1 s1 d1 m1) = .left) ∧
    (t1 ≠ 18 → addTexts false (.arr t1 s1 d1 m1) (.bytes v) = .left ∧ addTexts false (.bytes v) (.arr t1 s1 d1 m1) = .left) ∧
    (t1 ≠ 18 → t1 ≠ 19 → addTexts hasOut (.arr t1 s1 d1 m1) (.arr t1 s2 d2 m2) = .left) := by
  refine ⟨?_, ?_, ?_, ?_, ?_, ?_⟩
  · intro h
    simp only [addTexts]
    rw [if_neg]
    rintro ⟨a, b⟩
    rcases h with h | h
    · exact h b
    · exact h a
  · simp [addTexts, withScalar, scalar]
  · simp [addTexts, withScalar, scalar]
  · intro h
    have h' : ¬ 19 = t1 := fun e => h e.symm
    simp [addTexts, withScalar, upType, h']
  · intro h
    have h' : ¬ 18 = t1 := fun e => h e.symm
    simp [addTexts, withScalar, upType, h']
  · intro h h'
    simp [addTexts, add, h, h']

/-- **Without an array of texts nothing is added here**: two scalars, and arrays of other types next to any scalar, with or without an output, are left. -/
theorem addTexts_no_array (hasOut : Bool) (a b : In) (ha : ∀ t s d m, a = .arr t s d m → t ≠ 18 ∧ t ≠ 19) (hb : ∀ t s d m, b = .arr t s d m → t ≠ 18 ∧ t ≠ 19) : addTexts hasOut a b = .left := by
  have hadd : ∀ (ty : Nat) (mode : Mode) (m1 m2 : List Nat) (s1 s2 len : Nat), ty ≠ 18 ∧ ty ≠ 19 → add ty mode m1 m2 s1 s2 len = .left := by
    intro ty mode m1 m2 s1 s2 len h
    simp [add, h.1, h.2]
  have hw : ∀ (ty : Nat) (v : In) (k : List Nat → Out), (∀ b, k b = .left) → withScalar hasOut ty v k = .left := by
    intro ty v k hk
    unfold withScalar
    split
    · rfl
    · split
      · exact hk _
      · rfl
  unfold addTexts
  split
  · split
    · exact hadd _ _ _ _ _ _ _ (ha _ _ _ _ rfl)
    · rfl
  · exact hw _ _ _ fun _ => hadd _ _ _ _ _ _ _ (ha _ _ _ _ rfl)
  · exact hw _ _ _ fun _ => hadd _ _ _ _ _ _ _ (hb _ _ _ _ rfl)
  · rfl

example : addTexts true (.arr 5 4 [1] [1, 0, 0, 0]) (.bytes [97]) = .left := addTexts_no_array _ _ _ (by intro t s d m h; cases h; decide) (by intro t s d m h; cases h)

end Riptide.Binary.Texts
