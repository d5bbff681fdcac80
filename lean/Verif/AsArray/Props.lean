import Verif.AsArray.Model
import Verif.Common.Lists
/-! # Theorems about `AsAnyArray` of lists -/
namespace Riptide.AsArray

/-- numpy's reading of an item of text: trailing zeros do not belong to it. -/
def strip : List Nat → List Nat
  | [] => []
  | c :: cs => if strip cs = [] ∧ c = 0 then [] else c :: strip cs

/-- Item `i` of the array is the object `o`. -/
def Holds (a : Arr) (i : Nat) (o : Obj) : Prop :=
  match a, o with
  | .bools l, .bool b => l[i]? = some b
  | .ints _ l, .int _ n => l[i]? = some n
  | .floats l, .float _ b => l[i]? = some b
  | .bytes m mem, .bytes _ l => strip ((mem.drop (i * m)).take m) = strip l
  | .strs m mem, .str _ l => strip ((mem.drop (i * m)).take m) = strip l
  | _, _ => False

/-- The array has the length of the list and holds its objects. -/
def Right (a : Arr) (l : List Obj) : Prop :=
  a = .numpy ∨ ∀ (i : Nat) o, l[i]? = some o → Holds a i o

theorem sameLoop_iff (ty : Nat × Nat) (l : List Obj) : ∀ n : Nat, n < l.length →
    (sameLoop ty l n = true ↔ ∀ (k : Nat) o, 0 < k → k ≤ n → l[k]? = some o → o.type = ty)
  | 0, _ => by simp [sameLoop]; intro k o h1 h2; omega
  | n + 1, hn => by
    rw [sameLoop]
    have hg : l[n + 1]? = some l[n + 1] := List.getElem?_eq_getElem hn
    rw [hg]
    simp only
    have ih := sameLoop_iff ty l n (by omega)
    by_cases ht : ty = l[n + 1].type
    · rw [if_pos ht, ih]
      constructor
      · intro h k o h0 hk ho
        by_cases hkn : k = n + 1
        · subst hkn; rw [hg] at ho; cases ho; exact ht.symm
        · exact h k o h0 (by omega) ho
      · exact fun h k o h0 hk ho => h k o h0 (by omega) ho
    · rw [if_neg ht]
      constructor
      · intro h; exact absurd h (by simp)
      · intro h; exact absurd (h (n + 1) _ (by omega) (by omega) hg).symm ht

theorem same_iff (o : Obj) (l : List Obj) : sameLoop o.type (o :: l) l.length = true ↔ ∀ p ∈ o :: l, p.type = o.type := by
  rw [sameLoop_iff _ _ _ (by simp)]
  constructor
  · intro h p hp
    obtain ⟨k, hk⟩ := List.mem_iff_getElem?.1 hp
    by_cases h0 : k = 0
    · subst h0; simp at hk; rw [hk]
    · exact h k p (by omega) (by have := (List.getElem?_eq_some_iff.1 hk).1; simp at this; omega) hk
  · intro h k p _ _ hp
    exact h p (List.mem_iff_getElem?.2 ⟨k, hp⟩)

/-! ### Text -/

theorem writeAt_length : ∀ (cs : List Nat) (mem : List Nat) (p : Nat), (writeAt mem p cs).length = mem.length
  | [], _, _ => rfl
  | c :: cs, mem, p => by rw [writeAt, writeAt_length cs]; simp

theorem writeAt_get : ∀ (cs : List Nat) (mem : List Nat) (p q : Nat), p + cs.length ≤ mem.length →
    (writeAt mem p cs)[q]? = if p ≤ q ∧ q < p + cs.length then cs[q - p]? else mem[q]?
  | [], _, p, q, _ => by
    rw [if_neg (by simp)]; rfl
  | c :: cs, mem, p, q, h => by
    simp only [List.length_cons] at h
    rw [writeAt, writeAt_get cs _ _ _ (by simp; omega)]
    by_cases h1 : p + 1 ≤ q ∧ q < p + 1 + cs.length
    · rw [if_pos h1, if_pos (by simp only [List.length_cons]; omega)]
      have : q - p = (q - (p + 1)) + 1 := by omega
      rw [this, List.getElem?_cons_succ]
    · rw [if_neg h1]
      by_cases hq : q = p
      · subst hq
        rw [if_pos (by simp only [List.length_cons]; omega), List.getElem?_set_self (by omega)]
        simp
      · rw [if_neg (by simp only [List.length_cons]; omega), List.getElem?_set_ne (fun h => hq h.symm)]

theorem foldl_max (l : List Obj) : ∀ m : Nat, m ≤ l.foldl (fun m (o : Obj) => if m < o.size then o.size else m) m ∧
    ∀ o ∈ l, o.size ≤ l.foldl (fun m (o : Obj) => if m < o.size then o.size else m) m := by
  induction l with
  | nil => intro m; simp
  | cons x l ih =>
    intro m
    rw [List.foldl_cons]
    obtain ⟨h1, h2⟩ := ih (if m < x.size then x.size else m)
    refine ⟨?_, fun o ho => ?_⟩
    · split at h1 <;> rename_i hc
      · rw [if_pos hc]; omega
      · rw [if_neg hc]; omega
    · rcases List.mem_cons.1 ho with rfl | ho
      · split at h1 <;> rename_i hc
        · rw [if_pos hc]; omega
        · rw [if_neg hc]; omega
      · exact h2 o ho

theorem size_chars (o : Obj) : o.chars.length = o.size := by cases o <;> rfl

theorem le_findMax {l : List Obj} {o : Obj} (h : o ∈ l) : o.chars.length ≤ findMax l := by
  rw [size_chars]; exact (foldl_max l 0).2 o h

/-- A loop which writes the items one after the other, each within its own place. -/
theorem loop_get (max : Nat) (f : Obj → List Nat) (loop : Nat → List Obj → List Nat → List Nat) (hnil : ∀ i mem, loop i [] mem = mem)
    (hcons : ∀ i o os mem, loop i (o :: os) mem = loop (i + 1) os (writeAt mem (i * max) (f o))) :
    ∀ (os : List Obj) (i : Nat) (mem : List Nat), (∀ o ∈ os, (f o).length ≤ max) → (i + os.length) * max ≤ mem.length →
    ∀ (j q : Nat), q < max → (loop i os mem)[j * max + q]? =
      if i ≤ j ∧ j < i + os.length then
        (match os[j - i]? with
         | some o => if q < (f o).length then (f o)[q]? else mem[j * max + q]?
         | none => mem[j * max + q]?)
      else mem[j * max + q]?
  | [], i, mem, _, _, j, q, _ => by rw [hnil, if_neg (by simp)]
  | o :: os, i, mem, hf, hm, j, q, hq => by
    simp only [List.length_cons] at hm
    have hfo := hf o (by simp)
    have hmul : (i + (os.length + 1)) * max = i * max + max + os.length * max := by
      rw [Nat.add_mul, Nat.add_mul, Nat.one_mul]; omega
    have hmul' : (i + 1 + os.length) * max = i * max + max + os.length * max := by
      rw [Nat.add_mul, Nat.add_mul, Nat.one_mul]
    rw [hcons, loop_get max f loop hnil hcons os (i + 1) _ (fun p hp => hf p (by simp [hp]))
      (by rw [writeAt_length]; omega) j q hq]
    have hget := writeAt_get (f o) mem (i * max) (j * max + q) (by omega)
    by_cases hji : j = i
    · subst hji
      rw [if_neg (by omega), if_pos (by simp only [List.length_cons]; omega), hget]
      rw [show j - j = 0 by omega]
      simp only [List.getElem?_cons_zero]
      by_cases hql : q < (f o).length
      · rw [if_pos (by omega), if_pos hql]; congr 1; omega
      · rw [if_neg (by omega), if_neg hql]
    · have hne : ¬ (i * max ≤ j * max + q ∧ j * max + q < i * max + (f o).length) := by
        rintro ⟨ha, hb⟩
        rcases Nat.lt_or_gt_of_ne hji with h | h
        · have := Nat.mul_le_mul_right max (show j + 1 ≤ i by omega)
          rw [Nat.add_mul, Nat.one_mul] at this
          omega
        · have := Nat.mul_le_mul_right max (show i + 1 ≤ j by omega)
          rw [Nat.add_mul, Nat.one_mul] at this
          omega
      rw [if_neg hne] at hget
      by_cases hr : i + 1 ≤ j ∧ j < i + 1 + os.length
      · rw [if_pos hr, if_pos (by simp only [List.length_cons]; omega)]
        have : j - i = (j - (i + 1)) + 1 := by omega
        rw [this, List.getElem?_cons_succ, hget]
      · rw [if_neg hr, if_neg (by simp only [List.length_cons]; omega), hget]

theorem loop_length (max : Nat) (f : Obj → List Nat) (loop : Nat → List Obj → List Nat → List Nat) (hnil : ∀ i mem, loop i [] mem = mem)
    (hcons : ∀ i o os mem, loop i (o :: os) mem = loop (i + 1) os (writeAt mem (i * max) (f o))) :
    ∀ (os : List Obj) (i : Nat) (mem : List Nat), (loop i os mem).length = mem.length
  | [], i, mem => by rw [hnil]
  | o :: os, i, mem => by rw [hcons, loop_length max f loop hnil hcons os, writeAt_length]

/-- The characters in the place of an item: what was written, then what was there before. -/
theorem loop_item (max : Nat) (f : Obj → List Nat) (loop : Nat → List Obj → List Nat → List Nat) (hnil : ∀ i mem, loop i [] mem = mem)
    (hcons : ∀ i o os mem, loop i (o :: os) mem = loop (i + 1) os (writeAt mem (i * max) (f o)))
    (l : List Obj) (hf : ∀ o ∈ l, (f o).length ≤ max) (junk : Nat → Nat) (j : Nat) (o : Obj) (ho : l[j]? = some o) :
    ((loop 0 l ((List.range (l.length * max)).map junk)).drop (j * max)).take max =
      f o ++ (List.range (max - (f o).length)).map fun (k : Nat) => junk (j * max + (f o).length + k) := by
  have hj := (List.getElem?_eq_some_iff.1 ho).1
  have hmem := List.mem_iff_getElem?.2 ⟨j, ho⟩
  have hfo := hf o hmem
  have hle : j * max + max ≤ l.length * max := by
    have := Nat.mul_le_mul_right max (show j + 1 ≤ l.length by omega)
    rw [Nat.add_mul, Nat.one_mul] at this
    exact this
  apply List.ext_getElem?
  intro q
  by_cases hq : q < max
  · rw [List.getElem?_take_of_lt hq, List.getElem?_drop,
      loop_get max f loop hnil hcons l 0 _ hf (by simp) j q hq, if_pos (by omega), Nat.sub_zero, ho]
    simp only
    by_cases hqf : q < (f o).length
    · rw [if_pos hqf, List.getElem?_append_left hqf]
    · rw [if_neg hqf, List.getElem?_append_right (by omega), List.getElem?_map, List.getElem?_map,
        List.getElem?_range (by omega), List.getElem?_range (by omega)]
      simp only [Option.map_some]
      congr 2
      omega
  · rw [List.getElem?_eq_none (by rw [List.length_take]; omega), List.getElem?_eq_none (by simp; omega)]

theorem strip_append_zeros (l : List Nat) : ∀ n : Nat, strip (l ++ List.replicate n 0) = strip l := by
  intro n
  induction l with
  | nil =>
    induction n with
    | zero => rfl
    | succ n ih =>
      rw [List.nil_append] at ih ⊢
      rw [List.replicate_succ, strip.eq_2, ih]
      simp [strip]
  | cons c l ih => rw [List.cons_append, strip, ih, strip]

theorem strip_nil_iff : ∀ l : List Nat, strip l = [] ↔ ∀ c ∈ l, c = 0
  | [] => by simp [strip]
  | c :: cs => by
    rw [strip]
    have ih := strip_nil_iff cs
    split
    · rename_i h; simp only [true_iff]; intro x hx
      rcases List.mem_cons.1 hx with rfl | hx
      · exact h.2
      · exact ih.1 h.1 x hx
    · rename_i h
      simp only [reduceCtorEq, false_iff]
      intro hall
      exact h ⟨ih.2 fun x hx => hall x (by simp [hx]), hall c (by simp)⟩

/-- What follows a text does not matter exactly if it is zero. -/
theorem strip_append_iff : ∀ (l r : List Nat), strip (l ++ r) = strip l ↔ ∀ c ∈ r, c = 0
  | [], r => by rw [List.nil_append]; exact strip_nil_iff r
  | c :: l, r => by
    rw [List.cons_append, strip, strip]
    have ih := strip_append_iff l r
    rw [← ih]
    constructor
    · intro h
      split at h <;> rename_i h1
      · split at h <;> rename_i h2
        · rw [h1.1, h2.1]
        · simp at h
      · split at h <;> rename_i h2
        · simp at h
        · simpa using h
    · intro h; rw [h]

/-- Characters a list of text objects of one type. -/
theorem types_bytes {c : Nat} {l : List Obj} (h : ∀ p ∈ l, p.type = (3, c)) {i : Nat} {o : Obj} (ho : l[i]? = some o) :
    ∃ s, o = .bytes c s := by
  have := h o (List.mem_iff_getElem?.2 ⟨i, ho⟩)
  cases o <;> simp [Obj.type] at this
  subst this
  exact ⟨_, rfl⟩

theorem types_str {c : Nat} {l : List Obj} (h : ∀ p ∈ l, p.type = (4, c)) {i : Nat} {o : Obj} (ho : l[i]? = some o) :
    ∃ s, o = .str c s := by
  have := h o (List.mem_iff_getElem?.2 ⟨i, ho⟩)
  cases o <;> simp [Obj.type] at this
  subst this
  exact ⟨_, rfl⟩

/-- C107, bytes: right unless all of them are empty. -/
theorem bytes_ok (junk : Nat → Nat) (l : List Obj) (c : Nat) (h : ∀ p ∈ l, p.type = (3, c)) (hm : findMax l ≠ 0) (i : Nat) (o : Obj)
    (ho : l[i]? = some o) : Holds (convertBytes junk l) i o := by
  obtain ⟨s, rfl⟩ := types_bytes h ho
  unfold convertBytes
  simp only [if_neg hm]
  have hmax := le_findMax (List.mem_iff_getElem?.2 ⟨i, ho⟩)
  have hit := loop_item (findMax l) (fun (o : Obj) => o.chars ++ List.replicate (findMax l - o.chars.length) 0) (bytesLoop (findMax l))
    (fun _ _ => rfl) (fun _ _ _ _ => rfl) l
    (fun p hp => by have := le_findMax hp; simp; omega) junk i _ ho
  show strip _ = strip s
  rw [hit]
  rw [strip_append_iff _ _ |>.2]
  · exact strip_append_zeros s _
  · intro x hx
    simp only [List.length_append, List.length_replicate] at hx
    rw [show findMax l - ((Obj.bytes c s).chars.length + (findMax l - (Obj.bytes c s).chars.length)) = 0 by omega] at hx
    simp at hx

/-- C107, bytes, exactly: if all of them are empty, the memory of all items but the first has to be zero by chance. -/
theorem bytes_empty_iff (junk : Nat → Nat) (l : List Obj) (c : Nat) (h : ∀ p ∈ l, p.type = (3, c)) (hm : findMax l = 0) (i : Nat) (o : Obj)
    (ho : l[i]? = some o) : Holds (convertBytes junk l) i o ↔ i = 0 ∨ junk i = 0 := by
  obtain ⟨s, rfl⟩ := types_bytes h ho
  have hi := (List.getElem?_eq_some_iff.1 ho).1
  have hs : s = [] := by
    have := le_findMax (List.mem_iff_getElem?.2 ⟨i, ho⟩)
    rw [hm] at this
    exact List.eq_nil_of_length_eq_zero (by simpa [Obj.chars] using this)
  subst hs
  unfold convertBytes
  simp only [if_pos hm]
  show strip ((List.drop (i * 1) _).take 1) = strip [] ↔ _
  have htake : ∀ m : List Nat, ∀ x, m[i]? = some x → (m.drop (i * 1)).take 1 = [x] := by
    intro m x hx
    obtain ⟨hl, rfl⟩ := List.getElem?_eq_some_iff.1 hx
    rw [Nat.mul_one, List.drop_eq_getElem_cons hl]; rfl
  by_cases h0 : i = 0
  · subst h0
    rw [htake _ 0 (by rw [List.getElem?_set_self (by simpa using hi)])]
    simp [strip]
  · rw [htake _ (junk i) (by rw [List.getElem?_set_ne (fun h => h0 h.symm)]; simp [hi])]
    simp [strip, h0]

/-- C107, unicode, exactly: the characters behind the zero which ends the text have to be zero by chance. -/
theorem str_iff (junk : Nat → Nat) (l : List Obj) (c : Nat) (h : ∀ p ∈ l, p.type = (4, c)) (i : Nat) (o : Obj)
    (ho : l[i]? = some o) :
    Holds (convertStr junk l) i o ↔ ∀ k : Nat, o.size < k → k < findMax l → junk (i * findMax l + k) = 0 := by
  obtain ⟨s, rfl⟩ := types_str h ho
  unfold convertStr
  have hmax : s.length ≤ findMax l := le_findMax (List.mem_iff_getElem?.2 ⟨i, ho⟩)
  have hit := loop_item (findMax l) (strPut (findMax l)) (strLoop (findMax l))
    (fun _ _ => rfl) (fun _ _ _ _ => rfl) l
    (fun p hp => by have := le_findMax hp; unfold strPut; split <;> simp <;> omega) junk i _ ho
  show strip _ = strip s ↔ ∀ k : Nat, s.length < k → k < findMax l → junk (i * findMax l + k) = 0
  rw [hit]
  by_cases hlt : s.length < findMax l
  · have hput : strPut (findMax l) (.str c s) = s ++ [0] := if_pos hlt
    rw [hput, List.append_assoc, strip_append_iff]
    simp only [List.mem_append, List.mem_map, List.mem_range, List.mem_singleton, List.length_append, List.length_singleton]
    constructor
    · intro hall k h1 h2
      exact hall _ (.inr ⟨k - (s.length + 1), by omega, by congr 1; omega⟩)
    · rintro hall x (rfl | ⟨k, hk, rfl⟩)
      · rfl
      · rw [Nat.add_assoc]
        exact hall _ (by omega) (by omega)
  · have hput : strPut (findMax l) (.str c s) = s := if_neg hlt
    rw [hput, show findMax l - s.length = 0 by omega]
    simp only [List.range_zero, List.map_nil, List.append_nil, true_iff]
    intro k h1 h2
    omega

/-! ### All lists -/

/-- What has to be said of a list for its array to be right. -/
def Guard (junk : Nat → Nat) (l : List Obj) : Obj → Prop
  | .int _ _ => ∀ c n, Obj.int c n ∈ l → IT.i64.InRange n
  | .bytes _ _ => findMax l = 0 → ∀ i : Nat, 0 < i → i < l.length → junk i = 0
  | .str _ _ => ∀ (i k : Nat) o, l[i]? = some o → o.size < k → k < findMax l → junk (i * findMax l + k) = 0
  | _ => True

/-- C107 (partial): the array of a list holds the objects of the list, exactly if the integers fit into 64 bits, not all of several
bytes objects are empty and no text has two characters less than the longest (or the memory was zero before). -/
theorem as_array_iff_partial (long4 : Bool) (junk : Nat → Nat) (o : Obj) (l : List Obj) :
    asArray long4 junk (o :: l) = .numpy ∨ (Right (asArray long4 junk (o :: l)) (o :: l) ↔ Guard junk (o :: l) o) := by
  unfold asArray
  simp only [List.length_cons, Nat.add_sub_cancel]
  by_cases hsame : sameLoop o.type (o :: l) l.length = true
  · rw [if_pos hsame]
    have hty := (same_iff o l).1 hsame
    have hmap : ∀ (α : Type) (f : Obj → α) (i : Nat) p, (o :: l)[i]? = some p → ((o :: l).map f)[i]? = some (f p) := by
      intro α f i p hp
      rw [List.getElem?_map, hp]; rfl
    cases o with
    | bool b =>
      refine .inr ⟨fun _ => trivial, fun _ => .inr fun i p hp => ?_⟩
      have := hty p (List.mem_iff_getElem?.2 ⟨i, hp⟩)
      cases p <;> simp [Obj.type] at this
      exact hmap _ _ i _ hp
    | int c n =>
      have hints : ∀ bits : Nat, Right (.ints bits ((Obj.int c n :: l).map toI64)) (.int c n :: l) ↔
          Guard junk (.int c n :: l) (.int c n) := by
        intro bits
        constructor
        · rintro (h | h)
          · exact absurd h (by simp)
          · intro c' n' hmem
            obtain ⟨i, hi⟩ := List.mem_iff_getElem?.1 hmem
            have h1 := h i _ hi
            have h2 := hmap _ toI64 i _ hi
            have h3 : toI64 (.int c' n') = n' := Option.some.inj (h2.symm.trans h1)
            rw [toI64] at h3
            split at h3
            · assumption
            · subst h3; decide
        · intro hg
          refine .inr fun i p hp => ?_
          have hmem := List.mem_iff_getElem?.2 ⟨i, hp⟩
          have := hty p hmem
          cases p with
          | int c' n' =>
            have hr := hg c' n' hmem
            show _ = some n'
            rw [hmap _ toI64 i _ hp]
            simp only [toI64]
            rw [if_pos hr]
          | _ => simp [Obj.type] at this
      refine .inr ?_
      simp only
      split
      · exact hints 32
      · exact hints 64
    | float c b =>
      refine .inr ⟨fun _ => trivial, fun _ => .inr fun i p hp => ?_⟩
      have := hty p (List.mem_iff_getElem?.2 ⟨i, hp⟩)
      cases p <;> simp [Obj.type] at this
      exact hmap _ _ i _ hp
    | bytes c s =>
      refine .inr ⟨?_, ?_⟩
      · rintro (h | h)
        · simp only [convertBytes] at h
          split at h <;> simp at h
        · intro hm i h0 hi
          obtain ⟨p, hp⟩ : ∃ p, (Obj.bytes c s :: l)[i]? = some p := ⟨_, List.getElem?_eq_getElem hi⟩
          exact ((bytes_empty_iff junk _ c hty hm i p hp).1 (h i p hp)).resolve_left (by omega)
      · intro hg
        refine .inr fun i p hp => ?_
        by_cases hm : findMax (Obj.bytes c s :: l) = 0
        · refine (bytes_empty_iff junk _ c hty hm i p hp).2 ?_
          by_cases h0 : i = 0
          · exact .inl h0
          · exact .inr (hg hm i (by omega) (List.getElem?_eq_some_iff.1 hp).1)
        · exact bytes_ok junk _ c hty hm i p hp
    | str c s =>
      refine .inr ⟨?_, ?_⟩
      · rintro (h | h)
        · simp [convertStr] at h
        · intro i k p hp
          exact (str_iff junk _ c hty i p hp).1 (h i p hp) k
      · intro hg
        exact .inr fun i p hp => (str_iff junk _ c hty i p hp).2 fun k => hg i k p hp
    | other c => exact .inl rfl
  · rw [if_neg hsame]
    exact .inl rfl

/-- C107: which lists are left to numpy. -/
theorem as_array_numpy_iff (long4 : Bool) (junk : Nat → Nat) (o : Obj) (l : List Obj) :
    asArray long4 junk (o :: l) = .numpy ↔ (∃ p ∈ l, p.type ≠ o.type) ∨ ∃ c, o = .other c := by
  unfold asArray
  simp only [List.length_cons, Nat.add_sub_cancel]
  by_cases hsame : sameLoop o.type (o :: l) l.length = true
  · rw [if_pos hsame]
    have hty := (same_iff o l).1 hsame
    have hno : ¬ ∃ p ∈ l, p.type ≠ o.type := by
      rintro ⟨p, hp, hne⟩; exact hne (hty p (by simp [hp]))
    cases o with
    | other c => simp
    | bytes c s =>
      simp only [convertBytes]
      split <;> simp <;> exact fun x hx => hty x (by simp [hx])
    | int c n =>
      simp only
      split <;> simp <;> exact fun x hx => hty x (by simp [hx])
    | bool b => simp; exact fun x hx => hty x (by simp [hx])
    | float c b => simp; exact fun x hx => hty x (by simp [hx])
    | str c s => simp [convertStr]; exact fun x hx => hty x (by simp [hx])
  · rw [if_neg hsame]
    simp only [true_iff]
    refine .inl ?_
    refine Classical.byContradiction fun hno => hsame ((same_iff o l).2 fun p hp => ?_)
    rcases List.mem_cons.1 hp with rfl | hp
    · rfl
    · exact Classical.byContradiction fun h => hno ⟨p, hp, h⟩

/-- C107: integers become 32-bit ones exactly where `long` has four bytes and all of them fit. -/
theorem as_array_bits_iff (long4 : Bool) (junk : Nat → Nat) (c : Nat) (n : Int) (l : List Obj) (h : ∀ p ∈ l, p.type = (1, c)) :
    ∃ bits ns, asArray long4 junk (.int c n :: l) = .ints bits ns ∧ (bits = 32 ∨ bits = 64) ∧
      (bits = 32 ↔ long4 = true ∧ ∀ d m, Obj.int d m ∈ Obj.int c n :: l → IT.i32.InRange m) := by
  have hsame := (same_iff (.int c n) l).2 (fun p hp => by
    rcases List.mem_cons.1 hp with rfl | hp
    · rfl
    · exact h p hp)
  unfold asArray
  simp only [List.length_cons, Nat.add_sub_cancel]
  rw [if_pos hsame]
  have hall : (Obj.int c n :: l).all fits32 = true ↔ ∀ d m, Obj.int d m ∈ Obj.int c n :: l → IT.i32.InRange m := by
    rw [List.all_eq_true]
    constructor
    · intro hf c' m hm
      have := hf _ hm
      simp only [fits32, decide_eq_true_eq] at this
      exact this.2
    · intro hr p hp
      cases p with
      | int c' m =>
        have h1 := hr c' m hp
        simp only [fits32, decide_eq_true_eq]
        refine ⟨?_, h1⟩
        have e1 : IT.i32.lo = -2147483648 := by decide
        have e2 : IT.i32.hi = 2147483647 := by decide
        have e3 : IT.i64.lo = -9223372036854775808 := by decide
        have e4 : IT.i64.hi = 9223372036854775807 := by decide
        unfold IT.InRange at h1 ⊢
        omega
      | _ => rfl
  by_cases hc : (long4 && (Obj.int c n :: l).all fits32) = true
  · rw [if_pos hc]
    rw [Bool.and_eq_true] at hc
    exact ⟨_, _, rfl, .inl rfl, fun _ => ⟨hc.1, hall.1 hc.2⟩, fun _ => rfl⟩
  · rw [if_neg hc]
    rw [Bool.and_eq_true] at hc
    exact ⟨_, _, rfl, .inr rfl, fun h => by omega, fun hh => absurd ⟨hh.1, hall.2 hh.2⟩ hc⟩

/-- How many items an array has. -/
def HasLen (n : Nat) : Arr → Prop
  | .numpy => True
  | .bools l => l.length = n
  | .ints _ l => l.length = n
  | .floats l => l.length = n
  | .bytes size mem => mem.length = n * size
  | .strs size mem => mem.length = n * size

/-- C107: the array has as many items as the list. -/
theorem as_array_length (long4 : Bool) (junk : Nat → Nat) (l : List Obj) : HasLen l.length (asArray long4 junk l) := by
  cases l with
  | nil => rfl
  | cons o l =>
    unfold asArray
    simp only
    split
    · cases o with
      | bool b => simp [HasLen]
      | int c n =>
        simp only
        split <;> simp [HasLen]
      | float c b => simp [HasLen]
      | bytes c s =>
        simp only [convertBytes]
        split
        · simp [HasLen]
        · simp only [HasLen]
          rw [loop_length (findMax (.bytes c s :: l)) (fun (o : Obj) => o.chars ++ List.replicate (findMax (.bytes c s :: l) - o.chars.length) 0)
            (bytesLoop _) (fun _ _ => rfl) (fun _ _ _ _ => rfl)]
          simp
      | str c s =>
        simp only [convertStr, HasLen]
        rw [loop_length (findMax (.str c s :: l)) (strPut _) (strLoop _) (fun _ _ => rfl) (fun _ _ _ _ => rfl)]
        simp
      | other c => simp [HasLen]
    · simp [HasLen]

example : asArray false (fun _ => 7) [.int 0 3, .int 0 (-5)] = .ints 64 [3, -5] := by decide
example : asArray true (fun _ => 7) [.int 0 3, .int 0 (-5)] = .ints 32 [3, -5] := by decide
example : asArray true (fun _ => 7) [.int 0 3, .int 0 (2 ^ 31)] = .ints 64 [3, 2 ^ 31] := by decide
example : asArray false (fun _ => 7) [.int 0 3, .bool true] = .numpy := by decide
example : asArray false (fun _ => 7) [.bool false, .bool true] = .bools [false, true] := by decide
example : asArray false (fun _ => 7) [.bytes 0 [97], .bytes 0 [98, 99, 100]] = .bytes 3 [97, 0, 0, 98, 99, 100] := by decide
example : asArray false (fun _ => 7) [.str 0 [97, 98], .str 0 [98, 99, 100]] = .strs 3 [97, 98, 0, 98, 99, 100] := by decide

/-- C107: an empty list gives an empty array of doubles. -/
theorem as_array_empty (long4 : Bool) (junk : Nat → Nat) : asArray long4 junk [] = .floats [] := rfl

/-- C107 does not hold for texts which are shorter than the longest one by two characters: the memory behind them shows; … -/
theorem as_array_text_wrong : ∃ a, asArray false (fun _ => 120) [.str 0 [97], .str 0 [98, 99, 100]] = a ∧
    ¬ Right a [.str 0 [97], .str 0 [98, 99, 100]] := by
  refine ⟨_, rfl, ?_⟩
  rintro (h | h)
  · exact absurd h (by decide)
  · have := h 0 _ rfl
    revert this
    show ¬ strip _ = strip _
    decide

/-- … for an integer that does not fit into 64 bits, which becomes -1, … -/
theorem as_array_overflow_wrong : asArray false (fun _ => 0) [.int 0 (2 ^ 63)] = .ints 64 [-1] := by decide

/-- … and for several empty bytes objects, of which all but the first are what was in memory. -/
theorem as_array_empty_bytes_wrong : asArray false (fun _ => 120) [.bytes 0 [], .bytes 0 []] = .bytes 1 [0, 120] := by decide

/-- C107: scalars get one dimension, and their bytes are kept. -/
theorem finish_scalar (bytes : List Nat) (item : Nat) (h : bytes.length = item) : finishArray [] bytes item = ([1], bytes) := by
  unfold finishArray
  rw [if_pos rfl, List.take_of_length_le (by omega)]

example : finishArray [] [1, 2, 3, 4] 4 = ([1], [1, 2, 3, 4]) := by decide
example : finishArray [2] [1, 2, 3, 4] 2 = ([2], [1, 2, 3, 4]) := by decide

end Riptide.AsArray
