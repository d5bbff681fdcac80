import Verif.Hash.MemberProps
import Verif.Hash.StrMember
import Verif.Str.Props
/-! # ismember on strings (C12) -/
namespace Riptide.Hash
open Spec Riptide.Work Riptide.Str Riptide.Str.Spec

theorem content_eq_hashed {s : List Nat} (h : NoInnerNul s) : content s = hashedPart s := by
  unfold hashedPart
  induction s with
  | nil => rfl
  | cons x xs ih =>
    by_cases hx : x = 0
    · subst hx; rw [content_nil_of_zero h]; rfl
    · rw [content_cons, if_neg (by simp [hx]), ih (noInner_tail h)]
      simp [hx]

/-- Contents determine a string of given width. -/
theorem content_inj : ∀ {a b : List Nat}, a.length = b.length → content a = content b → a = b
  | [], [], _, _ => rfl
  | [], _ :: _, h, _ => by simp at h
  | _ :: _, [], h, _ => by simp at h
  | x :: xs, y :: ys, hl, h => by
    have hl' : xs.length = ys.length := by simpa using hl
    have ih := @content_inj xs ys hl'
    rw [content_cons, content_cons] at h
    by_cases h1 : x = 0 ∧ content xs = [] <;> by_cases h2 : y = 0 ∧ content ys = []
    · rw [h1.1, h2.1, ih (h1.2.trans h2.2.symm)]
    · rw [if_pos h1, if_neg h2] at h; simp at h
    · rw [if_neg h1, if_pos h2] at h; simp at h
    · rw [if_neg h1, if_neg h2] at h
      injection h with e1 e2
      rw [e1, ih e2]

theorem match2_iff : ∀ {a b : List Nat}, NoInnerNul a → NoInnerNul b → a.length ≠ b.length →
    (match2 a b = true ↔ content a = content b)
  | [], [], _, _, h => absurd rfl h
  | [], y :: ys, _, hb, _ => by
    unfold match2
    by_cases hy : y = 0
    · subst hy; rw [content_nil_of_zero hb]; simp [content]
    · rw [content_cons, if_neg (by simp [hy])]; simp [hy, content]
  | x :: xs, [], ha, _, _ => by
    unfold match2
    by_cases hx : x = 0
    · subst hx; rw [content_nil_of_zero ha]; simp [content]
    · rw [content_cons, if_neg (by simp [hx])]; simp [hx, content]
  | x :: xs, y :: ys, ha, hb, hl => by
    have ih := match2_iff (noInner_tail ha) (noInner_tail hb) (by simpa using hl)
    unfold match2
    simp only [Bool.and_eq_true, decide_eq_true_eq, ih]
    by_cases hx : x = 0
    · subst hx
      rw [content_nil_of_zero ha]
      by_cases hy : y = 0
      · subst hy
        rw [content_nil_of_zero hb]
        have za : content xs = [] := by
          have := content_nil_of_zero ha; rw [content_cons] at this
          by_cases hc : content xs = []
          · exact hc
          · rw [if_neg (by simp [hc])] at this; simp at this
        have zb : content ys = [] := by
          have := content_nil_of_zero hb; rw [content_cons] at this
          by_cases hc : content ys = []
          · exact hc
          · rw [if_neg (by simp [hc])] at this; simp at this
        simp [za, zb]
      · rw [content_cons, if_neg (by simp [hy])]
        simp; intro h; exact absurd h.symm hy
    · rw [content_cons, if_neg (by simp [hx])]
      by_cases hy : y = 0
      · subst hy; rw [content_nil_of_zero hb]; simp [hx]
      · rw [content_cons, if_neg (by simp [hy])]; simp

/-- The strings for which matching is comparison of contents: one common width, or nothing after the
first NUL. -/
theorem strMatch_iff {a b : List Nat} (h : a.length = b.length ∨ (NoInnerNul a ∧ NoInnerNul b)) :
    strMatch a b = true ↔ content a = content b := by
  unfold strMatch
  by_cases hl : a.length = b.length
  · rw [if_pos hl]
    simp only [decide_eq_true_eq]
    exact ⟨fun e => by rw [e], content_inj hl⟩
  · rw [if_neg hl]
    exact match2_iff (h.resolve_left hl).1 (h.resolve_left hl).2 hl

theorem laws_str (H : List Nat → Nat) (size : Nat) (hs : 0 < size) (P : List Nat → Prop)
    (hP : ∀ a b, P a → P b → a.length = b.length ∨ (NoInnerNul a ∧ NoInnerNul b)) :
    Laws P (strHash H size) strMatch size where
  refl := fun a ha => (strMatch_iff (hP a a ha ha)).mpr rfl
  symm := fun a b ha hb h => (strMatch_iff (hP b a hb ha)).mpr ((strMatch_iff (hP a b ha hb)).mp h).symm
  trans := fun a b c ha hb hc h1 h2 => (strMatch_iff (hP a c ha hc)).mpr
    (((strMatch_iff (hP a b ha hb)).mp h1).trans ((strMatch_iff (hP b c hb hc)).mp h2))
  hashEq := by
    intro a b ha hb h
    have hc := (strMatch_iff (hP a b ha hb)).mp h
    rcases hP a b ha hb with hl | ⟨h1, h2⟩
    · rw [content_inj hl hc]
    · unfold strHash; rw [← content_eq_hashed h1, ← content_eq_hashed h2, hc]
  range := fun a _ => by
    unfold strHash
    exact Nat.lt_of_le_of_lt Nat.and_le_right (by omega)

theorem isMemberStr_exact (H : List Nat → Nat) (size : Nat) (a b : List (List Nat)) (P : List Nat → Prop)
    (hP : ∀ a b, P a → P b → a.length = b.length ∨ (NoInnerNul a ∧ NoInnerNul b))
    (ha : ∀ x ∈ a, P x) (hb : ∀ x ∈ b, P x)
    (hroom : distinct strMatch b < size) (hlen : b.length ≤ 2 ^ 63) :
    ∃ out : List (Bool × Int), isMemberStr H size a b = some (out.map some) ∧ out.length = a.length ∧
      ∀ (i : Nat) x r, a[i]? = some x → out[i]? = some r →
        IsAnswer (fun y => y ∈ b ∧ content y = content x) b (indexType b.length).inv r.1 r.2 := by
  have hf : b.filter (fun _ => true) = b := by simp
  obtain ⟨out, h1, h2, h3⟩ := isMember_exact (fun _ => true) (strHash H size) strMatch size
    (laws_str H size (by omega) P hP) a b (fun x hx _ => ha x hx) (fun x hx _ => hb x hx)
    (by rw [hf]; exact hroom) hlen (workers := 0) (nt := true) (par := none) (.direct (.inr rfl))
  refine ⟨out, h1, h2, fun i x r hx hr => ?_⟩
  have hxa := ha x (List.mem_of_getElem? hx)
  rcases h3 i x r hx hr with ⟨e1, j, e2, ⟨⟨y, hy, hsame⟩, hmin⟩⟩ | ⟨e1, e2, e3⟩
  · refine .inl ⟨e1, j, e2, ⟨y, hy, List.mem_of_getElem? hy, ?_⟩, fun i' y' hlt hy' hs' => ?_⟩
    · exact (strMatch_iff (hP y x (hb y (List.mem_of_getElem? hy)) hxa)).mp hsame.2.2
    · exact hmin i' y' hlt hy' ⟨rfl, rfl, (strMatch_iff (hP y' x (hb y' hs'.1) hxa)).mpr hs'.2⟩
  · exact .inr ⟨e1, e2, fun y hy hs' => e3 y hy ⟨rfl, rfl,
      (strMatch_iff (hP y x (hb y hy) hxa)).mpr hs'.2⟩⟩

/-- **C12**, strings of the same width: exact for all strings, inner NULs included. -/
theorem ismember_str_same_width (w : Nat) (H : List Nat → Nat) (size : Nat) (a b : List (List Nat))
    (ha : ∀ x ∈ a, x.length = w) (hb : ∀ x ∈ b, x.length = w)
    (hroom : distinct strMatch b < size) (hlen : b.length ≤ 2 ^ 63) :
    ∃ out : List (Bool × Int), isMemberStr H size a b = some (out.map some) ∧ out.length = a.length ∧
      ∀ (i : Nat) x r, a[i]? = some x → out[i]? = some r →
        IsAnswer (fun y => y ∈ b ∧ content y = content x) b (indexType b.length).inv r.1 r.2 :=
  isMemberStr_exact H size a b (fun x => x.length = w) (fun _ _ h1 h2 => .inl (h1.trans h2.symm)) ha hb
    hroom hlen

/-- **C12**, any two widths: membership is equality of the contents (trailing NULs removed), with the
first matching position, for every hash function — *for strings without a NUL inside*.  What is missing:
strings with inner NULs in arrays of different widths (`inner_nul_matches_prefix`). -/
theorem ismember_str_partial (H : List Nat → Nat) (size : Nat) (a b : List (List Nat))
    (ha : ∀ x ∈ a, NoInnerNul x) (hb : ∀ x ∈ b, NoInnerNul x)
    (hroom : distinct strMatch b < size) (hlen : b.length ≤ 2 ^ 63) :
    ∃ out : List (Bool × Int), isMemberStr H size a b = some (out.map some) ∧ out.length = a.length ∧
      ∀ (i : Nat) x r, a[i]? = some x → out[i]? = some r →
        IsAnswer (fun y => y ∈ b ∧ content y = content x) b (indexType b.length).inv r.1 r.2 :=
  isMemberStr_exact H size a b NoInnerNul (fun _ _ h1 h2 => .inr ⟨h1, h2⟩) ha hb hroom hlen

/-- `["ab", "c"]` as width 2 looked up in `["c", "x", "ab"]` as width 4, all in one bucket. -/
example : isMemberStr (fun _ => 0) 8 [[97, 98], [99, 0], [100, 0]]
    [[99, 0, 0, 0], [120, 0, 0, 0], [97, 98, 0, 0]] =
    some [some (true, 2), some (true, 0), some (false, -128)] := by decide +kernel

/-- **C12** is false with a NUL inside: `"a\0b"` is reported as a member of `["a"]` when the widths
differ (only `"a"` is hashed, and only one character after the shorter string is compared), and not
when they are the same. -/
theorem inner_nul_matches_prefix :
    content [97, 0, 98] ≠ content [97] ∧
    isMemberStr List.sum 53 [[97, 0, 98]] [[97]] = some [some (true, 0)] ∧
    isMemberStr List.sum 53 [[97, 0, 98]] [[97, 0, 0]] = some [some (false, -128)] := by
  decide +kernel

/-- **C12**, categorical lookup: every element gets one more than the first position of an equal
string, or 0, and the flag says whether some element got 0; for every schedule.  Same guard. -/
theorem ismember_str_categorical_partial (t : IT) (ht : t = .i32 ∨ t = .i64) (H : List Nat → Nat) (size : Nat)
    (a b : List (List Nat)) (ha : ∀ x ∈ a, NoInnerNul x) (hb : ∀ x ∈ b, NoInnerNul x)
    (hroom : distinct strMatch b < size) (hlen : b.length < 2 ^ (t.bits - 1))
    {workers : Nat} {nt : Bool} {par : Option (List Nat)} (hs : ChunkSched workers a.length nt par) :
    ∃ (out : List Int) (missed : Bool), isMemberStrCat t H size a b par = some (out.map some, missed) ∧
      out.length = a.length ∧
      (∀ (i : Nat) x r, a[i]? = some x → out[i]? = some r →
        (∃ j : Nat, r = (j : Int) + 1 ∧ FirstAt (fun y => y ∈ b ∧ content y = content x) b j) ∨
        (r = 0 ∧ ∀ y ∈ b, content y ≠ content x)) ∧
      (missed = true ↔ ∃ x ∈ a, ∀ y ∈ b, content y ≠ content x) := by
  have L := laws_str H size (by omega) NoInnerNul (fun _ _ h1 h2 => .inr ⟨h1, h2⟩)
  have hf : b.filter (fun _ => true) = b := by simp
  obtain ⟨tb, e, B⟩ := insertAll_spec (ins := fun _ => true) (val := fun i : Nat => t.wrap (i : Int)) L b []
    (fresh _ Int size) (built_fresh NoInnerNul (fun _ => true) (strHash H size) strMatch _ size)
    (fun x hx _ => hb x (by simpa using hx)) (by simpa [hf] using hroom)
  let ans : List Nat → Int := fun x =>
    match b.findIdx? (fun y => true && strMatch y x) with
    | some j => (j : Int) + 1
    | none => 0
  have hwrap : ∀ j, j < b.length → t.wrap (j : Int) = (j : Int) := by
    intro j hj
    rcases ht with rfl | rfl
    all_goals
      apply IT.wrap_of_inRange _ (by decide)
      simp only [IT.InRange, IT.lo, IT.hi, IT.i32, IT.i64] at *
      simp at *
      omega
  have hone : ∀ x ∈ a, catOne (strHash H size) strMatch tb x = some (ans x) := by
    intro x hx
    unfold catOne
    rw [built_find L B (by simpa [hf] using hroom) x (ha x hx)]
    simp only [List.nil_append, ans]
    cases hfi : b.findIdx? (fun y => true && strMatch y x) with
    | none => rfl
    | some j =>
      simp only [Option.map_some]
      rw [hwrap j (List.findIdx?_eq_some_iff_getElem.mp hfi).1]
  have hiff : ∀ x ∈ a, ∀ y ∈ b, (true && strMatch y x) = true ↔ (y ∈ b ∧ content y = content x) := by
    intro x hx y hy
    rw [Bool.true_and, strMatch_iff (.inr ⟨hb y hy, ha x hx⟩)]
    exact ⟨fun h => ⟨hy, h⟩, fun h => h.2⟩
  have hans : ∀ x ∈ a, (∃ j : Nat, ans x = (j : Int) + 1 ∧ FirstAt (fun y => y ∈ b ∧ content y = content x) b j) ∨
        (ans x = 0 ∧ ∀ y ∈ b, content y ≠ content x) := by
    intro x hx
    simp only [ans]
    cases hfi : b.findIdx? (fun y => true && strMatch y x) with
    | none =>
      right
      have := findIdx?_none (hiff x hx) hfi
      exact ⟨rfl, fun y hy hc => this y hy ⟨hy, hc⟩⟩
    | some j => exact .inl ⟨j, rfl, findIdx?_firstAt (hiff x hx) hfi⟩
  refine ⟨a.map ans, a.any fun x => decide (ans x = 0), ?_, by simp, ?_, ?_⟩
  · have e' : insertAll (fun _ => true) (strHash H size) strMatch (fun i : Nat => t.wrap (i : Int)) 0 b
        (fresh _ Int size) = .ok tb := e
    unfold isMemberStrCat
    rw [e']
    dsimp only
    have := elemWork_exact (n := a.length) (fun i => (a[i]?).bind
        (catOne (strHash H size) strMatch tb)) (fun i => ans (a.getD i []))
        (fun i hi => by
          rw [List.getElem?_eq_getElem hi, Option.bind_some, hone _ (List.getElem_mem hi)]
          simp [hi]) hs
    rw [this]
    simp only [Option.map_some, Option.some.injEq, Prod.mk.injEq]
    constructor
    · congr 1
      apply List.ext_getElem?
      intro i
      by_cases hi : i < a.length
      · simp [hi]
      · rw [List.getElem?_eq_none (by simp; omega), List.getElem?_eq_none (by simp; omega)]
    · rw [Bool.eq_iff_iff, List.any_eq_true, List.any_eq_true]
      constructor
      · rintro ⟨x, hx, h⟩; exact ⟨x, hx, by rw [hone x hx] at h; simpa using h⟩
      · rintro ⟨x, hx, h⟩; exact ⟨x, hx, by rw [hone x hx]; simpa using h⟩
  · intro i x r hx hr
    rw [List.getElem?_map, hx] at hr
    simp only [Option.map_some, Option.some.injEq] at hr
    subst hr
    exact hans x (List.mem_of_getElem? hx)
  · rw [List.any_eq_true]
    constructor
    · rintro ⟨x, hx, h⟩
      rcases hans x hx with ⟨j, hj, _⟩ | ⟨_, h'⟩
      · have : ans x = 0 := by simpa using h
        omega
      · exact ⟨x, hx, h'⟩
    · rintro ⟨x, hx, h⟩
      refine ⟨x, hx, ?_⟩
      rcases hans x hx with ⟨j, _, ⟨y, hy, hm⟩, _⟩ | ⟨h', _⟩
      · exact absurd hm.2 (h y hm.1)
      · simpa using h'

example : isMemberStrCat .i32 List.sum 53 [[97, 0], [98, 0]] [[98], [97]] none =
    some ([some 2, some 1], false) ∧
    isMemberStrCat .i32 List.sum 53 [[97, 0], [99, 0]] [[98], [97]] none =
    some ([some 2, some 0], true) := by decide +kernel

end Riptide.Hash
