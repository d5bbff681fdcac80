import Verif.Hash.MemberProps
/-! # ismember on floats (C10) -/
namespace Riptide.Hash
open Spec Riptide.Work

theorem pattern_split (f : FT) {x : Nat} (h : f.Ok x) :
    x = f.mag x + if f.neg x = true then 2 ^ (f.eb + f.mb) else 0 := by
  unfold FT.Ok at h
  rw [show 1 + f.eb + f.mb = (f.eb + f.mb) + 1 by omega, Nat.pow_succ] at h
  unfold FT.mag FT.neg
  by_cases hn : 2 ^ (f.eb + f.mb) ≤ x
  · rw [if_pos (by simpa using hn), Nat.mod_eq_sub_mod hn, Nat.mod_eq_of_lt (by omega)]; omega
  · rw [if_neg (by simpa using hn), Nat.mod_eq_of_lt (by omega)]; omega

/-- The comparison used by the table is numeric equality. -/
theorem eq_iff_same (f : FT) {x y : Nat} (hx : f.Ok x) (hy : f.Ok y) : f.eq x y = true ↔ SameFloat f x y := by
  have ex := pattern_split f hx
  have ey := pattern_split f hy
  unfold FT.eq SameFloat FT.isNan
  simp only [Bool.and_eq_true, Bool.not_eq_true', decide_eq_false_iff_not, decide_eq_true_eq]
  unfold FT.mag at *
  constructor
  · rintro ⟨⟨h1, h2⟩, h3⟩
    refine ⟨h1, h2, ?_⟩
    unfold FT.key FT.mag at h3
    generalize x % 2 ^ (f.eb + f.mb) = mx at *
    generalize y % 2 ^ (f.eb + f.mb) = my at *
    generalize 2 ^ (f.eb + f.mb) = T at *
    revert ex ey h3
    cases f.neg x <;> cases f.neg y <;> (intro ex ey h3; simp at ex ey h3; omega)
  · rintro ⟨h1, h2, h3⟩
    refine ⟨⟨h1, h2⟩, ?_⟩
    rcases h3 with rfl | ⟨h3, h4⟩
    · rfl
    · unfold FT.key FT.mag
      rw [h3, h4]; simp

theorem same_of_no_zero (f : FT) {z x y : Nat} (hz : IsZero f z) (hx : f.Ok x) (hy : f.Ok y) (zx : x ≠ z)
    (zy : y ≠ z) (h : SameFloat f x y) : x = y := by
  obtain ⟨_, _, h | ⟨h1, h2⟩⟩ := h
  · exact h
  · have ex := pattern_split f hx
    have ey := pattern_split f hy
    unfold FT.mag at ex ey
    rw [h1] at ex; rw [h2] at ey
    rcases hz with hz | hz
    all_goals
      repeat' split at ex
      all_goals
        repeat' split at ey
        all_goals omega

theorem laws_float (f : FT) (hash : Nat → Nat) (size z : Nat) (hz : IsZero f z)
    (hr : ∀ x, hash x < size) :
    Laws (fun x => f.Ok x ∧ f.isNan x = false ∧ x ≠ z) hash f.eq size where
  refl := by intro a h; simp [FT.eq, h.2.1]
  symm := by
    intro a b ha hb h
    unfold FT.eq at *
    simp only [Bool.and_eq_true, decide_eq_true_eq] at *
    exact ⟨⟨h.1.2, h.1.1⟩, h.2.symm⟩
  trans := by
    intro a b c ha hb hc h1 h2
    unfold FT.eq at *
    simp only [Bool.and_eq_true, decide_eq_true_eq] at *
    exact ⟨⟨h1.1.1, h2.1.2⟩, h1.2.trans h2.2⟩
  hashEq := by
    intro a b ha hb h
    rw [same_of_no_zero f hz ha.1 hb.1 ha.2.2 hb.2.2 ((eq_iff_same f ha.1 hb.1).mp h)]
  range := fun a _ => hr a

/-- **C10**, for every hash of the bit pattern and every schedule: membership is numeric equality, with
the first matching position, and NaN is never a member — *provided zeros of only one sign occur* in the
two arrays.  What is missing: `+0.0` and `-0.0` together (`signed_zeros_not_found`). -/
theorem ismember_float_partial (f : FT) (hash : Nat → Nat) (size : Nat) (hr : ∀ x, hash x < size)
    (a b : List Nat) (ha : ∀ x ∈ a, f.Ok x) (hb : ∀ x ∈ b, f.Ok x)
    (z : Nat) (hz : IsZero f z) (hza : z ∉ a) (hzb : z ∉ b)
    (hroom : distinct f.eq (b.filter (fun x => f.eq x x)) < size) (hlen : b.length ≤ 2 ^ 63)
    {workers : Nat} {nt : Bool} {par : Option (List Nat)} (hs : ChunkSched workers a.length nt par) :
    ∃ out : List (Bool × Int), isMemberFloat f hash size a b par = some (out.map some) ∧
      out.length = a.length ∧
      ∀ (i : Nat) x r, a[i]? = some x → out[i]? = some r →
        IsAnswer (fun y => y ∈ b ∧ SameFloat f y x) b (indexType b.length).inv r.1 r.2 := by
  have hself : ∀ x, f.eq x x = true → f.isNan x = false := by
    intro x h; unfold FT.eq at h; simp at h; exact h
  obtain ⟨out, h1, h2, h3⟩ := isMember_exact (fun x => f.eq x x) hash f.eq size (laws_float f hash size z hz hr)
    a b (fun x hx hi => ⟨ha x hx, hself x hi, fun e => hza (e ▸ hx)⟩)
    (fun x hx hi => ⟨hb x hx, hself x hi, fun e => hzb (e ▸ hx)⟩) hroom hlen hs
  refine ⟨out, h1, h2, fun i x r hx hr' => ?_⟩
  have hxa : x ∈ a := List.mem_of_getElem? hx
  have hiff : ∀ y ∈ b, (f.eq x x = true ∧ f.eq y y = true ∧ f.eq y x = true) ↔ (y ∈ b ∧ SameFloat f y x) := by
    intro y hy
    constructor
    · exact fun h => ⟨hy, (eq_iff_same f (hb y hy) (ha x hxa)).mp h.2.2⟩
    · intro h
      have h' := (eq_iff_same f (hb y hy) (ha x hxa)).mpr h.2
      refine ⟨?_, ?_, h'⟩
      · unfold FT.eq at *; simp at *; exact h'.1.2
      · unfold FT.eq at *; simp at *; exact h'.1.1
  rcases h3 i x r hx hr' with ⟨e1, j, e2, ⟨⟨y, hy, hsame⟩, hmin⟩⟩ | ⟨e1, e2, e3⟩
  · refine .inl ⟨e1, j, e2, ⟨y, hy, (hiff y (List.mem_of_getElem? hy)).mp hsame⟩, fun i' y' hlt hy' hs' => ?_⟩
    exact hmin i' y' hlt hy' ((hiff y' (List.mem_of_getElem? hy')).mpr hs')
  · exact .inr ⟨e1, e2, fun y hy hs' => e3 y hy ((hiff y hy).mpr hs')⟩

/-- NaN is never a member, whatever else is in the arrays. -/
theorem nan_never_member (f : FT) (hash : Nat → Nat) (bad : Int) (tbl : Slots Nat Int) (x : Nat)
    (h : f.isNan x = true) : memberOne (fun x => f.eq x x) hash f.eq bad tbl x = some (false, bad) := by
  unfold memberOne
  rw [if_neg (by simp [FT.eq, h])]

/-- `1.5` twice, a NaN on both sides, `-0.0` on both sides. -/
example : isMemberFloat .f32 (hashFloatPrime 20 53) 53 [0x3FC00000, 0x7FC00000, 0x80000000, 0x40000000]
    [0x80000000, 0x7FC00000, 0x3FC00000, 0x3FC00000] none =
    some [some (true, 2), some (false, -128), some (true, 0), some (false, -128)] := by decide +kernel

/-- **C10** is false: `-0.0` is not found in `[+0.0]`, because the two equal numbers hash to different
slots (prime mode, the size chosen for one key, both float widths). -/
theorem signed_zeros_not_found :
    allocSize .prime 1 true = some 53 ∧
    FT.f64.eq (2 ^ 63) 0 = true ∧
    isMemberFloat .f64 (hashFloatPrime 32 53) 53 [2 ^ 63] [0] none = some [some (false, -128)] ∧
    isMemberFloat .f32 (hashFloatPrime 20 53) 53 [2 ^ 31] [0] none = some [some (false, -128)] := by
  decide +kernel

end Riptide.Hash
