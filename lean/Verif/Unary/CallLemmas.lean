import Verif.Unary.CallSpec
import Verif.Unary.SignProps
import Verif.Unary.MathProps
import Verif.Unary.TwoDimProps
import Verif.Arrays.StackCallLemmas
/-! Kernels of operations on one array, and how a call puts them together. -/
namespace Riptide.Unary.Call
open Riptide.Nums Riptide.Binary Riptide.Work
open Riptide.Convert.Call.Spec (whole real size)
open Riptide.Nums.Stack.Spec (Value HasVal)
open Riptide.GroupBy.Entry (CT ctOf)
open Riptide.Unary.Call.Spec

/-- What a kernel gives for each of the values, whether it comes to it with registers or not. -/
def Rows (call : Kern) (xs : List Int) (R : Int → Int → Prop) : Prop :=
  ∃ (v g : Int → Int) (w : Nat), 0 < w ∧ w ∣ chunk ∧
    (∀ wide ys, (∀ y ∈ ys, y ∈ xs) → call wide ys = some (outRows v g (wideRows w wide ys.length) ys)) ∧ ∀ x ∈ xs, R x (v x) ∧ R x (g x)

theorem outRows_map {α β γ δ : Type} (p : γ → α) (q : β → δ) (v g : α → β) (m : Nat) (xs : List γ) :
    (outRows v g m (xs.map p)).map q = outRows (fun x => q (v (p x))) (fun x => q (g (p x))) m xs := by
  apply List.ext_getElem?
  intro i
  rw [List.getElem?_map, outRows_getElem?, outRows_getElem?, List.getElem?_map]
  cases xs[i]? with
  | none => rfl
  | some x => by_cases h : i < m <;> simp [h]

theorem rows_slow {s : Int → Option Int} {xs : List Int} {R : Int → Int → Prop} (g : Int → Int) (hs : ∀ x ∈ xs, s x = some (g x)) (hR : ∀ x ∈ xs, R x (g x)) :
    Rows (fun _ => slowCall s) xs R := by
  refine ⟨g, g, 1, by decide, Nat.one_dvd _, fun wide ys hy => ?_, fun x hx => ⟨hR x hx, hR x hx⟩⟩
  rw [outRows_same _ _ _ _ (fun _ _ => rfl)]
  exact mapM_some s g ys (fun y h => hs y (hy y h))

theorem rows_fast {vec : List Int → List Int} {s : Int → Option Int} {w : Nat} {xs : List Int} {R : Int → Int → Prop} (hw : 0 < w) (hc : w ∣ chunk) (v g : Int → Int)
    (hv : ∀ l : List Int, l.length = w → vec l = l.map v) (hs : ∀ x ∈ xs, s x = some (g x)) (hR : ∀ x ∈ xs, R x (v x) ∧ R x (g x)) :
    Rows (fastCall vec s w) xs R :=
  ⟨v, g, w, hw, hc, fun wide ys hy => fastCall_eq hv wide ys (fun y h => hs y (hy y h)), hR⟩

theorem rows_fastNat {vec : List Nat → List Nat} {w : Nat} {xs : List Int} {R : Int → Int → Prop} (hw : 0 < w) (hc : w ∣ chunk) (v g : Nat → Nat)
    (hv : ∀ l : List Nat, l.length = w → vec l = l.map v) (hR : ∀ x ∈ xs, R x (v x.toNat) ∧ R x (g x.toNat)) :
    Rows (fun wide => viaNat (fastCall vec (fun b => some (g b)) w wide)) xs R := by
  refine ⟨fun x => v x.toNat, fun x => g x.toNat, w, hw, hc, fun wide ys _ => ?_, hR⟩
  show (fastCall vec (fun b => some (g b)) w wide (ys.map Int.toNat)).map _ = _
  rw [fastCall_eq (g := g) hv wide _ (fun _ _ => rfl), Option.map_some, outRows_map, List.length_map]

theorem rows_slowNat {xs : List Int} {R : Int → Int → Prop} (g : Nat → Nat) (hR : ∀ x ∈ xs, R x (g x.toNat)) :
    Rows (fun _ => viaNat (slowCall fun b => some (g b))) xs R := by
  refine ⟨fun x => g x.toNat, fun x => g x.toNat, 1, by decide, Nat.one_dvd _, fun wide ys _ => ?_, fun x hx => ⟨hR x hx, hR x hx⟩⟩
  rw [outRows_same _ _ _ _ (fun _ _ => rfl)]
  show ((ys.map Int.toNat).mapM (fun b => some (g b))).map _ = _
  rw [mapM_some _ g _ (fun _ _ => rfl), Option.map_some, List.map_map, List.map_map]
  rfl

/-- Which of the kernels is taken. -/
theorem byType_cases {ty : Nat} {i : IT → Option Kern} {f : FT → Option Kern} {long bool text : Option Kern} {K : Kern} (h : byType ty i f long bool text = some K) :
    (∃ t, whole ty = some t ∧ i t = some K) ∨ (whole ty = none ∧ ∃ r, real ty = some r ∧ f r = some K) ∨ (ty = 13 ∧ long = some K) ∨ (ty = 0 ∧ bool = some K) ∨
      ((ty = 18 ∨ ty = 19) ∧ text = some K) := by
  by_cases h13 : ty ≤ 13
  · have : ty ∈ List.range 14 := List.mem_range.mpr (by omega)
    simp only [List.range, List.range.loop, List.mem_cons, List.not_mem_nil, or_false] at this
    rcases this with rfl | rfl | rfl | rfl | rfl | rfl | rfl | rfl | rfl | rfl | rfl | rfl | rfl | rfl
    · exact .inr (.inr (.inr (.inl ⟨rfl, h⟩)))
    iterate 10 exact .inl ⟨_, rfl, h⟩
    iterate 2 exact .inr (.inl ⟨rfl, _, rfl, h⟩)
    exact .inr (.inr (.inl ⟨rfl, h⟩))
  · have hn : ctOf ty = none := by unfold ctOf; split <;> first | omega | rfl
    unfold byType at h
    rw [hn] at h
    simp only at h
    split at h
    · next hc => exact .inr (.inr (.inr (.inr ⟨hc, h⟩)))
    · exact absurd h (by simp)

theorem whole_not (ty : Nat) (h : ty = 13 ∨ ty = 0 ∨ ty = 18 ∨ ty = 19) : whole ty = none ∧ real ty = none := by
  rcases h with rfl | rfl | rfl | rfl <;> exact ⟨rfl, rfl⟩

theorem whole_signed {ty : Nat} {t : IT} (h : whole ty = some t) (hs : t.signed = true) : Signed t := by
  unfold whole at h
  split at h
  · next hc =>
    have : ty ∈ List.range 11 := List.mem_range.mpr (by omega)
    simp only [List.range, List.range.loop, List.mem_cons, List.not_mem_nil, or_false] at this
    injection h with h
    subst h
    rcases this with rfl | rfl | rfl | rfl | rfl | rfl | rfl | rfl | rfl | rfl | rfl <;> first
      | (exfalso; revert hs; decide) | exact .inl rfl | exact .inr (.inl rfl) | exact .inr (.inr (.inl rfl)) | exact .inr (.inr (.inr rfl)) | (exfalso; omega)
  · exact absurd h (by simp)

theorem whole_bits {ty : Nat} {t : IT} (h : whole ty = some t) : 0 < t.bits := by
  unfold whole at h
  split at h
  · injection h with h
    subst h
    dsimp only
    split
    · decide
    · split
      · decide
      · split <;> decide
  · exact absurd h (by simp)

theorem real_fmt {ty : Nat} {f : FT} (h : real ty = some f) : Fmt f := by
  unfold real at h
  split at h
  · injection h with h; exact .inl h.symm
  · split at h
    · injection h with h; exact .inr h.symm
    · exact absurd h (by simp)

theorem rows_absInt {t : IT} (ht : Signed t) {xs : List Int} (hx : ∀ x ∈ xs, t.InRange x) (hd : ∀ x ∈ xs, t.bits < 32 ∨ x ≠ t.lo) :
    Rows (absCallI t) xs (fun x y => y = Unary.Spec.abs t x) := by
  obtain ⟨h1, h2, h3, -⟩ := ht.facts
  by_cases hb : t.bits = 64
  · have e : absCallI t = fun _ => slowCall (absI t) := by funext wide; unfold absCallI; rw [if_pos hb]
    rw [e]
    exact rows_slow (Unary.Spec.abs t) (fun x h => absI_eq ht (hx x h) (hd x h)) (fun _ _ => rfl)
  · have e : absCallI t = fastCall (absIV t) (absI t) (256 / t.bits) := by funext wide; unfold absCallI; rw [if_neg hb]
    rw [e]
    exact rows_fast h2 h3 (fun x => t.wrap x.natAbs) (Unary.Spec.abs t) (fun l _ => rfl) (fun x h => absI_eq ht (hx x h) (hd x h))
      (fun x h => ⟨absV_eq ht (hx x h), rfl⟩)

theorem rows_negInt {t : IT} (ht : Signed t) {xs : List Int} (hx : ∀ x ∈ xs, t.InRange x) (hd : ∀ x ∈ xs, t.bits < 32 ∨ x ≠ t.lo) :
    Rows (negCallI t) xs (fun x y => y = Unary.Spec.neg t x) := by
  obtain ⟨h1, h2, h3, -⟩ := ht.facts
  have e : negCallI t = fastCall (negIV t) (negI t) (256 / t.bits) := rfl
  rw [e]
  refine rows_fast h2 h3 (fun x => t.wrap (0 - x)) (Unary.Spec.neg t) (fun l _ => rfl) (fun x h => negI_eq ht (hx x h) (hd x h)) (fun x h => ⟨?_, rfl⟩)
  rw [Int.zero_sub]
  exact wrap_neg ht (hx x h)

theorem round_either {f : FT} (hf : Fmt f) (o : RoundOp) (way : Way) (hw : way = o.scalar ∨ way = o.vector) (x : Nat) (lib : Lib) :
    OfFloat lib f (.round o) x (roundF f way x) := by
  refine ⟨(round_special hf way).1, (round_special hf way).2, fun hfin => ?_⟩
  obtain ⟨n, h1, h2, h3⟩ := round_value hf way hfin
  refine ⟨n, h1, h2, ?_⟩
  cases o <;> rcases hw with rfl | rfl <;> first | exact h3 | exact h3.1

theorem boolByte_nat (b : Bool) : (((boolByte b).toNat : Nat) : Int) = if b then 1 else 0 := by cases b <;> rfl

theorem toNat_ofInt_bits {n : Nat} {x : Int} (h0 : 0 ≤ x) (h1 : x < 2 ^ n) : (BitVec.ofInt n x).toNat = x.toNat := by
  rw [BitVec.toNat_ofInt]
  have : ((2 ^ n : Nat) : Int) = 2 ^ n := by simp
  rw [this, Int.emod_eq_of_lt h0 h1]

theorem rows_test {f : FT} (hf : Fmt f) (t : Test) (xs : List Int) (hx : ∀ x ∈ xs, 0 ≤ x ∧ x < 2 ^ (1 + f.eb + f.mb)) :
    Rows (viaBits f t) xs (fun x y => y = if t.meaning (Unary.Spec.class_ f x.toNat) (f.neg x.toNat) then 1 else 0) := by
  obtain ⟨h1, h2, -⟩ := hf.facts
  let V : Int → Int := fun x => (((boolByte (testF f t (BitVec.ofInt (1 + f.eb + f.mb) x).toNat)).toNat : Nat) : Int)
  have hV : ∀ x ∈ xs, V x = if t.meaning (Unary.Spec.class_ f x.toNat) (f.neg x.toNat) then 1 else 0 := by
    intro x h
    show (((boolByte (testF f t (BitVec.ofInt (1 + f.eb + f.mb) x).toNat)).toNat : Nat) : Int) = _
    rw [boolByte_nat, toNat_ofInt_bits (hx x h).1 (hx x h).2, test_scalar hf]
  refine ⟨V, V, _, h1, h2, fun wide ys _ => ?_, fun x h => ⟨hV x h, hV x h⟩⟩
  show (testCall (n := 1 + f.eb + f.mb) f (256 / (1 + f.eb + f.mb)) t wide (ys.map _)).map _ = _
  cases ht : t.fast with
  | true =>
    have e : testCall (n := 1 + f.eb + f.mb) f (256 / (1 + f.eb + f.mb)) t wide (ys.map (BitVec.ofInt (1 + f.eb + f.mb))) =
        fastCall (testFV f (256 / (1 + f.eb + f.mb)) t) (fun a => some (boolByte (testF f t a.toNat))) (256 / (1 + f.eb + f.mb)) wide (ys.map (BitVec.ofInt (1 + f.eb + f.mb))) := by
      unfold testCall; rw [ht]; rfl
    rw [e, fastCall_eq (g := fun a => boolByte (testF f t a.toNat)) (fun l hl => test_vector hf rfl ht l hl) wide _ (fun _ _ => rfl), Option.map_some, outRows_map, List.length_map]
  | false =>
    have e : testCall (n := 1 + f.eb + f.mb) f (256 / (1 + f.eb + f.mb)) t wide (ys.map (BitVec.ofInt (1 + f.eb + f.mb))) =
        (ys.map (BitVec.ofInt (1 + f.eb + f.mb))).mapM (fun a => some (boolByte (testF f t a.toNat))) := by
      unfold testCall; rw [ht]; rfl
    rw [e, mapM_some (β := BitVec 8) _ (fun (a : BitVec (1 + f.eb + f.mb)) => boolByte (testF f t a.toNat)) _ (fun _ _ => rfl), Option.map_some, outRows_same _ _ _ _ (fun _ _ => rfl), List.map_map, List.map_map]
    rfl

theorem mathI_eq (fn : Nat → Nat) {t : IT} (ht : (mathType t).isSome = true) {x : Int} (hr : t.InRange x) (hlt : x < 2 ^ 63) : mathI fn t x = some (fn (FT.f64.ofInt x)) := by
  have hm : t = .i32 ∨ t = .u32 ∨ t = .i64 ∨ t = .u64 := by
    unfold mathType at ht
    split at ht
    · exact .inl ‹_›
    · split at ht
      · exact .inr (.inl ‹_›)
      · split at ht
        · exact .inr (.inr (.inl ‹_›))
        · split at ht
          · exact .inr (.inr (.inr ‹_›))
          · exact absurd ht (by decide)
  rcases hm with rfl | rfl | rfl | rfl
  · show some (fn (FT.f64.ofInt (IT.wrap .i32 x))) = _
    rw [IT.wrap_of_inRange _ (by decide) hr]
  · show some (fn (FT.f64.ofInt (IT.wrap .u32 x))) = _
    rw [IT.wrap_of_inRange _ (by decide) hr]
  · show some (fn (FT.f64.ofInt (IT.wrap .i64 x))) = _
    rw [IT.wrap_of_inRange _ (by decide) hr]
  · show some (fn (FT.f64.ofInt (IT.wrap .i64 x))) = _
    have h0 : (0 : Int) ≤ x := hr.1
    rw [IT.wrap_of_inRange .i64 (by decide) (show IT.InRange .i64 x from ⟨by show -(2 : Int) ^ 63 ≤ x; omega, by show x ≤ (2 : Int) ^ 63 - 1; omega⟩)]

theorem rows_math (fn : Nat → Nat) {t : IT} (ht : (mathType t).isSome = true) {xs : List Int} (hx : ∀ x ∈ xs, t.InRange x ∧ x < 2 ^ 63) :
    Rows (fun _ xs => (mathCall fn t xs).map fun l => l.map fun (n : Nat) => (n : Int)) xs (fun x y => y = fn (FT.f64.ofInt x)) := by
  refine ⟨fun x => fn (FT.f64.ofInt x), fun x => fn (FT.f64.ofInt x), 1, by decide, Nat.one_dvd _, fun wide ys hy => ?_, fun x _ => ⟨rfl, rfl⟩⟩
  show (ys.mapM (mathI fn t)).map _ = _
  rw [mapM_some _ (fun x => fn (FT.f64.ofInt x)) ys (fun y h => mathI_eq fn ht (hx y (hy y h)).1 (hx y (hy y h)).2), Option.map_some,
    outRows_same _ _ _ _ (fun _ _ => rfl), List.map_map]
  rfl

/-- Values of the type, and bytes for texts. -/
def Good (ty : Nat) (x : Int) : Prop := (ty ≤ 13 → Value ty x) ∧ (13 < ty → 0 ≤ x ∧ x < 256)

theorem answer_whole {lib : Lib} {op : Op} {ty : Nat} {t : IT} {x y : Int} (h : whole ty = some t) : Answer lib op ty x y = OfInt lib t op x y := by
  unfold Answer; rw [h]
theorem answer_real {lib : Lib} {op : Op} {ty : Nat} {f : FT} {x y : Int} (h : whole ty = none) (hr : real ty = some f) :
    Answer lib op ty x y = (0 ≤ y ∧ OfFloat lib f op x.toNat y.toNat) := by
  unfold Answer; rw [h, hr]
theorem answer_long {lib : Lib} {op : Op} {x y : Int} : Answer lib op 13 x y = (y = lib.long op x.toNat) := rfl
theorem answer_bool {lib : Lib} {op : Op} {x y : Int} : Answer lib op 0 x y = OfBool op x y := rfl
theorem answer_text {lib : Lib} {op : Op} {ty : Nat} {x y : Int} (h : ty = 18 ∨ ty = 19) : Answer lib op ty x y = OfText op x y := by
  rcases h with rfl | rfl <;> rfl

theorem rows_long (lib : Lib) (op : Op) (xs : List Int) : Rows (longK lib op) xs (Answer lib op 13) :=
  rows_slowNat (lib.long op) (fun _ _ => rfl)

theorem Rows.imp {call : Kern} {xs : List Int} {R Q : Int → Int → Prop} (h : Rows call xs R) (hi : ∀ x ∈ xs, ∀ y, R x y → Q x y) : Rows call xs Q := by
  obtain ⟨v, g, w, h1, h2, h3, h4⟩ := h
  exact ⟨v, g, w, h1, h2, h3, fun x hx => ⟨hi x hx _ (h4 x hx).1, hi x hx _ (h4 x hx).2⟩⟩

theorem Rows.of_eq {call k : Kern} {xs : List Int} {R : Int → Int → Prop} (e : some k = some call) (h : Rows k xs R) : Rows call xs R := Option.some.inj e ▸ h

theorem good_whole {ty : Nat} {t : IT} {x : Int} (h : whole ty = some t) (g : Good ty x) : t.InRange x := by
  have h13 : ty ≤ 13 := by
    unfold whole at h
    split at h
    · omega
    · exact absurd h (by simp)
  have := g.1 h13
  unfold Value at this
  rw [h] at this
  exact this

theorem good_real {ty : Nat} {f : FT} {x : Int} (hr : real ty = some f) (g : Good ty x) : 0 ≤ x ∧ x < 2 ^ (1 + f.eb + f.mb) := by
  unfold real at hr
  split at hr
  · next h => subst h; injection hr with hr; subst hr; exact g.1 (by decide)
  · split at hr
    · next h => subst h; injection hr with hr; subst hr; exact g.1 (by decide)
    · exact absurd hr (by simp)

/-- Kernels of signed integers, floats and `long double`. -/
theorem rows_arith {lib : Lib} {op : Op} {ty : Nat} {i : IT → Kern} {f : FT → Kern} {call : Kern} {xs : List Int}
    (hk : byType ty (fun t => if t.signed then some (i t) else none) (fun r => some (f r)) (some (longK lib op)) none none = some call)
    (hi : ∀ t, whole ty = some t → Signed t → Rows (i t) xs (OfInt lib t op))
    (hf : ∀ r, whole ty = none → real ty = some r → Fmt r → Rows (f r) xs (fun x y => 0 ≤ y ∧ OfFloat lib r op x.toNat y.toNat)) : Rows call xs (Answer lib op ty) := by
  rcases byType_cases hk with ⟨t, hw, h⟩ | ⟨hn, r, hr, h⟩ | ⟨rfl, h⟩ | ⟨rfl, h⟩ | ⟨-, h⟩
  · by_cases hs : t.signed = true
    · rw [if_pos hs] at h
      exact .of_eq h ((hi t hw (whole_signed hw hs)).imp fun x _ y hy => by rw [answer_whole hw]; exact hy)
    · rw [if_neg hs] at h; exact absurd h (by simp)
  · exact .of_eq h ((hf r hn hr (real_fmt hr)).imp fun x _ y hy => by rw [answer_real hn hr]; exact hy)
  · exact .of_eq h (rows_long lib op xs)
  · exact absurd h (by simp)
  · exact absurd h (by simp)

theorem fine_whole {op : Op} {ty : Nat} {t : IT} {x : Int} (hw : whole ty = some t) (h : Fine op ty x) (ho : op = .abs ∨ op = .neg ∨ op = .negative) : t.bits < 32 ∨ x ≠ t.lo := by
  unfold Fine at h
  rw [hw] at h
  rcases ho with rfl | rfl | rfl <;> exact h

theorem flip_isNeg (f : FT) (b : Nat) : IsNeg f b (flip f b) := ⟨isNan_flip f b, fun _ => key_flip f b⟩

theorem testText_right {t : Test} {x : Int} (ht : ¬ (t = .signbit ∨ t = .lnot)) (hn : (t ≠ .isnormal ∧ t ≠ .isnotnormal) ∨ x ≠ 0) :
    testText t x = some (if t.meaning (if x = 0 then .nan else .normal) false then 1 else 0) := by
  cases t <;> by_cases h : x = 0 <;> simp_all [testText, bit, Test.meaning]

theorem test_kind (t : Test) : (t = .isnormal ∨ t = .isnotnormal) ∨ (t ≠ .isnormal ∧ t ≠ .isnotnormal) := by cases t <;> decide

/-- What every kernel answers for values which are fine. -/
theorem kernel_rows {lib : Lib} {op : Op} {ty : Nat} {call : Kern} (hk : kernel lib op ty = some call) {xs : List Int} (hg : ∀ x ∈ xs, Good ty x)
    (hfine : ∀ x ∈ xs, Fine op ty x) : Rows call xs (Answer lib op ty) := by
  unfold kernel at hk
  cases op with
  | abs =>
    simp only at hk
    refine rows_arith hk (fun t hw hs => rows_absInt hs (fun x h => good_whole hw (hg x h)) (fun x h => fine_whole hw (hfine x h) (.inl rfl))) (fun r _ _ hr => ?_)
    obtain ⟨h1, h2, -⟩ := hr.facts
    exact rows_fastNat h1 h2 (absFV r) (absF r) (fun l _ => rfl) (fun x _ => ⟨⟨Int.natCast_nonneg _, absFV_isAbs _⟩, ⟨Int.natCast_nonneg _, absF_isAbs hr _⟩⟩)
  | neg =>
    simp only at hk
    refine rows_arith hk (fun t hw hs => rows_negInt hs (fun x h => good_whole hw (hg x h)) (fun x h => fine_whole hw (hfine x h) (.inr (.inl rfl)))) (fun r _ _ hr => ?_)
    obtain ⟨h1, h2, -⟩ := hr.facts
    exact rows_fastNat h1 h2 (negFV r) (flip r) (fun l _ => rfl) (fun x _ => ⟨⟨Int.natCast_nonneg _, negFV_isNeg hr _⟩, ⟨Int.natCast_nonneg _, flip_isNeg _ _⟩⟩)
  | negative =>
    simp only at hk
    refine rows_arith hk (fun t hw hs => rows_slow (Unary.Spec.neg t) (fun x h => negI_eq hs (good_whole hw (hg x h)) (fine_whole hw (hfine x h) (.inr (.inr rfl)))) (fun _ _ => rfl)) (fun r _ _ hr => ?_)
    exact rows_slowNat (flip r) (fun x _ => ⟨Int.natCast_nonneg _, flip_isNeg _ _⟩)
  | sign =>
    simp only at hk
    refine rows_arith hk (fun t hw hs => rows_slow signI (fun x _ => rfl) (fun x _ => sign_int x)) (fun r _ _ hr => ?_)
    refine rows_slowNat (signF r) (fun x _ => ⟨Int.natCast_nonneg _, ?_⟩)
    obtain ⟨h1, h2, h3, h4⟩ := sign_float r x.toNat
    exact ⟨h1, fun hn => ⟨h2 hn, h3 hn, h4 hn⟩⟩
  | invert =>
    simp only at hk
    rcases byType_cases hk with ⟨t, hw, h⟩ | ⟨-, r, -, h⟩ | ⟨-, h⟩ | ⟨rfl, h⟩ | ⟨-, h⟩
    · exact .of_eq h (rows_slow (invertI t) (fun _ _ => rfl) (fun x _ => by rw [answer_whole hw]; exact ⟨IT.wrap_inRange _ (whole_bits hw) _, invert_bits t x⟩))
    · exact absurd h (by simp)
    · exact absurd h (by simp)
    · refine .of_eq h (rows_slow (fun x => (invertBool (BitVec.ofInt 8 x)).toInt) (fun _ _ => rfl) (fun x hx => ?_))
      rcases (hg x hx).1 (by decide) with rfl | rfl <;> show _ = _ <;> decide
    · exact absurd h (by simp)
  | round o =>
    simp only at hk
    rcases byType_cases hk with ⟨t, hw, h⟩ | ⟨hn, r, hr, h⟩ | ⟨rfl, h⟩ | ⟨-, h⟩ | ⟨-, h⟩
    · exact absurd h (by simp)
    · have hf := real_fmt hr
      obtain ⟨h1, h2, -⟩ := hf.facts
      refine .of_eq h (rows_fastNat h1 h2 (roundF r o.vector) (roundF r o.scalar) (fun l _ => rfl) (fun x _ => ?_))
      rw [answer_real hn hr, answer_real hn hr]
      exact ⟨⟨Int.natCast_nonneg _, round_either hf o _ (.inr rfl) _ lib⟩, ⟨Int.natCast_nonneg _, round_either hf o _ (.inl rfl) _ lib⟩⟩
    · exact .of_eq h (rows_long lib _ xs)
    · exact absurd h (by simp)
    · exact absurd h (by simp)
  | fn g =>
    simp only at hk
    rcases byType_cases hk with ⟨t, hw, h⟩ | ⟨hn, r, hr, h⟩ | ⟨rfl, h⟩ | ⟨-, h⟩ | ⟨-, h⟩
    · by_cases hm : (mathType t).isSome = true
      · rw [if_pos hm] at h
        refine .of_eq h ((rows_math (lib.fn g .f64) hm (fun x hx => ⟨good_whole hw (hg x hx), ?_⟩)).imp fun x _ y hy => by rw [answer_whole hw]; exact hy)
        have := hfine x hx
        unfold Fine at this
        rw [hw] at this
        exact this
      · rw [if_neg hm] at h; exact absurd h (by simp)
    · by_cases hc : g = .cbrt
      · rw [if_pos hc] at h; exact absurd h (by simp)
      · rw [if_neg hc] at h
        exact .of_eq h (rows_slowNat (lib.fn g r) (fun x _ => by rw [answer_real hn hr]; exact ⟨Int.natCast_nonneg _, rfl⟩))
    · by_cases hc : g = .cbrt
      · rw [if_pos hc] at h; exact absurd h (by simp)
      · rw [if_neg hc] at h
        exact .of_eq h (rows_long lib _ xs)
    · exact absurd h (by simp)
    · exact absurd h (by simp)
  | test t =>
    simp only at hk
    rcases byType_cases hk with ⟨i, hw, h⟩ | ⟨hn, r, hr, h⟩ | ⟨rfl, h⟩ | ⟨rfl, h⟩ | ⟨h18, h⟩
    · by_cases hs : t = .signbit
      · rw [if_pos hs] at h; exact absurd h (by simp)
      · rw [if_neg hs] at h
        refine .of_eq h (rows_slow (fun x => if t.meaning (intClass i x) (decide (x < 0)) then 1 else 0) (fun x hx => ?_) (fun x _ => by rw [answer_whole hw]; exact rfl))
        have hfx := hfine x hx
        obtain ⟨b, hb⟩ : ∃ b, testI i t x = some b := by cases t <;> first | exact ⟨_, rfl⟩ | exact absurd rfl hs
        have := test_int_partial (whole_bits hw) (good_whole hw (hg x hx)) hb (by
          rcases test_kind t with ht | ht
          · right
            unfold Fine at hfx
            rw [hw] at hfx
            rcases ht with rfl | rfl <;> exact hfx
          · exact .inl ht)
        rw [hb, this]
        rfl
    · exact .of_eq h ((rows_test (real_fmt hr) t xs (fun x hx => good_real hr (hg x hx))).imp fun x _ y hy => by
        rw [answer_real hn hr]
        show 0 ≤ y ∧ y.toNat = _
        subst hy
        split <;> decide)
    · exact .of_eq h (rows_long lib _ xs)
    · by_cases hs : t = .signbit
      · rw [if_pos hs] at h; exact absurd h (by simp)
      · rw [if_neg hs] at h
        refine .of_eq h (rows_slow (fun x => if t.meaning (if x = 1 then .normal else .zero) false then 1 else 0) (fun x hx => ?_) (fun x _ => rfl))
        have hfx := hfine x hx
        have hv := (hg x hx).1 (by decide)
        rcases hv with rfl | rfl
        · cases t <;> first | rfl | exact absurd rfl hs | exact absurd (hfx.1 rfl) (by decide)
        · cases t <;> first | rfl | exact absurd rfl hs
    · by_cases hs : t = .signbit ∨ t = .lnot
      · rw [if_pos hs] at h; exact absurd h (by simp)
      · rw [if_neg hs] at h
        refine .of_eq h (rows_slow (fun x => if t.meaning (if x = 0 then .nan else .normal) false then 1 else 0) (fun x hx => testText_right hs ?_)
          (fun x _ => by rw [answer_text h18]; exact rfl))
        have hfx := hfine x hx
        rcases test_kind t with ht | ht
        · right
          rcases h18 with rfl | rfl <;> rcases ht with rfl | rfl <;> exact hfx.2 (by decide)
        · exact .inl ht

/-- Both lists have a row for each other. -/
def Paired (R : Int → Int → Prop) (xs ys : List Int) : Prop := ys.length = xs.length ∧ ∀ (k : Nat) x y, xs[k]? = some x → ys[k]? = some y → R x y

theorem Paired.append {R : Int → Int → Prop} {a b c d : List Int} (h : Paired R a c) (k : Paired R b d) : Paired R (a ++ b) (c ++ d) := by
  refine ⟨by simp [h.1, k.1], fun i x y hx hy => ?_⟩
  have hl := h.1
  by_cases hi : i < a.length
  · rw [List.getElem?_append_left hi] at hx
    rw [List.getElem?_append_left (by omega)] at hy
    exact h.2 i x y hx hy
  · rw [List.getElem?_append_right (by omega)] at hx
    rw [List.getElem?_append_right (by omega), hl] at hy
    exact k.2 _ x y hx hy

theorem Rows.call {call : Kern} {xs : List Int} {R : Int → Int → Prop} (h : Rows call xs R) (wide : Bool) (ys : List Int) (hy : ∀ y ∈ ys, y ∈ xs) :
    ∃ zs, call wide ys = some zs ∧ Paired R ys zs := by
  obtain ⟨v, g, w, -, -, h3, h4⟩ := h
  refine ⟨_, h3 wide ys hy, outRows_length _ _ _ _, fun k x y hx hz => ?_⟩
  rw [outRows_getElem?, hx] at hz
  have hm := hy x (List.mem_of_getElem? hx)
  split at hz <;> (injection hz with hz; subst hz)
  · exact (h4 x hm).1
  · exact (h4 x hm).2

theorem Rows.run {call : Kern} {xs : List Int} {R : Int → Int → Prop} (h : Rows call xs R) (wide : Bool) {workers : Nat} {nt : Bool} {par : Option (List Nat)}
    (hs : ChunkSched workers xs.length nt par) : ∃ zs, (unaryWork (call wide) xs par).bind (runWrites xs.length) = some (zs.map some) ∧ Paired R xs zs := by
  obtain ⟨v, g, w, h1, h2, h3, h4⟩ := h
  refine ⟨_, unaryWork_exact (v := v) (g := g) h1 h2 (wide := wide) xs (fun start len hl => ?_) hs, outRows_length _ _ _ _, fun k x y hx hz => ?_⟩
  · have := h3 wide ((xs.drop start).take len) (fun y hy => List.mem_of_mem_drop (List.mem_of_mem_take hy))
    rw [this]
    congr 2
    rw [List.length_take, List.length_drop, Nat.min_eq_left (by omega)]
  · rw [outRows_getElem?, hx] at hz
    have hm := List.mem_of_getElem? hx
    split at hz <;> (injection hz with hz; subst hz)
    · exact (h4 x hm).1
    · exact (h4 x hm).2

theorem Rows.pieces {call : Kern} {xs : List Int} {R : Int → Int → Prop} (h : Rows call xs R) (wide : Nat → Bool) (q : Nat) : ∀ P : Nat, P * q ≤ xs.length →
    ∃ zs, ((List.range P).mapM fun (j : Nat) => call (wide j) ((xs.drop (j * q)).take q)) = some zs ∧ Paired R (xs.take (P * q)) zs.flatten
  | 0, _ => ⟨[], rfl, by simp, fun k x y hx _ => by simp at hx⟩
  | P + 1, hP => by
    rw [Nat.add_mul, Nat.one_mul] at hP
    obtain ⟨zs, h1, h2⟩ := Rows.pieces h wide q P (by omega)
    obtain ⟨z, h3, h4⟩ := h.call (wide P) ((xs.drop (P * q)).take q) (fun y hy => List.mem_of_mem_drop (List.mem_of_mem_take hy))
    refine ⟨zs ++ [z], ?_, ?_⟩
    · rw [List.range_succ, List.mapM_append, h1, List.mapM_cons, h3]
      rfl
    · rw [Nat.add_mul, Nat.one_mul, List.take_add, List.flatten_append]
      exact h2.append (by simpa using h4)

/-- The kernel over all items, in any of its ways. -/
theorem Rows.kernel {call : Kern} {xs : List Int} {R : Int → Int → Prop} (h : Rows call xs R) (wide : Nat → Bool) (a : Lay) {workers : Nat} {nt : Bool} {par : Option (List Nat)}
    (hs : ChunkSched workers a.len nt par) (h0 : (contig a).1 = 0 → xs.length = a.len) (h1 : (contig a).1 ≠ 0 → xs.length = (Call.pieces a).1 * (Call.pieces a).2) :
    ∃ zs, runKernel call wide a par xs = some (zs.map some) ∧ Paired R xs zs := by
  unfold runKernel
  by_cases hc : (contig a).1 = 0
  · rw [if_pos hc]
    rw [← h0 hc] at hs
    exact h.run (wide 0) hs
  · rw [if_neg hc]
    obtain ⟨zs, e, hp⟩ := h.pieces wide (Call.pieces a).2 (Call.pieces a).1 (by rw [h1 hc]; exact Nat.le_refl _)
    rw [← h1 hc, List.take_length] at hp
    refine ⟨zs.flatten, ?_, hp⟩
    rw [e]
    rfl

theorem readItem_eq {ty : Nat} {m : Nums.Mem} {o x : Int} (h : Item ty m o x) : readItem ty m o = some x ∧ Good ty x := by
  unfold Item at h
  unfold readItem
  split at h
  · next h13 =>
    rw [if_pos h13]
    exact ⟨Nums.Stack.load_val h13 h, fun _ => h.1, fun hn => absurd h13 (by omega)⟩
  · next h13 =>
    rw [if_neg h13, h.2.2]
    refine ⟨?_, fun hh => absurd hh h13, fun _ => ⟨h.1, h.2.1⟩⟩
    rw [Option.map_some, toNat_ofInt_bits h.1 h.2.1, Int.toNat_of_nonneg h.1]

theorem nested_length (outer inner : Nat) (os si so : Int) : (nested outer inner os si so).length = outer * inner := by
  unfold nested
  rw [List.length_flatMap]
  induction outer with
  | zero => simp
  | succ n ih => rw [List.range_succ, List.map_append, List.sum_append, ih, Nat.add_mul]; simp

/-- The length of a walk. -/
theorem plan_length {a out : Lay} {l : List (Int × Int)} (h : plan a out = some l) :
    ((contig a).1 = 0 → l.length = a.len) ∧ ((contig a).1 ≠ 0 → l.length = (pieces a).1 * (pieces a).2) ∧ (contig out).1 = 0 := by
  rw [plan_eq] at h
  unfold Call.pieces
  split at h
  · next hc => injection h with h; subst h; exact ⟨fun _ => by simp [straight], fun hn => absurd hc.1 hn, hc.2⟩
  · split at h
    · next hc => injection h with h; subst h; exact ⟨fun hn => absurd (hc.1.symm.trans hn) (by decide), fun _ => by rw [if_pos hc.1]; exact nested_length _ _ _ _ _, hc.2⟩
    · split at h
      · next hc =>
        injection h with h; subst h
        exact ⟨fun hn => absurd (hc.1.symm.trans hn) (by decide), fun _ => by rw [if_neg (fun hn => absurd (hc.1.symm.trans hn) (by decide))]; exact nested_length _ _ _ _ _, hc.2⟩
      · exact absurd h (by simp)

theorem planNew_length {a : Lay} {item : Nat} {l : List (Int × Int)} (h : planNew a item = some l) :
    ((contig a).1 = 0 → l.length = a.len) ∧ ((contig a).1 ≠ 0 → l.length = (pieces a).1 * (pieces a).2) := by
  unfold planNew at h
  split at h
  · next hc => injection h with h; subst h; exact ⟨fun _ => by simp [straight], fun hn => absurd hc hn⟩
  · exact ⟨(plan_length h).1, (plan_length h).2.1⟩

/-- A walk which reads and writes the items of each index writes the answers. -/
theorem walk_right {lib : Lib} {op : Op} {a : Arr} {m : Nums.Mem} {call : Kern} (hk : kernel lib op a.type = some call) {out : Lay} {l : List (Int × Int)}
    (hF : Faithful a.lay out l) (hl : ((contig a.lay).1 = 0 → l.length = a.lay.len) ∧ ((contig a.lay).1 ≠ 0 → l.length = (pieces a.lay).1 * (pieces a.lay).2))
    {xs : List Nat → Int} (hx : ∀ idx, InBounds idx a.lay.dims → Item a.type m (offs idx a.lay.strides) (xs idx))
    (hf : ∀ idx, InBounds idx a.lay.dims → Fine op a.type (xs idx)) (wide : Nat → Bool) {workers : Nat} {nt : Bool} {par : Option (List Nat)}
    (hs : ChunkSched workers a.lay.len nt par) :
    ∃ ys, (readAll a m l).bind (runKernel call wide a.lay par) = some ys ∧ Right lib op a xs out ((l.map Prod.snd).zip ys) := by
  let g : Int × Int → Int := fun p => (readItem a.type m p.1).getD 0
  have hg : ∀ idx, InBounds idx a.lay.dims → ∀ o, g (offs idx a.lay.strides, o) = xs idx := fun idx hb o => by
    show (readItem a.type m (offs idx a.lay.strides)).getD 0 = _
    rw [(readItem_eq (hx idx hb)).1]; rfl
  have hread : readAll a m l = some (l.map g) := by
    refine mapM_some _ g l (fun p hp => ?_)
    obtain ⟨idx, hb, rfl⟩ := hF.2 p hp
    rw [hg idx hb]
    exact (readItem_eq (hx idx hb)).1
  have hin : ∀ x ∈ l.map g, ∃ idx, InBounds idx a.lay.dims ∧ x = xs idx := by
    intro x hxm
    obtain ⟨p, hp, rfl⟩ := List.mem_map.mp hxm
    obtain ⟨idx, hb, rfl⟩ := hF.2 p hp
    exact ⟨idx, hb, hg idx hb _⟩
  have hrows : Rows call (l.map g) (Answer lib op a.type) := kernel_rows hk
    (fun x h => by obtain ⟨idx, hb, rfl⟩ := hin x h; exact (readItem_eq (hx idx hb)).2)
    (fun x h => by obtain ⟨idx, hb, rfl⟩ := hin x h; exact hf idx hb)
  obtain ⟨zs, e, hp⟩ := hrows.kernel wide a.lay hs (fun h => by rw [List.length_map]; exact hl.1 h) (fun h => by rw [List.length_map]; exact hl.2 h)
  refine ⟨zs.map some, by rw [hread]; exact e, ?_⟩
  have hlen : zs.length = l.length := by rw [hp.1, List.length_map]
  have hat : ∀ (k : Nat) p, l[k]? = some p → ∃ y, ((l.map Prod.snd).zip (zs.map some))[k]? = some (p.2, some y) ∧ Answer lib op a.type (g p) y := by
    intro k p hkp
    have hk : k < zs.length := by rw [hlen]; exact (List.getElem?_eq_some_iff.mp hkp).1
    refine ⟨zs[k], ?_, hp.2 k (g p) zs[k] (by rw [List.getElem?_map, hkp]; rfl) (List.getElem?_eq_getElem hk)⟩
    rw [List.getElem?_zip_eq_some]
    simp [hkp, hk]
  constructor
  · intro idx hb
    obtain ⟨k, hk⟩ := List.mem_iff_getElem?.mp (hF.1 idx hb)
    obtain ⟨y, h1, h2⟩ := hat k _ hk
    rw [hg idx hb] at h2
    exact ⟨y, List.mem_of_getElem? h1, h2⟩
  · intro w hw
    obtain ⟨k, hk⟩ := List.mem_iff_getElem?.mp hw
    have hkl : k < l.length := by
      have := (List.getElem?_eq_some_iff.mp hk).1
      simp at this
      omega
    obtain ⟨idx, hb, e⟩ := hF.2 l[k] (List.getElem_mem hkl)
    obtain ⟨y, h1, h2⟩ := hat k l[k] (List.getElem?_eq_getElem hkl)
    rw [h1] at hk
    injection hk with hk
    rw [e, hg idx hb] at h2
    exact ⟨idx, y, hb, by rw [← hk, e], h2⟩

theorem wide_types (ty : Nat) (h : 13 < ty) (h1 : ty ≠ 18) (h2 : ty ≠ 19) (i : IT → Option Kern) (f : FT → Option Kern) (x y z : Option Kern) : byType ty i f x y z = none := by
  have hn : ctOf ty = none := by unfold ctOf; split <;> first | omega | rfl
  unfold byType
  rw [hn]
  exact if_neg (fun hh => hh.elim h1 h2)

/-- There is a kernel exactly for the known types. -/
theorem kernel_known (lib : Lib) (op : Op) (ty : Nat) : (kernel lib op ty).isSome = true ↔ Known op ty := by
  by_cases h : 13 < ty ∧ ty ≠ 18 ∧ ty ≠ 19
  · have hn : kernel lib op ty = none := by unfold kernel; cases op <;> exact wide_types ty h.1 h.2.1 h.2.2 _ _ _ _ _
    rw [hn]
    refine iff_of_false (by simp) ?_
    rcases op with _ | _ | _ | _ | _ | o | g | t
    iterate 6 (unfold Known; dsimp only; omega)
    · cases g <;> (unfold Known; dsimp only; omega)
    · cases t <;> (unfold Known; dsimp only; omega)
  · have : ty ∈ (List.range 14) ++ [18, 19] := by simp; omega
    simp only [List.range, List.range.loop, List.cons_append, List.nil_append, List.mem_cons, List.not_mem_nil, or_false] at this
    rcases this with rfl | rfl | rfl | rfl | rfl | rfl | rfl | rfl | rfl | rfl | rfl | rfl | rfl | rfl | rfl | rfl <;>
      rcases op with _ | _ | _ | _ | _ | o | g | t <;> (try cases g) <;> (try cases t) <;>
      first
      | exact iff_of_true rfl (by unfold Known; dsimp only; omega)
      | exact iff_of_false (by intro hh; cases hh) (by unfold Known; dsimp only; omega)

end Riptide.Unary.Call
