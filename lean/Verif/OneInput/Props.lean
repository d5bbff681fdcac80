import Verif.OneInput.Lemmas
import Verif.OneInput.Spec
import Verif.Unary.KernelProps
import Verif.Unary.RoundProps
import Verif.Unary.MathProps
/-! C138: what `process_one_input` returns. -/
namespace Riptide.OneInput
open Riptide.Unary Riptide.Binary Riptide.OneInput.Spec

theorem floatTy_of {ty : Nat} {f : FT} (h : FloatTy ty f) : tyOf ty = some (.flt f) ∧ Fmt f := by
  rcases h with ⟨rfl, rfl⟩ | ⟨rfl, rfl⟩
  · exact ⟨rfl, .inl rfl⟩
  · exact ⟨rfl, .inr rfl⟩

theorem intTy_of {ty : Nat} {t : IT} (h : IntTy ty t) : tyOf ty = some (.int t) ∧ 0 < t.bits ∧ 0 < t.bits / 8 ∧ t.bits / 8 ≤ 32 := by
  simp only [IntTy, List.mem_cons, Prod.mk.injEq, List.not_mem_nil, or_false] at h
  rcases h with ⟨rfl, rfl⟩ | ⟨rfl, rfl⟩ | ⟨rfl, rfl⟩ | ⟨rfl, rfl⟩ | ⟨rfl, rfl⟩ | ⟨rfl, rfl⟩ | ⟨rfl, rfl⟩ | ⟨rfl, rfl⟩ | ⟨rfl, rfl⟩ | ⟨rfl, rfl⟩ <;>
    exact ⟨rfl, by decide, by decide, by decide⟩

theorem fmt_size {f : FT} (h : Fmt f) : 0 < (1 + f.eb + f.mb) / 8 ∧ (1 + f.eb + f.mb) / 8 ≤ 32 := by
  rcases h with rfl | rfl <;> decide

theorem kernF_size (sq : FT → Nat → Nat) (f : FT) (op : Op) : (kernF sq f op).size = (1 + f.eb + f.mb) / 8 := by cases op <;> rfl
theorem kernI_size (sq : FT → Nat → Nat) (t : IT) (op : Op) : (kernI sq t op).size = t.bits / 8 := by cases op <;> rfl

/-- Stores side by side fill the output. -/
theorem settle_full {s n : Nat} (hs : 0 < s) (v : Nat → Int) (out : List (Option Int) → Out) :
    settle (.done ((List.range n).map fun (i : Nat) => ((i : Int) * s, v i))) s s n s out = out ((List.range n).map fun i => some (v i)) := by
  simp only [settle]
  rw [if_pos]
  · congr 1
    apply List.map_congr_left
    intro i hi
    rw [List.mem_range] at hi
    have := itemAt_spread hs (m := n) (d := 1) (by decide) v i
    simp only [Nat.mul_one, Nat.mod_one, Nat.div_one, true_and, if_pos hi] at this
    exact this
  · rw [List.all_eq_true]
    rintro ⟨p, v', b⟩ hc
    obtain ⟨hb, hw⟩ := mem_cells.1 hc
    rw [List.mem_map] at hw
    obtain ⟨i, hi, he⟩ := hw
    rw [List.mem_range] at hi
    simp only [Prod.mk.injEq] at he
    refine inItems_iff.2 ⟨i, hi, ?_, ?_⟩ <;> simp only <;> omega

/-- All items side by side, nothing given: the new array. -/
theorem call_items {sq : FT → Nat → Nat} {fn ty : Nat} {op : Op} {t : Ty} {k : Kern} {a : Lay} {read : Int → Int} (hop : opOf fn = some op)
    (hval : op.value = true) (hty : tyOf ty = some t) (hk : kernOf sq op t = some k) (hs : 0 < k.size) (hs32 : k.size ≤ 32)
    (hsz : a.item = k.size) (hc : contig a = (0, (a.item : Int))) {v : Nat → Int} (hv : ∀ i, i < a.len → item k read a.len i = some (v i)) :
    call sq fn ty a read none = .array ((List.range a.len).map fun i => some (v i)) := by
  have hw := walk_contig k hs hs32 read a.len v hv a.len 0 (by omega) (.inl ⟨0, rfl⟩)
  rw [Nat.sub_zero, ← List.range_eq_range'] at hw
  have hwa : walkAll (some k) read 1 (k.size : Int) k.size a.len = .done ((List.range a.len).map fun (i : Nat) => ((i : Int) * k.size, v i)) := by
    simp only [walkAll, hw]
  unfold call
  simp only [hop, hty, hk, hc, hval, if_true, and_self, kernSize, hsz]
  rw [hwa]
  exact settle_full hs v .array

/-- C138: the rounding functions on floating point numbers: every finite number is replaced by the integer the function has for it, infinity
stays, not-a-number stays not-a-number. -/
theorem rounding_floats {sq : FT → Nat → Nat} {fn ty : Nat} {f : FT} {r : RoundOp} (hty : FloatTy ty f)
    (hfn : (fn, r) ∈ [(205, RoundOp.floor), (206, RoundOp.ceil), (207, RoundOp.trunc)]) {a : Lay} {read : Int → Int}
    (hsz : a.item = (1 + f.eb + f.mb) / 8) (hc : contig a = (0, (a.item : Int))) :
    ∃ y : Nat → Nat, call sq fn ty a read none = .array ((List.range a.len).map fun i => some (y i : Int)) ∧
      ∀ i : Nat, i < a.len → ∀ x : Nat, x = (read ((i : Int) * a.item)).toNat →
        (f.isFinite x = true → ∃ n : Int, f.isFinite (y i) = true ∧ f.scaled (y i) = n * (2 ^ f.unit : Nat) ∧
          (fn = 205 → Unary.Spec.Floor (f.scaled x) (2 ^ f.unit : Nat) n) ∧ (fn = 206 → Unary.Spec.Ceil (f.scaled x) (2 ^ f.unit : Nat) n) ∧
          (fn = 207 → Unary.Spec.Trunc (f.scaled x) (2 ^ f.unit : Nat) n)) ∧
        (f.isNan x = true → f.isNan (y i) = true) ∧ (f.mag x = f.infMag → y i = x) := by
  obtain ⟨ht, hf⟩ := floatTy_of hty
  obtain ⟨hs, hs32⟩ := fmt_size hf
  have hop : opOf fn = some (.round r) ∧ r.vector = r.scalar := by
    simp only [List.mem_cons, Prod.mk.injEq, List.not_mem_nil, or_false] at hfn
    rcases hfn with ⟨rfl, rfl⟩ | ⟨rfl, rfl⟩ | ⟨rfl, rfl⟩ <;> exact ⟨rfl, rfl⟩
  refine ⟨fun i => roundF f r.scalar (read ((i : Int) * a.item)).toNat, call_items hop.1 rfl ht (k := kernF sq f (.round r)) rfl hs hs32 hsz hc ?_, ?_⟩
  · intro i _
    unfold item
    simp only [kernF, hop.2, ← hsz]
    split <;> rfl
  · rintro i _ x rfl
    refine ⟨fun hfin => ?_, (round_special hf r.scalar).1, (round_special hf r.scalar).2⟩
    obtain ⟨n, h1, h2, h3⟩ := round_value hf r.scalar hfin
    refine ⟨n, h1, h2, ?_⟩
    simp only [List.mem_cons, Prod.mk.injEq, List.not_mem_nil, or_false] at hfn
    rcases hfn with ⟨rfl, rfl⟩ | ⟨rfl, rfl⟩ | ⟨rfl, rfl⟩
    · exact ⟨fun _ => h3, by simp, by simp⟩
    · exact ⟨by simp, fun _ => h3, by simp⟩
    · exact ⟨by simp, by simp, fun _ => h3⟩

/-- C138: the function `round`: halves go to the even number in a register and away from zero behind the registers. -/
theorem round_floats {sq : FT → Nat → Nat} {ty : Nat} {f : FT} (hty : FloatTy ty f) {a : Lay} {read : Int → Int}
    (hsz : a.item = (1 + f.eb + f.mb) / 8) (hc : contig a = (0, (a.item : Int))) :
    ∃ y : Nat → Nat, call sq 208 ty a read none = .array ((List.range a.len).map fun i => some (y i : Int)) ∧
      ∀ i : Nat, i < a.len → ∀ x : Nat, x = (read ((i : Int) * a.item)).toNat → f.isFinite x = true →
        ∃ n : Int, f.isFinite (y i) = true ∧ f.scaled (y i) = n * (2 ^ f.unit : Nat) ∧
          (inRegister (32 / a.item) a.len i → Unary.Spec.Even (f.scaled x) (2 ^ f.unit : Nat) n) ∧
          (¬ inRegister (32 / a.item) a.len i → Unary.Spec.Away (f.scaled x) (2 ^ f.unit : Nat) n) := by
  obtain ⟨ht, hf⟩ := floatTy_of hty
  obtain ⟨hs, hs32⟩ := fmt_size hf
  refine ⟨fun i => roundF f (if i < 32 / a.item * ((a.len - 1) / (32 / a.item)) then .even else .away) (read ((i : Int) * a.item)).toNat,
    call_items (op := .round .round) rfl rfl ht (k := kernF sq f (.round .round)) rfl hs hs32 hsz hc ?_, ?_⟩
  · intro i _
    unfold item
    simp only [kernF, ← hsz, RoundOp.vector, RoundOp.scalar]
    split <;> rfl
  · rintro i _ x rfl hfin
    unfold inRegister
    obtain ⟨n, h1, h2, h3⟩ := round_value hf (if i < 32 / a.item * ((a.len - 1) / (32 / a.item)) then .even else .away) hfin
    refine ⟨n, h1, h2, fun h => ?_, fun h => ?_⟩
    · rw [if_pos h] at h3; exact h3
    · rw [if_neg h] at h3; exact h3

/-- C138: the function `round` for numbers without halves above even numbers: all of them are rounded to the nearest integer, halves away from
zero. The full statement has no condition; see `round_wrong`. -/
theorem round_floats_partial {sq : FT → Nat → Nat} {ty : Nat} {f : FT} (hty : FloatTy ty f) {a : Lay} {read : Int → Int}
    (hsz : a.item = (1 + f.eb + f.mb) / 8) (hc : contig a = (0, (a.item : Int)))
    (hx : ∀ i : Nat, i < a.len → ¬ EvenHalf f (read ((i : Int) * a.item)).toNat) :
    ∃ y : Nat → Nat, call sq 208 ty a read none = .array ((List.range a.len).map fun i => some (y i : Int)) ∧
      ∀ i : Nat, i < a.len → ∀ x : Nat, x = (read ((i : Int) * a.item)).toNat → f.isFinite x = true →
        ∃ n : Int, f.isFinite (y i) = true ∧ f.scaled (y i) = n * (2 ^ f.unit : Nat) ∧ Unary.Spec.Away (f.scaled x) (2 ^ f.unit : Nat) n := by
  obtain ⟨ht, hf⟩ := floatTy_of hty
  obtain ⟨hs, hs32⟩ := fmt_size hf
  refine ⟨fun i => roundF f .away (read ((i : Int) * a.item)).toNat,
    call_items (op := .round .round) rfl rfl ht (k := kernF sq f (.round .round)) rfl hs hs32 hsz hc ?_, ?_⟩
  · intro i hi
    have : roundF f .even (read ((i : Int) * a.item)).toNat = roundF f .away (read ((i : Int) * a.item)).toNat :=
      Classical.byContradiction fun h => hx i hi ((round_differ_iff hf).1 h)
    unfold item
    simp only [kernF, ← hsz, RoundOp.vector, RoundOp.scalar, this]
    split <;> rfl
  · rintro i _ x rfl hfin
    exact round_value hf .away hfin

/-- C138: the absolute values of floating point numbers: the sign is cleared, also the one of a zero. -/
theorem abs_floats {sq : FT → Nat → Nat} {ty : Nat} {f : FT} (hty : FloatTy ty f) {a : Lay} {read : Int → Int}
    (hsz : a.item = (1 + f.eb + f.mb) / 8) (hc : contig a = (0, (a.item : Int))) :
    ∃ y : Nat → Nat, call sq 201 ty a read none = .array ((List.range a.len).map fun i => some (y i : Int)) ∧
      ∀ i : Nat, i < a.len → ∀ x : Nat, x = (read ((i : Int) * a.item)).toNat → IsAbs f x (y i) ∧ f.neg (y i) = false := by
  obtain ⟨ht, hf⟩ := floatTy_of hty
  obtain ⟨hs, hs32⟩ := fmt_size hf
  refine ⟨fun i => absFV f (read ((i : Int) * a.item)).toNat, call_items (op := .abs) rfl rfl ht (k := kernF sq f .abs) rfl hs hs32 hsz hc ?_, ?_⟩
  · intro i _
    unfold item
    simp only [kernF, ← hsz]
    split <;> rfl
  · rintro i _ x rfl
    exact ⟨absFV_isAbs _, by show f.neg (absFV f _) = false; rw [absFV_eq]; exact (mag_small f (mag_lt f _)).2⟩

/-- C138: square roots of floating point numbers are the hardware's, in registers and behind them. -/
theorem sqrt_floats {sq : FT → Nat → Nat} {ty : Nat} {f : FT} (hty : FloatTy ty f) {a : Lay} {read : Int → Int}
    (hsz : a.item = (1 + f.eb + f.mb) / 8) (hc : contig a = (0, (a.item : Int))) :
    call sq 301 ty a read none = .array ((List.range a.len).map fun (i : Nat) => some (sq f (read ((i : Int) * a.item)).toNat : Int)) := by
  obtain ⟨ht, hf⟩ := floatTy_of hty
  obtain ⟨hs, hs32⟩ := fmt_size hf
  refine call_items (op := .sqrt) rfl rfl ht (k := kernF sq f .sqrt) rfl hs hs32 hsz hc ?_
  intro i _
  unfold item
  simp only [kernF, ← hsz]
  split <;> rfl

/-- C138: unsigned numbers are their own absolute values. -/
theorem abs_unsigned {sq : FT → Nat → Nat} {ty : Nat} {t : IT} (hty : IntTy ty t) (hu : t.signed = false) {a : Lay} {read : Int → Int}
    (hsz : a.item = t.bits / 8) (hc : contig a = (0, (a.item : Int))) :
    call sq 201 ty a read none = .array ((List.range a.len).map fun (i : Nat) => some (read ((i : Int) * a.item))) := by
  obtain ⟨ht, -, hs, hs32⟩ := intTy_of hty
  refine call_items (op := .abs) rfl rfl ht (k := kernI sq t .abs) rfl hs hs32 hsz hc ?_
  intro i _
  unfold item
  simp [kernI, ← hsz, hu]

theorem signed_of {ty : Nat} {t : IT} (hty : IntTy ty t) (hu : t.signed = true) : Signed t := by
  simp only [IntTy, List.mem_cons, Prod.mk.injEq, List.not_mem_nil, or_false] at hty
  unfold Signed
  rcases hty with ⟨rfl, rfl⟩ | ⟨rfl, rfl⟩ | ⟨rfl, rfl⟩ | ⟨rfl, rfl⟩ | ⟨rfl, rfl⟩ | ⟨rfl, rfl⟩ | ⟨rfl, rfl⟩ | ⟨rfl, rfl⟩ | ⟨rfl, rfl⟩ | ⟨rfl, rfl⟩ <;>
    first
      | exact absurd hu (by decide)
      | decide

theorem stdAbs_eq {t : IT} (h : Signed t) {x : Int} (hx : t.InRange x) (hd : t.bits < 32 ∨ x ≠ t.lo) : stdAbs t x = some (Unary.Spec.abs t x) := by
  obtain ⟨h1, -, -, h4, h5, -⟩ := h.facts
  unfold stdAbs
  split
  · rw [absV_eq h hx]
  · next hb =>
    have hx' : x ≠ t.lo := hd.resolve_left hb
    have : t.InRange x.natAbs := by
      unfold IT.InRange at hx ⊢
      omega
    rw [if_pos this]
    unfold Unary.Spec.abs
    rw [if_neg hx']
    congr 1
    split <;> omega

/-- C138: absolute values of signed numbers of at most 32 bits, without the smallest number of a type of 32 bits. The full statement is about all
numbers of all signed types; see `abs_int64` and `abs_smallest`. -/
theorem abs_signed_partial {sq : FT → Nat → Nat} {ty : Nat} {t : IT} (hty : IntTy ty t) (hu : t.signed = true) (hb : t.bits ≠ 64) {a : Lay}
    {read : Int → Int} (hsz : a.item = t.bits / 8) (hc : contig a = (0, (a.item : Int)))
    (hx : ∀ i : Nat, i < a.len → t.InRange (read ((i : Int) * a.item)))
    (hd : t.bits < 32 ∨ ∀ i : Nat, i < a.len → read ((i : Int) * a.item) ≠ t.lo) :
    call sq 201 ty a read none = .array ((List.range a.len).map fun (i : Nat) => some (Unary.Spec.abs t (read ((i : Int) * a.item)))) := by
  obtain ⟨ht, -, hs, hs32⟩ := intTy_of hty
  have hsg := signed_of hty hu
  refine call_items (op := .abs) rfl rfl ht (k := kernI sq t .abs) rfl hs hs32 hsz hc ?_
  intro i hi
  unfold item
  simp only [kernI, ← hsz, hu, if_true, laneAbs, if_neg hb]
  rw [absV_eq hsg (hx i hi), stdAbs_eq hsg (hx i hi) (hd.imp id fun h => h i hi)]
  split <;> rfl

/-- C138: absolute values of numbers of 64 bits: in a register the sign bit is cleared, so that a negative number `x` becomes `x + 2^63`; behind
the registers it becomes `-x`. -/
theorem abs_int64 {sq : FT → Nat → Nat} {ty : Nat} (hty : IntTy ty .i64) {a : Lay} {read : Int → Int} (hsz : a.item = 8)
    (hc : contig a = (0, (a.item : Int))) (hx : ∀ i : Nat, i < a.len → IT.i64.InRange (read ((i : Int) * a.item)))
    (hd : ∀ i : Nat, i < a.len → ¬ inRegister 4 a.len i → read ((i : Int) * a.item) ≠ IT.i64.lo) :
    ∃ y : Nat → Int, call sq 201 ty a read none = .array ((List.range a.len).map fun i => some (y i)) ∧
      ∀ i : Nat, i < a.len → ∀ x : Int, x = read ((i : Int) * a.item) → (0 ≤ x → y i = x) ∧
        (x < 0 → inRegister 4 a.len i → y i = x + 2 ^ 63) ∧ (x < 0 → ¬ inRegister 4 a.len i → y i = -x) := by
  obtain ⟨ht, -, hs, hs32⟩ := intTy_of hty
  have hsg : Signed .i64 := signed_of hty rfl
  refine ⟨fun i => if i < 4 * ((a.len - 1) / 4) then read ((i : Int) * a.item) % 2 ^ 63 else Unary.Spec.abs .i64 (read ((i : Int) * a.item)),
    call_items (op := .abs) rfl rfl ht (k := kernI sq .i64 .abs) rfl hs hs32 hsz hc ?_, ?_⟩
  · intro i hi
    unfold item
    have h8 : (IT.i64.bits / 8) = 8 := rfl
    simp only [kernI, h8, hsz, show IT.i64.signed = true from rfl, if_true]
    show (if i < 4 * ((a.len - 1) / 4) then _ else _) = _
    split
    · rfl
    · next h => rw [← hsz, stdAbs_eq hsg (hx i hi) (.inr (hd i hi h))]
  · rintro i hi x rfl
    have hr := hx i hi
    have hlo : IT.i64.lo = -2 ^ 63 := rfl
    have hhi : IT.i64.hi = 2 ^ 63 - 1 := rfl
    unfold IT.InRange at hr
    rw [hlo, hhi] at hr
    refine ⟨fun h => ?_, fun h h2 => ?_, fun h h2 => ?_⟩
    · simp only
      split
      · exact Int.emod_eq_of_lt h (by omega)
      · unfold Unary.Spec.abs; rw [if_neg (by rw [hlo]; omega), if_neg (by omega)]
    · unfold inRegister at h2
      simp only [if_pos h2]
      rw [← Int.add_emod_right]
      exact Int.emod_eq_of_lt (by omega) (by omega)
    · have h3 := hd i hi h2
      unfold inRegister at h2
      simp only [if_neg h2]
      unfold Unary.Spec.abs; rw [if_neg h3, if_pos h]

/-- C138: `INVERT` of integers, and `NEG` which is taken for it: `-x - 1`. -/
theorem invert_ints {sq : FT → Nat → Nat} {fn ty : Nat} {t : IT} (hty : IntTy ty t) (hfn : fn = 204 ∨ fn = 202) {a : Lay} {read : Int → Int}
    (hsz : a.item = t.bits / 8) (hc : contig a = (0, (a.item : Int))) :
    call sq fn ty a read none = .array ((List.range a.len).map fun (i : Nat) => some (t.wrap (-read ((i : Int) * a.item) - 1))) := by
  obtain ⟨ht, -, hs, hs32⟩ := intTy_of hty
  have hop : opOf fn = some .bnot := by rcases hfn with rfl | rfl <;> rfl
  refine call_items hop rfl ht (k := kernI sq t .bnot) rfl hs hs32 hsz hc ?_
  intro i _
  unfold item
  simp [kernI, ← hsz, invertI]

/-- C138: no number becomes its negative by `NEG`. -/
theorem neg_never {t : IT} {ty : Nat} (hty : IntTy ty t) (x : Int) : t.wrap (-x - 1) ≠ t.wrap (-x) := by
  simp only [IntTy, List.mem_cons, Prod.mk.injEq, List.not_mem_nil, or_false] at hty
  rcases hty with ⟨-, rfl⟩ | ⟨-, rfl⟩ | ⟨-, rfl⟩ | ⟨-, rfl⟩ | ⟨-, rfl⟩ | ⟨-, rfl⟩ | ⟨-, rfl⟩ | ⟨-, rfl⟩ | ⟨-, rfl⟩ | ⟨-, rfl⟩ <;>
    simp [IT.wrap, IT.lo, IT.i8, IT.u8, IT.i16, IT.u16, IT.i32, IT.u32, IT.i64, IT.u64] <;> omega

/-- C138: `NEG` and `INVERT` make floating point numbers not-a-number. -/
theorem invert_floats {sq : FT → Nat → Nat} {fn ty : Nat} {f : FT} (hty : FloatTy ty f) (hfn : fn = 204 ∨ fn = 202) {a : Lay} {read : Int → Int}
    (hsz : a.item = (1 + f.eb + f.mb) / 8) (hc : contig a = (0, (a.item : Int))) :
    ∃ y : Nat, call sq fn ty a read none = .array ((List.range a.len).map fun _ => some (y : Int)) ∧ f.isNan y = true := by
  obtain ⟨ht, hf⟩ := floatTy_of hty
  obtain ⟨hs, hs32⟩ := fmt_size hf
  have hop : opOf fn = some .bnot := by rcases hfn with rfl | rfl <;> rfl
  refine ⟨f.qnan, call_items hop rfl ht (k := kernF sq f .bnot) rfl hs hs32 hsz hc ?_, by rcases hf with rfl | rfl <;> decide⟩
  intro i _
  unfold item
  simp [kernF]

theorem nearest_of_int {U x n : Int} (hU : 0 < U) (h : Unary.Spec.Nearest (x * U) U n) : n = x := by
  obtain ⟨h1, h2⟩ := h
  have e : 2 * (x * U - n * U) = (2 * (x - n)) * U := by grind
  rw [e] at h1 h2
  have h3 : 2 * (x - n) ≤ 1 := Int.le_of_mul_le_mul_right (by omega) hU
  have h4 : -1 ≤ 2 * (x - n) := Int.le_of_mul_le_mul_right (by omega) hU
  omega

theorem floor_of_int {U x n : Int} (hU : 0 < U) (h : Unary.Spec.Floor (x * U) U n) : n = x := by
  have h1 := Int.le_of_mul_le_mul_right h.1 hU
  have h2 := Int.lt_of_mul_lt_mul_right h.2 (Int.le_of_lt hU)
  omega

theorem ceil_of_int {U x n : Int} (hU : 0 < U) (h : Unary.Spec.Ceil (x * U) U n) : n = x := by
  have h1 := Int.lt_of_mul_lt_mul_right h.1 (Int.le_of_lt hU)
  have h2 := Int.le_of_mul_le_mul_right h.2 hU
  omega

theorem meaning_of_int {way : Way} {U x n : Int} (hU : 0 < U) (h : way.Meaning (x * U) U n) : n = x := by
  cases way with
  | floor => exact floor_of_int hU h
  | ceil => exact ceil_of_int hU h
  | trunc =>
    simp only [Way.Meaning, Unary.Spec.Trunc] at h
    split at h
    · exact floor_of_int hU h
    · exact ceil_of_int hU h
  | away => exact nearest_of_int hU h.1
  | even => exact nearest_of_int hU h.1

theorem round_of_int {x : Int} (hx : x.natAbs < 2 ^ 53) {t : IT} (hr : t.InRange x) (way : Way) :
    FT.f64.toInt t (roundF .f64 way (FT.f64.ofInt x)) = some x := by
  obtain ⟨h1, h2⟩ := math_exact hx
  have hf : Fmt .f64 := .inr rfl
  obtain ⟨n, h3, h4, h5⟩ := round_value hf way h1
  rw [h2] at h5
  have hU : (0 : Int) < (2 ^ FT.f64.unit : Nat) := by exact_mod_cast Nat.pow_pos (by decide)
  have hn : n = x := by
    exact meaning_of_int hU h5
  subst hn
  unfold FT.toInt
  have h6 : FT.f64.trunc (roundF .f64 way (FT.f64.ofInt n)) = n := by
    unfold FT.trunc
    rw [h4]
    exact Int.mul_tdiv_cancel _ (by omega)
  rw [h6, if_pos ⟨h3, hr⟩]

/-- C138: rounding integers changes nothing below 2^53. The full statement has no condition; see `round_ints_wrong`. -/
theorem round_ints_partial {sq : FT → Nat → Nat} {fn ty : Nat} {t : IT} (hty : IntTy ty t) (hfn : fn ∈ [205, 206, 207, 208]) {a : Lay}
    {read : Int → Int} (hsz : a.item = t.bits / 8) (hc : contig a = (0, (a.item : Int)))
    (hx : ∀ i : Nat, i < a.len → t.InRange (read ((i : Int) * a.item)) ∧ (read ((i : Int) * a.item)).natAbs < 2 ^ 53) :
    call sq fn ty a read none = .array ((List.range a.len).map fun (i : Nat) => some (read ((i : Int) * a.item))) := by
  obtain ⟨ht, -, hs, hs32⟩ := intTy_of hty
  obtain ⟨r, hop⟩ : ∃ r, opOf fn = some (.round r) := by
    simp only [List.mem_cons, List.not_mem_nil, or_false] at hfn
    rcases hfn with rfl | rfl | rfl | rfl <;> exact ⟨_, rfl⟩
  refine call_items hop rfl ht (k := kernI sq t (.round r)) rfl hs hs32 hsz hc ?_
  intro i hi
  unfold item
  simp only [kernI, ← hsz]
  exact round_of_int (hx i hi).2 (hx i hi).1 _

end Riptide.OneInput
