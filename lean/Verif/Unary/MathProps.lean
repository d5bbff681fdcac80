import Verif.Unary.Math
import Verif.Unary.Lemmas
import Verif.Convert.Lemmas
import Verif.Binary.LayoutProps
/-! What holds of roots, logarithms and exponentials of integers, and of results stored over the input. -/
namespace Riptide.Unary
open Riptide.Binary Riptide.Work

/-- The function is applied to the number of each row rounded to a double, if it is below 2⁶³ and the type is not one left to numpy; for every length and
every schedule. -/
theorem math_partial (fn : Nat → Nat) {t : IT} (ht : mathType t ≠ none) {xs : List Int} (hx : ∀ x ∈ xs, t.InRange x ∧ x < 2 ^ 63)
    {workers : Nat} {nt : Bool} {par : Option (List Nat)} (h : ChunkSched workers xs.length nt par) :
    (unaryWork (mathCall fn t) xs par).bind (runWrites xs.length) = some (xs.map fun x => some (fn (FT.f64.ofInt x))) := by
  have hone : ∀ x ∈ xs, mathI fn t x = some (fn (FT.f64.ofInt x)) := by
    intro x hxm
    obtain ⟨hr, hlt⟩ := hx x hxm
    unfold mathI
    by_cases h1 : t = .i32
    · subst h1
      show some (fn (FT.f64.ofInt (IT.wrap .i32 x))) = _
      rw [IT.wrap_of_inRange _ (by decide) hr]
    · by_cases h2 : t = .u32
      · subst h2
        show some (fn (FT.f64.ofInt (IT.wrap .u32 x))) = _
        rw [IT.wrap_of_inRange _ (by decide) hr]
      · by_cases h3 : t = .i64
        · subst h3
          show some (fn (FT.f64.ofInt (IT.wrap .i64 x))) = _
          rw [IT.wrap_of_inRange _ (by decide) hr]
        · by_cases h4 : t = .u64
          · subst h4
            show some (fn (FT.f64.ofInt (IT.wrap .i64 x))) = _
            have h0 : (0 : Int) ≤ x := hr.1
            rw [IT.wrap_of_inRange .i64 (by decide) (show IT.InRange .i64 x from ⟨by
              show -(2 : Int) ^ 63 ≤ x
              omega, by
              show x ≤ (2 : Int) ^ 63 - 1
              omega⟩)]
          · exfalso
            apply ht
            unfold mathType
            rw [if_neg h1, if_neg h2, if_neg h3, if_neg h4]
  have := slowWork_exact (g := fun x => fn (FT.f64.ofInt x)) xs hone h
  rw [List.map_map] at this
  exact this

/-- Numbers below 2⁵³ reach the function exactly. -/
theorem math_exact {x : Int} (h : x.natAbs < 2 ^ 53) : Convert.Spec.Exact .f64 (FT.f64.ofInt x) x :=
  Convert.ofInt_exact .f64 ⟨by decide, by decide, by decide⟩ h

/-- The unguarded statement is false: of the unsigned number 2⁶³ the root, logarithm or exponential of −2⁶³ is computed. -/
theorem math_wrong (fn : Nat → Nat) : mathI fn .u64 (2 ^ 63) = some (fn (FT.f64.ofInt (-(2 ^ 63)))) ∧
    FT.f64.ofInt (2 ^ 63) ≠ FT.f64.ofInt (-(2 ^ 63)) := by
  constructor
  · have e : mathI fn .u64 (2 ^ 63) = some (fn (FT.f64.ofInt (IT.wrap .i64 (2 ^ 63)))) := rfl
    rw [e, show IT.wrap .i64 (2 ^ 63) = -(2 ^ 63) by decide]
  · decide +kernel

/-- Riptide's invalid integers are not passed on as NaN: the function gets a finite number. -/
theorem math_invalid_wrong (fn : Nat → Nat) : ∀ t ∈ [IT.i32, IT.u32, IT.i64, IT.u64], ∃ b, mathI fn t t.inv = some (fn b) ∧ FT.f64.isFinite b = true := by
  intro t ht
  simp only [List.mem_cons, List.not_mem_nil, or_false] at ht
  rcases ht with rfl | rfl | rfl | rfl
  · exact ⟨_, rfl, by decide +kernel⟩
  · exact ⟨_, rfl, by decide +kernel⟩
  · exact ⟨_, rfl, by decide +kernel⟩
  · exact ⟨_, rfl, by decide +kernel⟩

example (fn : Nat → Nat) : (unaryWork (mathCall fn .i32) [4, -1, 9] none).bind (runWrites 3) =
    some [some (fn 0x4010000000000000), some (fn 0xBFF0000000000000), some (fn 0x4022000000000000)] :=
  (math_partial (workers := 3) (nt := false) fn (t := .i32) (by decide) (xs := [4, -1, 9]) (by decide) (.direct (.inl (by decide)))).trans
    (congrArg some (by
      have e1 : FT.f64.ofInt 4 = 0x4010000000000000 := by decide +kernel
      have e2 : FT.f64.ofInt (-1) = 0xBFF0000000000000 := by decide +kernel
      have e3 : FT.f64.ofInt 9 = 0x4022000000000000 := by decide +kernel
      simp [e1, e2, e3]))

/-- An output which is the input, or apart from it: each row is computed from the input as it was, in whatever order the rows are visited. -/
theorem unary_alias_partial (f : List (BitVec 8) → List (BitVec 8)) (src out : Src) (n : Nat) (hf : ∀ x, (f x).length = out.item)
    (ha : src.addr + n * src.item ≤ out.addr ∨ out.addr + n * out.item ≤ src.addr ∨ (src.addr = out.addr ∧ src.item = out.item))
    (m : Mem) (steps : List (List Nat)) (hs : steps.flatten.Perm (List.range n)) :
    ∀ i, i < n → readMem (unaryMem f src out m steps) (out.addr + i * out.item) out.item = f (readMem m (src.addr + i * src.item) src.item) :=
  memRun_exact (fun x _ => f x) src src out n (fun x _ => hf x) ha ha m steps hs

/-- The unguarded statement is false: with an output shifted by one row, as in `np.negative(a[:-1], out=a[1:])`, the second result is computed from the
first; and whether that happens depends on the registers, so the result is not even a function of the input. -/
theorem unary_alias_wrong :
    let f : List (BitVec 8) → List (BitVec 8) := fun x => x.map fun b => -b
    let m : Mem := fun a => BitVec.ofNat 8 (a - 99)
    f (readMem m 101 1) = [254] ∧
    readMem (unaryMem f ⟨100, 1⟩ ⟨101, 1⟩ m [[0], [1]]) 102 1 = [1] ∧
    readMem (unaryMem f ⟨100, 1⟩ ⟨101, 1⟩ m [[0, 1]]) 102 1 = [254] := by decide

/-- In place, in an order which is not that of the rows. -/
example : ∀ i, i < 4 → readMem (unaryMem (fun x => ((x.map fun b => -b) ++ [0, 0]).take 2) ⟨100, 2⟩ ⟨100, 2⟩ (fun a => BitVec.ofNat 8 (a - 99))
    [[2, 3], [0], [1]]) (100 + i * 2) 2 = ((readMem (fun a => BitVec.ofNat 8 (a - 99)) (100 + i * 2) 2).map (fun b => -b) ++ [0, 0]).take 2 :=
  unary_alias_partial _ ⟨100, 2⟩ ⟨100, 2⟩ 4 (fun x => by simp) (.inr (.inr ⟨rfl, rfl⟩)) _ _ (by decide)

end Riptide.Unary
