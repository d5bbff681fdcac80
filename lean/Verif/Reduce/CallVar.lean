import Verif.Reduce.CallMore
/-! # Variances of valid values, and means and variances of floats, by the call `Reduce` -/
namespace Riptide.Reduce
open Riptide.Work Riptide.Binary

/-- For booleans the kernel of the variance is the one for bytes. -/
theorem nanVar_acc (junk : Int) (mean : Q) {a : Arr} {t : IT} (ht : (a.ty, t) ∈ intTypes)
    (hb : a.ty = 0 → ∀ x ∈ a.data, x = 0 ∨ x = 1) (par : Par) : ∃ k, reducePtr a.ty.toNat 107 = some k ∧
      varAcc junk mean k a.data par = some (varScatter (nanVarBlock junk mean) (a.data.map (intQ t)) par) := by
  obtain ⟨_, e2, _, e4, e5, _⟩ := elem_int ht
  by_cases h0 : a.ty = 0
  · have := e5 h0
    subst this
    refine ⟨.nanVar .bool, by rw [h0]; rfl, ?_⟩
    have : (a.data.map fun x => (some ((rnd x : Int) : Rat) : Q)) = a.data.map (intQ .i8) := by
      apply List.map_congr_left
      intro x hx
      have hn : x ≠ IT.i8.inv := by
        intro hxi
        rcases hb h0 x hx with rfl | rfl <;> exact absurd hxi (by decide)
      rw [intQ, if_neg hn]
    simp only [varAcc, this]
  · exact ⟨.nanVar (.int t), by simp [reducePtr, e4 h0], rfl⟩

/-- C133 (partial, as C104).  The call with numbers 107 and 109 answers the variance of the valid integers, or its square root. -/
theorem call_int_nanvar_partial (junk : Int) (root : Bool) {a : Arr} (h : Flat a) {t : IT} (ht : (a.ty, t) ∈ intTypes)
    (hb : a.ty = 0 → ∀ x ∈ a.data, x = 0 ∨ x = 1) (ddof : Int) (hd : IT.i64.InRange ddof) (w1 w2 : Nat) (nt1 nt2 : Bool) (p1 p2 : Par)
    (hp1 : CoreSched w1 a.data.length nt1 p1) (hp2 : CoreSched w2 a.data.length nt2 p2)
    (hs : ((a.data.filter (· ≠ t.inv)).map Int.natAbs).sum < 2 ^ 53)
    (hl : p2 = none ∨ squares (a.data.filter (· ≠ t.inv)) < 2 ^ 63) :
    reduceCall junk [.arr a, .int (if root then 109 else 107), .int ddof] p1 p2 =
      ⟨false, if root then .std (varSpec (a.data.filter (· ≠ t.inv)) ddof) else .var (varSpec (a.data.filter (· ≠ t.inv)) ddof)⟩ := by
  obtain ⟨e1, e2, _⟩ := elem_int ht
  obtain ⟨k, k1, k2⟩ := nanSum_acc junk ht hb p1
  obtain ⟨v, v1, v2⟩ := nanVar_acc junk
    (meanQ (sumScatter (nanSumBlock junk fun x => if x = t.inv then none else some x) a.data p1)) ht hb p2
  have hv := nanvar_int_partial junk t a.data ddof w1 w2 nt1 nt2 p1 p2 hp1 hp2 hs hl
  rw [reduceNanVarInt] at hv
  have e := call_flat_ddof h junk (if root then 109 else 107) (by cases root <;> decide) ddof hd p1 p2
  have hm : ∀ f, f = 107 ∨ f = 109 → meanRun junk a.ty.toNat f ddof a.data p1 p2 =
      if f - f % 2 == 108 then .std (varSpec (a.data.filter (· ≠ t.inv)) ddof) else .var (varSpec (a.data.filter (· ≠ t.inv)) ddof) := by
    intro f hf
    have h1 : f % 2 = 1 := by omega
    have h2 : 103 < f := by omega
    rw [meanRun, h1, k1]
    simp only [k2]
    rw [if_pos h2, show 106 + 1 = 107 from rfl, v1, varRun]
    simp only [v2, hv]
  cases root
  · simp only [Bool.false_eq_true, if_false] at e ⊢
    have e' : internal junk a.ty 107 ddof a.data p1 p2 = .var (varSpec (a.data.filter (· ≠ t.inv)) ddof) := by
      rw [internal, if_neg e2, if_neg (by omega), v1]
      simp only
      rw [if_pos (by omega), hm 107 (.inl rfl)]
      rfl
    rw [e'] at e
    exact e
  · simp only [if_true] at e ⊢
    have e' : internal junk a.ty 109 ddof a.data p1 p2 = .std (varSpec (a.data.filter (· ≠ t.inv)) ddof) := by
      rw [internal, if_neg e2, if_neg (by omega), show reducePtr a.ty.toNat 109 = some .nanStdWrapper from rfl]
      simp only
      rw [if_pos (by omega), hm 109 (.inr rfl)]
      rfl
    rw [e'] at e
    exact e

example : reduceCall 0 [.arr ⟨3, ⟨[4], [2], 2⟩, [1, -32768, 2, 6]⟩, .int 109, .int 1] none none = ⟨false, .std (varSpec [1, 2, 6] 1)⟩ :=
  call_int_nanvar_partial 0 true (a := ⟨3, ⟨[4], [2], 2⟩, [1, -32768, 2, 6]⟩)
    ⟨⟨4, [], 2, [], rfl, rfl, .inr rfl⟩, rfl, by simp⟩ (t := .i16) (by decide) (by decide) 1 (by decide) 0 0 true true none none
    (.direct (.inr rfl)) (.direct (.inr rfl)) (by decide) (.inl rfl)

/-- C133 (partial, as C104).  The call with numbers 106 and 108 for floats which are NaN or whole numbers. -/
theorem call_flt_var_partial (junk : Int) (root : Bool) {a : Arr} (h : Flat a) {f : FT} (ht : (a.ty, f) ∈ fltTypes) {ds : List Dbl}
    (hds : a.data.mapM (asDbl f) = some ds) (ddof : Int) (hd : IT.i64.InRange ddof) (w1 w2 : Nat) (nt1 nt2 : Bool) (p1 p2 : Par)
    (hp1 : CoreSched w1 a.data.length nt1 p1) (hp2 : CoreSched w2 a.data.length nt2 p2) :
    ∃ q, reduceCall junk [.arr a, .int (if root then 108 else 106), .int ddof] p1 p2 = ⟨false, if root then .std q else .var q⟩ ∧
      (none ∈ ds → q = none) ∧
      (∀ ns : List Int, ns ≠ [] → ds = ns.map some → (ns.map Int.natAbs).sum < 2 ^ 53 →
        (p2 = none ∨ f = .f32 ∨ squares ns < 2 ^ 63) → q = varSpec ns ddof) := by
  obtain ⟨e1, e2, _⟩ := elem_flt ht (.int .i8)
  rw [← mapM_length hds] at hp1 hp2
  obtain ⟨h1, h2⟩ := var_flt_partial junk (decide (f = .f32)) ds ddof w1 w2 nt1 nt2 p1 p2 hp1 hp2
  refine ⟨reduceVarFlt junk (decide (f = .f32)) ds ddof p1 p2, ?_, h1, fun ns a1 a2 a3 a4 => h2 ns a1 a2 a3 (by simpa using a4)⟩
  have e := call_flat_ddof h junk (if root then 108 else 106) (by cases root <;> decide) ddof hd p1 p2
  cases root
  · have e' : internal junk a.ty 106 ddof a.data p1 p2 = .var (reduceVarFlt junk (decide (f = .f32)) ds ddof p1 p2) := by
      simp [internal, e2, reducePtr, e1, meanRun, sumAcc, varRun, varAcc, reduceVarFlt, hds]
    simp only [Bool.false_eq_true, if_false, e'] at e ⊢
    exact e
  · have e' : internal junk a.ty 108 ddof a.data p1 p2 = .std (reduceVarFlt junk (decide (f = .f32)) ds ddof p1 p2) := by
      simp [internal, e2, reducePtr, e1, meanRun, sumAcc, varRun, varAcc, reduceVarFlt, hds]
    simp only [if_true, e'] at e ⊢
    exact e

/-- The floats 1.0 and 3.0: hypotheses of `call_flt_var_partial` and `call_flt_sum_partial`. -/
example : ([0x3f800000, 0x40400000] : List Int).mapM (asDbl .f32) = some [some 1, some 3] := by decide +kernel

example : ∃ q, reduceCall 0 [.arr ⟨11, ⟨[2], [4], 4⟩, [0x3f800000, 0x40400000]⟩, .int 106, .int 0] none none = ⟨false, .var q⟩ ∧
    q = varSpec [1, 3] 0 := by
  obtain ⟨q, h1, _, h2⟩ := call_flt_var_partial 0 false (a := ⟨11, ⟨[2], [4], 4⟩, [0x3f800000, 0x40400000]⟩)
    ⟨⟨2, [], 4, [], rfl, rfl, .inr rfl⟩, rfl, by simp⟩ (f := .f32) (by decide) (ds := [some 1, some 3]) (by decide +kernel)
    0 (by decide) 0 0 true true none none (.direct (.inr rfl)) (.direct (.inr rfl))
  exact ⟨q, h1, h2 [1, 3] (by simp) rfl (by decide) (.inl rfl)⟩

end Riptide.Reduce
