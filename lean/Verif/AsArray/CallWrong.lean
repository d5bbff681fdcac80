import Verif.AsArray.CallProps
/-! # Where `AsAnyArray` and `AsFastArray` go wrong (C162) -/
namespace Riptide.AsArrayCall

/-- C162 is false of `copy=1`: the exception is set, but the array is returned all the same (`src/Array.cpp:199` and 286), of which Python makes a `SystemError`. -/
theorem as_any_bad_copy_wrong : ∃ E c r, c.Accepted ∧ c.name Kw.copy = some .other ∧ (asAny E c).reply = .both r .copy :=
  ⟨exE, exCall (.array exA) (some { noKw with copy := some .other }), _,
    ⟨by simp [Call.WrongCount, exCall], by simp [Call.Twice, Call.second, exCall], by simp [Call.dtype, Call.second, Call.name, exCall, noKw]⟩, rfl, rfl⟩

/-- C162 is false of `order=None`, which numpy takes: an exception beside an array. -/
theorem as_any_bad_order_wrong : ∃ E c r, c.Accepted ∧ c.name Kw.order = some .other ∧ (asAny E c).reply = .both r .order :=
  ⟨exE, exCall (.list [.bool true]) (some { noKw with order := some .other }), _,
    ⟨by simp [Call.WrongCount, exCall], by simp [Call.Twice, Call.second, exCall], by simp [Call.dtype, Call.second, Call.name, exCall, noKw]⟩, rfl, rfl⟩

/-- C162 is false of every call with a wrong `copy` or `order`: it never raises because of them. -/
theorem as_any_never_refuses (E : Env) (c : Call) : (asAny E c).reply ≠ .raised .copy ∧ (asAny E c).reply ≠ .raised .order := by
  rcases asAny_cases E c with ⟨_, h2⟩ | ⟨_, _, h2⟩ | ⟨_, _, _, d, h2⟩ | ⟨_, _, _, h2⟩ | ⟨hacc, _⟩
  · simp [h2]
  · simp [h2]
  · simp [h2]
  · simp [h2]
  · constructor <;> (intro h; rcases convert_not_early hacc _ h with h | h <;> cases h)

/-- C162 is false of orders: `f`, which numpy takes for `F`, asks for the order `C` (`src/Array.cpp:208-215`). -/
theorem as_any_order_wrong : ∃ c : Call, c.name Kw.order = some (.text [102]) ∧ ∀ fl, c.asks fl → fl.c = true ∧ fl.f = false := by
  refine ⟨exCall (.array exA) (some { noKw with order := some (.text [102]) }), rfl, fun fl h => ?_⟩
  rw [asks_unique h (flags_asks _)]
  exact ⟨rfl, rfl⟩

/-- C162 is false of dimensions: an array without any comes back as it is, although a scalar is to become an array with one dimension (`src/Array.cpp:235` and 293-300). -/
theorem as_any_no_dims_wrong : ∃ E c r, (asAny E c).reply = .value r ∧ r.dims = [] :=
  ⟨exE, exCall (.array { exA with dims := [] }) none, _, rfl, rfl⟩

/-- The same array with `copy=True` gets a dimension. -/
theorem as_any_copy_adds_dimension : ∃ E a r, a.dims = [] ∧ (asAny E (exCall (.array a) (some { noKw with copy := some .yes }))).reply = .value r ∧ r.dims = [1] :=
  ⟨exE, { exA with dims := [] }, _, rfl, rfl, rfl⟩

/-- C162 is false of `dtype=None`, which means no dtype to numpy: integers become doubles, for `np.dtype(None)` is asked for (`src/RipTide.h:213`). -/
theorem as_any_dtype_none_wrong : ∃ (E : Env) (a : NArr) (r : Res) (b o : List Nat),
    (asAny E (exCall (.array a) none)).reply = .value a.res ∧ a.ty ≠ E.double.ty ∧
    (asAny E (exCall (.array a) (some { noKw with dtype := some .none }))).reply = .value r ∧ r.what = .raw E.double.ty b o :=
  ⟨exE, exA, _, _, _, rfl, by decide, rfl, rfl⟩

/-- C162 is false of dates: an array with one item has only the number of the type, so the unit is lost (`src/Array.cpp:395`). -/
theorem as_any_unit_wrong : ∃ E c r m b o, c.numpy E (some m) ∧ (asAny E c).reply = .value r ∧ r.what = .raw ⟨21, 8, false, 0⟩ b o ∧ m.arr.ty = ⟨21, 8, false, 4⟩ :=
  ⟨exE, exCall (.other 3) none, _, _, _, _, ⟨.other 3, Flags.plain, rfl, flags_asks (exCall (.other 3) none), rfl⟩, rfl, rfl, rfl⟩

/-- C162 is false of numbers in the other order of bytes: the bytes are copied and read in the order of the machine (`src/Array.cpp:395-398`). -/
theorem as_any_swapped_wrong : ∃ E c r m b o, c.numpy E (some m) ∧ (asAny E c).reply = .value r ∧ m.arr.ty = ⟨5, 4, true, 0⟩ ∧ m.arr.bytes = b ∧
    r.what = .raw ⟨5, 4, false, 0⟩ b o ∧ b = [0, 0, 0, 1] :=
  ⟨exE, exCall (.other 4) none, _, _, _, _, ⟨.other 4, Flags.plain, rfl, flags_asks (exCall (.other 4) none), rfl⟩, rfl, rfl, rfl, rfl, rfl⟩

/-- C162 is false of Python objects: an array with one item points to the object without counting it (`src/Array.cpp:398`), so it can be freed while the array is in use. -/
theorem as_any_object_wrong : ∃ E c r ty b, (asAny E c).reply = .value r ∧ r.what = .raw ty b [2] ∧ netHeld (asAny E c).ticks 2 = 1 ∧ netCounted (asAny E c).ticks 2 = 0 :=
  ⟨exE, exCall (.other 2) none, _, _, _, rfl, rfl, by decide, by decide⟩

/-- C162 is false of a dtype given twice: the descriptor of the first is never given back (`src/Array.cpp:272-275`). -/
theorem as_any_twice_leaks (E : Env) (c : Call) (h : (asAny E c).reply = .raised .twice) :
    ∃ i, netCounted (asAny E c).ticks i = 1 ∧ netHeld (asAny E c).ticks i = 0 := by
  rcases asAny_cases E c with ⟨_, h2⟩ | ⟨_, _, h2⟩ | ⟨_, _, _, d, h2⟩ | ⟨_, _, _, h2⟩ | ⟨hacc, _⟩
  · rw [h2] at h; cases h
  · rw [h2] at h; cases h
  · refine ⟨d.id, ?_⟩
    rw [h2]
    simp [netCounted, netHeld, gain, forget]
  · rw [h2] at h; cases h
  · rcases convert_not_early hacc _ h with h | h <;> cases h

/-- C162 is false of `AsFastArray`: whatever `AsAnyArray` refuses is undefined once the class of fast arrays is known (`src/Array.cpp:414`, `src/RipTide.cpp:439`). -/
theorem as_fast_error_wrong (E : Env) (c : Call) (e : Exc) (hf : E.fast = true) (h : (asAny E c).reply = .raised e) : (asFast E c).reply = .undefined :=
  (as_fast_undefined_iff E c).2 (Or.inr ⟨hf, e, h⟩)

example : (asFast exE ⟨[], none⟩).reply = .undefined := as_fast_error_wrong exE _ .count rfl rfl
example : (asFast { exE with fast := false } ⟨[], none⟩).reply = .raised .count := rfl

end Riptide.AsArrayCall
