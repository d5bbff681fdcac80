import Verif.AsArray.CallLemmas
/-! # What `AsAnyArray` and `AsFastArray` do (C162) -/
namespace Riptide.AsArrayCall

/-! ### Examples -/

/-- Numpy of the examples: arrays stay what they are unless a copy is asked for; other things are scalars, among them a Python object, a date and a number in the other order of bytes. -/
def exFromAny (obj : Input) (d : Option DType) (fl : Flags) : Option Made :=
  match obj with
  | .array a => if fl.copy then some ⟨{ a with id := 50, ty := d.getD a.ty }, false⟩ else some ⟨{ a with ty := d.getD a.ty }, true⟩
  | .list l => some ⟨⟨51, .numpy, [l.length], d.getD ⟨17, 8, false, 0⟩, [], [8]⟩, false⟩
  | .other 1 => some ⟨⟨52, .numpy, [], d.getD ⟨7, 8, false, 0⟩, [5, 0, 0, 0, 0, 0, 0, 0], []⟩, false⟩
  | .other 2 => some ⟨⟨53, .numpy, [], d.getD ⟨17, 8, false, 0⟩, [1, 2, 3, 4, 5, 6, 7, 8], [2]⟩, false⟩
  | .other 3 => some ⟨⟨54, .numpy, [], d.getD ⟨21, 8, false, 4⟩, [1, 0, 0, 0, 0, 0, 0, 0], []⟩, false⟩
  | .other 4 => some ⟨⟨55, .numpy, [], d.getD ⟨5, 4, true, 0⟩, [0, 0, 0, 1], []⟩, false⟩
  | .other _ => none

/-- The class of fast arrays is known and there is memory. -/
def exE : Env :=
  { fast := true, long4 := false, junk := fun _ => 7, fresh := 90, view := 91, double := ⟨92, ⟨12, 8, false, 0⟩⟩, enough := true, viewOk := true, fromAny := exFromAny }

/-- An array of two integers. -/
def exA : NArr := ⟨10, .numpy, [2], ⟨7, 8, false, 0⟩, [1, 0, 0, 0, 0, 0, 0, 0, 2, 0, 0, 0, 0, 0, 0, 0], []⟩

/-- Nothing given by name. -/
def noKw : Kw := ⟨none, none, none, []⟩

/-- A call with one argument. -/
def exCall (obj : Input) (kw : Option Kw) : Call := ⟨[⟨obj, .bad⟩], kw⟩

/-! ### Which arguments are refused -/

theorem convert_not_early {E : Env} {c : Call} (h : c.Accepted) (e : Exc) (he : (asAny E c).reply = .raised e) : e = .numpy ∨ e = .memory := by
  rcases accepted_cases (E := E) h with ⟨a, _, _, _, h1⟩ | ⟨l, _, _, _, h1⟩ | ⟨_, obj, _, h1⟩
  · rw [h1] at he; exact absurd he (answer_ne_raised _ _ _)
  · rw [h1] at he
    split at he
    · exact absurd he (answer_ne_raised _ _ _)
    · split at he
      · simp at he; exact Or.inr he.symm
      · simp at he
  · rw [h1] at he
    rcases viaNumpy_cases E obj (c.descr E) c.flags c.exc (descrTicks (c.descr E)) with ⟨_, h2⟩ | ⟨m, _, _, h2⟩ | ⟨m, _, _, _, h2⟩ | ⟨m, _, _, _, h2⟩
    · rw [h2] at he; simp at he; exact Or.inl he.symm
    · rw [h2] at he; exact absurd he (answer_ne_raised _ _ _)
    · rw [h2] at he; exact absurd he (answer_ne_raised _ _ _)
    · rw [h2] at he; simp at he

/-- C162: the call complains about the number of arguments exactly if there are not one or two by position. -/
theorem as_any_count_iff (E : Env) (c : Call) : (asAny E c).reply = .raised .count ↔ c.WrongCount := by
  rcases asAny_cases E c with ⟨h1, h2⟩ | ⟨h1, _, h2⟩ | ⟨h1, _, _, d, h2⟩ | ⟨h1, _, _, h2⟩ | ⟨h1, _⟩
  · simp [h1, h2]
  · simp [h1, h2]
  · simp [h1, h2]
  · simp [h1, h2]
  · constructor
    · intro h; rcases convert_not_early h1 _ h with h | h <;> simp at h
    · intro h; exact absurd h h1.1

example : (asAny exE ⟨[], none⟩).reply = .raised .count ∧ Call.WrongCount ⟨[], none⟩ := ⟨rfl, by simp [Call.WrongCount]⟩

/-- C162: it complains about a dtype given twice exactly if the one by position is fine and there is another one by name, whatever that is. -/
theorem as_any_twice_iff (E : Env) (c : Call) : (asAny E c).reply = .raised .twice ↔ ¬ c.WrongCount ∧ c.Twice ∧ c.second ≠ some .bad := by
  rcases asAny_cases E c with ⟨h1, h2⟩ | ⟨h1, h3, h2⟩ | ⟨h1, h3, h4, d, h2⟩ | ⟨h1, h3, h4, h2⟩ | ⟨h1, _⟩
  · simp [h1, h2]
  · simp [h3, h2]
  · simp [h1, h3, h4, h2]
  · have : ¬ c.Twice := fun ht => by obtain ⟨⟨d, hd⟩, _⟩ := ht; rw [h3] at hd; cases hd
    simp [this, h2]
  · constructor
    · intro h; rcases convert_not_early h1 _ h with h | h <;> simp at h
    · intro h; exact absurd h.2.1 h1.2.1

example : (asAny exE ⟨[⟨.other 1, .bad⟩, ⟨.other 0, .none⟩], some { noKw with dtype := some .bad }⟩).reply = .raised .twice := rfl

/-- C162: it complains about the dtype exactly if numpy refuses the one by position, or the one by name if there is none by position. -/
theorem as_any_dtype_iff (E : Env) (c : Call) :
    (asAny E c).reply = .raised .dtype ↔ ¬ c.WrongCount ∧ c.dtype = some .bad ∧ (c.second = none ∨ c.second = some .bad) := by
  rcases asAny_cases E c with ⟨h1, h2⟩ | ⟨h1, h3, h2⟩ | ⟨h1, h3, h4, d, h2⟩ | ⟨h1, h3, h4, h2⟩ | ⟨h1, _⟩
  · simp [h1, h2]
  · simp [h1, h3, h2, Call.dtype]
  · obtain ⟨⟨d', hd'⟩, _⟩ := h4
    rw [h2]
    simp only [Reply.raised.injEq, reduceCtorEq, false_iff]
    rintro ⟨_, _, h | h⟩
    · rw [h] at hd'; cases hd'
    · exact h3 h
  · simp [h1, h3, h4, h2, Call.dtype]
  · constructor
    · intro h; rcases convert_not_early h1 _ h with h | h <;> simp at h
    · intro h; exact absurd h.2.1 h1.2.2

example : (asAny exE (exCall (.other 1) (some { noKw with dtype := some .bad }))).reply = .raised .dtype := rfl

/-- C162: everything else is taken: an array comes back, numpy refuses, or memory runs out. -/
theorem as_any_accepted (E : Env) (c : Call) (h : c.Accepted) :
    (∃ r, (asAny E c).reply.res = some r) ∨ ((asAny E c).reply = .raised .numpy ∧ ¬ c.Easy E ∧ c.numpy E none) ∨ E.enough = false := by
  rcases accepted_cases (E := E) h with ⟨a, _, _, _, h1⟩ | ⟨l, _, _, _, h1⟩ | ⟨hn, obj, hf, h1⟩
  · exact Or.inl ⟨a.res, by rw [h1]; exact answer_res _ _⟩
  · by_cases he : E.enough = true
    · exact Or.inl ⟨_, by rw [h1, if_pos he]; exact answer_res _ _⟩
    · exact Or.inr (Or.inr (by simpa using he))
  · rw [h1]
    rcases viaNumpy_cases E obj (c.descr E) c.flags c.exc (descrTicks (c.descr E)) with ⟨h3, h2⟩ | ⟨m, _, _, h2⟩ | ⟨m, _, _, _, h2⟩ | ⟨m, _, _, he, h2⟩
    · exact Or.inr (Or.inl ⟨by rw [h2], hn, (numpy_iff hf _).2 h3⟩)
    · exact Or.inl ⟨_, by rw [h2]; exact answer_res _ _⟩
    · exact Or.inl ⟨_, by rw [h2]; exact answer_res _ _⟩
    · exact Or.inr (Or.inr he)

example : (exCall (.other 1) none).Accepted ∧ ((asAny exE (exCall (.other 1) none)).reply.res).isSome := by
  refine ⟨⟨by simp [Call.WrongCount, exCall], by simp [Call.Twice, Call.second, exCall], by simp [Call.dtype, Call.second, Call.name, exCall]⟩, rfl⟩

/-- C162 in part: an array which comes back comes back without an exception exactly if `copy` is a bool and `order` is a text. That others are refused with a null
pointer is missing (`as_any_bad_copy_wrong`). -/
theorem as_any_value_iff_partial (E : Env) (c : Call) (r : Res) (h : (asAny E c).reply.res = some r) : (asAny E c).reply = .value r ↔ c.Sound := by
  have key : ∀ r', (asAny E c).reply = answer c.exc r' → ((asAny E c).reply = .value r ↔ c.Sound) := by
    intro r' hr
    rw [hr, answer_res] at h
    cases h
    rw [hr, answer_value, exc_none]
    simp
  rcases asAny_cases E c with ⟨_, h2⟩ | ⟨_, _, h2⟩ | ⟨_, _, _, d, h2⟩ | ⟨_, _, _, h2⟩ | ⟨hacc, _⟩
  · rw [h2] at h; cases h
  · rw [h2] at h; cases h
  · rw [h2] at h; cases h
  · rw [h2] at h; cases h
  · rcases accepted_cases (E := E) hacc with ⟨a, _, _, _, h1⟩ | ⟨l, _, _, _, h1⟩ | ⟨_, obj, _, h1⟩
    · exact key _ (by rw [h1])
    · by_cases he : E.enough = true
      · rw [if_pos he] at h1; exact key _ (by rw [h1])
      · rw [if_neg he] at h1
        split at h1 <;> (rw [h1] at h; cases h)
    · rcases viaNumpy_cases E obj (c.descr E) c.flags c.exc (descrTicks (c.descr E)) with ⟨_, h2⟩ | ⟨m, _, _, h2⟩ | ⟨m, _, _, _, h2⟩ | ⟨m, _, _, _, h2⟩
      · rw [h1, h2] at h; cases h
      · exact key _ (by rw [h1, h2])
      · exact key _ (by rw [h1, h2])
      · rw [h1, h2] at h; cases h

/-- C162: the exception which is left beside an array is the one about `order`, or else the one about `copy`. -/
theorem as_any_both (E : Env) (c : Call) (r : Res) (e : Exc) (h : (asAny E c).reply = .both r e) :
    (e = .order ∧ c.name Kw.order = some .other) ∨ (e = .copy ∧ c.name Kw.copy = some .other ∧ c.name Kw.order ≠ some .other) := by
  have key : ∀ r', (asAny E c).reply = answer c.exc r' → (e = .order ∧ c.name Kw.order = some .other) ∨
      (e = .copy ∧ c.name Kw.copy = some .other ∧ c.name Kw.order ≠ some .other) := by
    intro r' hr
    rw [hr, answer_both] at h
    exact (exc_some c e).1 h.1
  rcases asAny_cases E c with ⟨_, h2⟩ | ⟨_, _, h2⟩ | ⟨_, _, _, d, h2⟩ | ⟨_, _, _, h2⟩ | ⟨hacc, _⟩
  · rw [h2] at h; cases h
  · rw [h2] at h; cases h
  · rw [h2] at h; cases h
  · rw [h2] at h; cases h
  · rcases accepted_cases (E := E) hacc with ⟨a, _, _, _, h1⟩ | ⟨l, _, _, _, h1⟩ | ⟨_, obj, _, h1⟩
    · exact key _ (by rw [h1])
    · by_cases he : E.enough = true
      · rw [if_pos he] at h1; exact key _ (by rw [h1])
      · rw [if_neg he] at h1
        split at h1 <;> (rw [h1] at h; cases h)
    · rcases viaNumpy_cases E obj (c.descr E) c.flags c.exc (descrTicks (c.descr E)) with ⟨_, h2⟩ | ⟨m, _, _, h2⟩ | ⟨m, _, _, _, h2⟩ | ⟨m, _, _, _, h2⟩
      · rw [h1, h2] at h; cases h
      · exact key _ (by rw [h1, h2])
      · exact key _ (by rw [h1, h2])
      · rw [h1, h2] at h; cases h

example : (asAny exE (exCall (.array exA) (some { noKw with copy := some .other, order := some .other }))).reply = .both exA.res .order := rfl

/-! ### What comes back -/

/-- C162: an array for which no dtype, no copy and no order is asked comes back itself, and its counter is one higher. -/
theorem as_any_same (E : Env) (c : Call) (a : NArr) (h : c.Accepted) (hd : c.dtype = none) (hf : c.first = some (.array a)) (hp : c.Plain) :
    (asAny E c).reply.res = some a.res ∧ ∀ i, netCounted (asAny E c).ticks i = if i = a.id then 1 else 0 := by
  rcases accepted_cases (E := E) h with ⟨b, _, hb, _, h1⟩ | ⟨l, _, hl, _, _⟩ | ⟨hn, _⟩
  · rw [hf] at hb; cases hb
    rw [h1]
    refine ⟨answer_res _ _, fun i => ?_⟩
    show netCounted [gain a.id] i = _
    rw [netCounted_cons]
    by_cases hi : i = a.id
    · simp [gain, hi, netCounted]
    · simp [gain, hi, netCounted, Ne.symm hi]
  · rw [hf] at hl; cases hl
  · exact absurd ⟨hd, Or.inl ⟨a, hf, hp⟩⟩ hn

example : (asAny exE (exCall (.array exA) (some { noKw with copy := some .no }))).reply = .value exA.res := rfl

/-- C162: with `copy=True` an array never comes back itself. -/
theorem as_any_copy (E : Env) (hE : E.Honest) (c : Call) (a : NArr) (r : Res) (hf : c.first = some (.array a)) (hc : c.name Kw.copy = some .yes)
    (hfr : E.fresh ≠ a.id) (h : (asAny E c).reply.res = some r) : r.id ≠ a.id := by
  rcases asAny_cases E c with ⟨_, h2⟩ | ⟨_, _, h2⟩ | ⟨_, _, _, d, h2⟩ | ⟨_, _, _, h2⟩ | ⟨hacc, _⟩
  · rw [h2] at h; cases h
  · rw [h2] at h; cases h
  · rw [h2] at h; cases h
  · rw [h2] at h; cases h
  · have hcopy : c.flags.copy = true := (flags_asks c).1.2 hc
    rcases accepted_cases (E := E) hacc with ⟨b, _, _, hp, _⟩ | ⟨l, _, hl, _, _⟩ | ⟨_, obj, hf', h1⟩
    · exact absurd hc hp.1
    · rw [hf] at hl; cases hl
    · rw [hf] at hf'; cases hf'
      rcases viaNumpy_cases E (.array a) (c.descr E) c.flags c.exc (descrTicks (c.descr E)) with ⟨_, h2⟩ | ⟨m, hm, _, h2⟩ | ⟨m, _, _, _, h2⟩ | ⟨m, _, _, _, h2⟩
      · rw [h1, h2] at h; cases h
      · rw [h1, h2] at h
        simp only [answer_res, Option.some.injEq] at h
        rw [← h]
        exact hE.own a _ _ m hm (hE.copies _ _ _ m hcopy hm)
      · rw [h1, h2] at h
        simp only [answer_res, Option.some.injEq] at h
        rw [← h]; exact hfr
      · rw [h1, h2] at h; cases h

example : ∃ r, (asAny exE (exCall (.array exA) (some { noKw with copy := some .yes }))).reply.res = some r ∧ r.id = 50 := ⟨_, rfl, rfl⟩

/-- C162: of a list of one kind, without a dtype, a new array with one dimension is made, whatever copy and order are asked for; what is in it is said by C107. -/
theorem as_any_list (E : Env) (c : Call) (l : List AsArray.Obj) (h : c.Accepted) (hd : c.dtype = none) (hf : c.first = some (.list l))
    (hl : AsArray.asArray E.long4 E.junk l ≠ .numpy) (he : E.enough = true) :
    (asAny E c).reply.res = some ⟨E.fresh, if E.fast then .fast else .numpy, [l.length], .conv (AsArray.asArray E.long4 E.junk l)⟩ ∧
    ∀ i, netCounted (asAny E c).ticks i = if i = E.fresh then 1 else 0 := by
  rcases accepted_cases (E := E) h with ⟨b, _, hb, _, h1⟩ | ⟨l', _, hl', _, h1⟩ | ⟨hn, _⟩
  · rw [hf] at hb; cases hb
  · rw [hf] at hl'; cases hl'
    rw [h1, if_pos he]
    refine ⟨answer_res _ _, fun i => ?_⟩
    show netCounted [gain E.fresh] i = _
    rw [netCounted_cons]
    by_cases hi : i = E.fresh
    · simp [gain, hi, netCounted]
    · simp [gain, hi, netCounted, Ne.symm hi]
  · exact absurd ⟨hd, Or.inr ⟨l, hf, hl⟩⟩ hn

example : (asAny exE (exCall (.list [.int 0 3, .int 0 4]) none)).reply = .value ⟨90, .fast, [2], .conv (.ints 64 [3, 4])⟩ := rfl

/-- C162: everything else is what numpy makes of it with this dtype, copy and order, if that has dimensions. -/
theorem as_any_numpy (E : Env) (c : Call) (h : c.Accepted) (hn : ¬ c.Easy E) (m : Made) (hm : c.numpy E (some m)) (hd : m.arr.dims ≠ []) :
    (asAny E c).reply.res = some m.arr.res := by
  rcases accepted_cases (E := E) h with ⟨b, h1, h2, h3, _⟩ | ⟨l, h1, h2, h3, _⟩ | ⟨_, obj, hf, h1⟩
  · exact absurd ⟨h1, Or.inl ⟨b, h2, h3⟩⟩ hn
  · exact absurd ⟨h1, Or.inr ⟨l, h2, h3⟩⟩ hn
  · have hm' := (numpy_iff hf _).1 hm
    rw [h1]
    rcases viaNumpy_cases E obj (c.descr E) c.flags c.exc (descrTicks (c.descr E)) with ⟨h3, _⟩ | ⟨m', h3, _, h2⟩ | ⟨m', h3, h4, _, _⟩ | ⟨m', h3, h4, _, _⟩
    · rw [hm'] at h3; cases h3
    · rw [hm'] at h3; cases h3
      rw [h2]; exact answer_res _ _
    · rw [hm'] at h3; cases h3; exact absurd h4 hd
    · rw [hm'] at h3; cases h3; exact absurd h4 hd

example : ∃ r, (asAny exE (exCall (.list [.int 0 3, .float 0 4]) none)).reply.res = some r ∧ r.id = 51 ∧ r.dims = [2] := ⟨_, rfl, rfl, rfl⟩

/-- C162: an array without dimensions which numpy makes becomes one with one item, of the class new arrays have. -/
theorem as_any_scalar (E : Env) (c : Call) (h : c.Accepted) (hn : ¬ c.Easy E) (m : Made) (hm : c.numpy E (some m)) (hd : m.arr.dims = [])
    (he : E.enough = true) : ∃ r ty b, (asAny E c).reply.res = some r ∧ r.id = E.fresh ∧ r.cls = (if E.fast then .fast else .numpy) ∧ r.dims = [1] ∧
      r.what = .raw ty b m.arr.objs ∧ ty.num = m.arr.ty.num ∧
      (m.arr.bytes.length = m.arr.ty.item → ((ty = m.arr.ty ∧ b = m.arr.bytes) ↔ m.arr.ty.swapped = false ∧ m.arr.ty.extra = 0 ∧ m.arr.ty.item ≠ 0)) := by
  rcases accepted_cases (E := E) h with ⟨b, h1, h2, h3, _⟩ | ⟨l, h1, h2, h3, _⟩ | ⟨_, obj, hf, h1⟩
  · exact absurd ⟨h1, Or.inl ⟨b, h2, h3⟩⟩ hn
  · exact absurd ⟨h1, Or.inr ⟨l, h2, h3⟩⟩ hn
  · have hm' := (numpy_iff hf _).1 hm
    rw [h1]
    rcases viaNumpy_cases E obj (c.descr E) c.flags c.exc (descrTicks (c.descr E)) with ⟨h3, _⟩ | ⟨m', h3, h4, _⟩ | ⟨m', h3, _, _, h2⟩ | ⟨m', h3, _, h4, _⟩
    · rw [hm'] at h3; cases h3
    · rw [hm'] at h3; cases h3; exact absurd hd h4
    · rw [hm'] at h3; cases h3
      rw [h2]
      refine ⟨_, _, _, answer_res _ _, rfl, rfl, rfl, rfl, rfl, ?_⟩
      intro hb
      obtain ⟨⟨id, cls, dims, ⟨num, item, sw, ex⟩, bytes, objs⟩, sh⟩ := m
      simp only at hb
      by_cases h0 : item = 0
      · simp [oneItem, h0]
      · have ht : bytes.take item = bytes := by rw [← hb]; exact List.take_length
        simp only [oneItem, if_neg h0, ht, DType.mk.injEq, true_and, and_true]
        constructor
        · rintro ⟨h1, h2⟩; exact ⟨h1.symm, h2.symm, h0⟩
        · rintro ⟨h1, h2, _⟩; exact ⟨h1.symm, h2.symm⟩
    · rw [he] at h4; cases h4

example : (asAny exE (exCall (.other 1) none)).reply = .value ⟨90, .fast, [1], .raw ⟨7, 8, false, 0⟩ [5, 0, 0, 0, 0, 0, 0, 0] []⟩ := rfl

/-- C162 in part: only an array which is given itself and comes back can be without dimensions. That it has at least one, too, is missing (`as_any_no_dims_wrong`). -/
theorem as_any_dims_partial (E : Env) (c : Call) (r : Res) (h : (asAny E c).reply.res = some r) (h0 : r.dims = []) :
    ∃ a, c.first = some (.array a) ∧ r = a.res ∧ c.Plain ∧ c.dtype = none := by
  rcases asAny_cases E c with ⟨_, h2⟩ | ⟨_, _, h2⟩ | ⟨_, _, _, d, h2⟩ | ⟨_, _, _, h2⟩ | ⟨hacc, _⟩
  · rw [h2] at h; cases h
  · rw [h2] at h; cases h
  · rw [h2] at h; cases h
  · rw [h2] at h; cases h
  · rcases accepted_cases (E := E) hacc with ⟨a, hd, hf, hp, h1⟩ | ⟨l, _, hl, _, h1⟩ | ⟨_, obj, hf', h1⟩
    · rw [h1, answer_res] at h; cases h
      exact ⟨a, hf, rfl, hp, hd⟩
    · by_cases he : E.enough = true
      · rw [if_pos he] at h1; rw [h1, answer_res] at h; cases h; cases h0
      · rw [if_neg he] at h1
        split at h1 <;> (rw [h1] at h; cases h)
    · rcases viaNumpy_cases E obj (c.descr E) c.flags c.exc (descrTicks (c.descr E)) with ⟨_, h2⟩ | ⟨m, hm, h4, h2⟩ | ⟨m, _, _, _, h2⟩ | ⟨m, _, _, _, h2⟩
      · rw [h1, h2] at h; cases h
      · rw [h1, h2, answer_res] at h; cases h; exact absurd h0 h4
      · rw [h1, h2, answer_res] at h; cases h; cases h0
      · rw [h1, h2] at h; cases h

/-- C162: names nobody asks for change nothing: they are not refused. -/
theorem as_any_extra (E : Env) (pos : List PArg) (k : Kw) (ex : List Nat) : asAny E ⟨pos, some { k with extra := ex }⟩ = asAny E ⟨pos, some k⟩ := rfl

/-- C162: giving no names and giving none of `dtype`, `copy` and `order` is the same. -/
theorem as_any_no_names (E : Env) (pos : List PArg) (ex : List Nat) : asAny E ⟨pos, some ⟨none, none, none, ex⟩⟩ = asAny E ⟨pos, none⟩ := by
  match pos with
  | [] => rfl
  | [_] => rfl
  | [a, b] => simp only [asAny]; cases toDescr E b.dt <;> rfl
  | _ :: _ :: _ :: _ => rfl

/-- C162: a dtype by position and the same one by name do the same. -/
theorem as_any_position_or_name (E : Env) (a : PArg) (o : Input) (x : DArg) (k : Kw) :
    asAny E ⟨[a, ⟨o, x⟩], some { k with dtype := none }⟩ = asAny E ⟨[a], some { k with dtype := some x }⟩ := by
  simp only [asAny, behind, withKw]
  cases toDescr E x <;> rfl

example : (asAny exE ⟨[⟨.array exA, .bad⟩, ⟨.other 0, .made ⟨93, ⟨5, 4, false, 0⟩⟩⟩], some noKw⟩).reply =
    (asAny exE (exCall (.array exA) (some { noKw with dtype := some (.made ⟨93, ⟨5, 4, false, 0⟩⟩) }))).reply := rfl

/-- C162: the call is undefined exactly if memory runs out for an array whose items are written then: of a list which is not empty, or of a scalar. -/
theorem as_any_undefined_iff (E : Env) (c : Call) : (asAny E c).reply = .undefined ↔ c.Accepted ∧ E.enough = false ∧
    ((∃ l, c.first = some (.list l) ∧ l ≠ [] ∧ c.Easy E) ∨ (¬ c.Easy E ∧ ∃ m, c.numpy E (some m) ∧ m.arr.dims = [])) := by
  rcases asAny_cases E c with ⟨h1, h2⟩ | ⟨_, h1, h2⟩ | ⟨_, _, h1, d, h2⟩ | ⟨_, h1, h3, h2⟩ | ⟨hacc, _⟩
  · rw [h2]; simp only [reduceCtorEq, false_iff]; exact fun h => absurd h1 h.1.1
  · rw [h2]; simp only [reduceCtorEq, false_iff]; exact fun h => h.1.2.2 (by simp [Call.dtype, h1])
  · rw [h2]; simp only [reduceCtorEq, false_iff]; exact fun h => h.1.2.1 h1
  · rw [h2]; simp only [reduceCtorEq, false_iff]; exact fun h => h.1.2.2 (by simp [Call.dtype, h1, h3])
  · rcases accepted_cases (E := E) hacc with ⟨a, hd, hf, hp, h1⟩ | ⟨l, hd, hf, hl, h1⟩ | ⟨hn, obj, hf, h1⟩
    · rw [h1]
      constructor
      · intro h; exact absurd h (answer_ne_undefined _ _)
      · rintro ⟨_, _, ⟨l, hl, _⟩ | ⟨hn, _⟩⟩
        · rw [hf] at hl; cases hl
        · exact absurd ⟨hd, Or.inl ⟨a, hf, hp⟩⟩ hn
    · rw [h1]
      have hez : c.Easy E := ⟨hd, Or.inr ⟨l, hf, hl⟩⟩
      by_cases he : E.enough = true
      · rw [if_pos he]
        constructor
        · intro h; exact absurd h (answer_ne_undefined _ _)
        · rintro ⟨_, h, _⟩; rw [he] at h; cases h
      · rw [if_neg he]
        have he' : E.enough = false := by simpa using he
        by_cases h0 : l = []
        · rw [if_pos h0]
          constructor
          · intro h; cases h
          · rintro ⟨_, _, ⟨l', hl', hne, _⟩ | ⟨hn, _⟩⟩
            · rw [hf] at hl'; cases hl'; exact absurd h0 hne
            · exact absurd hez hn
        · rw [if_neg h0]
          exact ⟨fun _ => ⟨hacc, he', Or.inl ⟨l, hf, h0, hez⟩⟩, fun _ => rfl⟩
    · rw [h1]
      constructor
      · intro h
        rcases viaNumpy_cases E obj (c.descr E) c.flags c.exc (descrTicks (c.descr E)) with ⟨_, h2⟩ | ⟨m, hm, h4, h2⟩ | ⟨m, _, _, _, h2⟩ | ⟨m, hm, h4, he, h2⟩
        · rw [h2] at h; cases h
        · rw [h2] at h; exact absurd h (answer_ne_undefined _ _)
        · rw [h2] at h; exact absurd h (answer_ne_undefined _ _)
        · exact ⟨hacc, he, Or.inr ⟨hn, m, (numpy_iff hf _).2 hm, h4⟩⟩
      · rintro ⟨_, he, ⟨l, _, _, hez⟩ | ⟨_, m, hm, h0⟩⟩
        · exact absurd hez hn
        · have hm' := (numpy_iff hf _).1 hm
          rcases viaNumpy_cases E obj (c.descr E) c.flags c.exc (descrTicks (c.descr E)) with ⟨h3, _⟩ | ⟨m', h3, h4, _⟩ | ⟨m', h3, _, h4, _⟩ | ⟨m', h3, _, h4, h2⟩
          · rw [hm'] at h3; cases h3
          · rw [hm'] at h3; cases h3; exact absurd h0 h4
          · rw [he] at h4; cases h4
          · rw [h2]

example : (asAny { exE with enough := false } (exCall (.other 1) none)).reply = .undefined := rfl
example : (asAny { exE with enough := false } (exCall (.list []) none)).reply = .raised .memory := rfl

/-! ### References -/

/-- C162 in part: every object is counted as often as it is held unless a dtype was given twice or a Python object became an array with one item. That it is so always
is missing (`as_any_twice_leaks`, `as_any_object_wrong`). -/
theorem as_any_balanced_iff_partial (E : Env) (c : Call) (hu : (asAny E c).reply ≠ .undefined) : Balanced (asAny E c).ticks ↔
    ¬ (asAny E c).reply = .raised .twice ∧
    ¬ (c.Accepted ∧ ¬ c.Easy E ∧ ∃ m, c.numpy E (some m) ∧ m.arr.dims = [] ∧ m.arr.ty.num = 17 ∧ m.arr.objs ≠ []) := by
  rcases asAny_cases E c with ⟨h1, h2⟩ | ⟨_, h1, h2⟩ | ⟨_, _, h1, d, h2⟩ | ⟨_, h1, h3, h2⟩ | ⟨hacc, _⟩
  · rw [h2]
    exact ⟨fun _ => ⟨by simp, fun h => absurd h1 h.1.1⟩, fun _ i => rfl⟩
  · rw [h2]
    exact ⟨fun _ => ⟨by simp, fun h => h.1.2.2 (by simp [Call.dtype, h1])⟩, fun _ i => rfl⟩
  · rw [h2]
    constructor
    · intro h
      have := h d.id
      simp [netCounted, netHeld, gain, forget] at this
    · rintro ⟨h, _⟩; exact absurd rfl h
  · rw [h2]
    exact ⟨fun _ => ⟨by simp, fun h => h.1.2.2 (by simp [Call.dtype, h1, h3])⟩, fun _ i => rfl⟩
  · have htw : ¬ (asAny E c).reply = .raised .twice := by
      intro h; rcases convert_not_early hacc _ h with h | h <;> cases h
    rcases accepted_cases (E := E) hacc with ⟨a, hd, hf, hp, h1⟩ | ⟨l, hd, hf, hl, h1⟩ | ⟨hn, obj, hf, h1⟩
    · refine ⟨fun _ => ⟨htw, fun h => h.2.1 ⟨hd, Or.inl ⟨a, hf, hp⟩⟩⟩, fun _ i => ?_⟩
      rw [h1]; exact even_net (even_cons rfl even_nil) i
    · refine ⟨fun _ => ⟨htw, fun h => h.2.1 ⟨hd, Or.inr ⟨l, hf, hl⟩⟩⟩, fun _ i => ?_⟩
      rw [h1]
      by_cases he : E.enough = true
      · rw [if_pos he]; exact even_net (even_cons rfl even_nil) i
      · rw [if_neg he]; split <;> rfl
    · have hnp := fun m => numpy_iff (E := E) hf (some m)
      rcases viaNumpy_cases E obj (c.descr E) c.flags c.exc (descrTicks (c.descr E)) with ⟨h3, h2⟩ | ⟨m, hm, h4, h2⟩ | ⟨m, hm, h4, he, h2⟩ | ⟨m, hm, h4, he, h2⟩
      · refine ⟨fun _ => ⟨htw, ?_⟩, fun _ i => ?_⟩
        · rintro ⟨_, _, m, hm, _⟩
          rw [hnp, h3] at hm; cases hm
        · rw [h1, h2]; exact even_net (even_append (even_descr _) (even_stolen _)) i
      · refine ⟨fun _ => ⟨htw, ?_⟩, fun _ i => ?_⟩
        · rintro ⟨_, _, m', hm', h0, _⟩
          rw [hnp, hm] at hm'; cases hm'; exact h4 h0
        · rw [h1, h2]; exact even_net (even_append (even_append (even_descr _) (even_stolen _)) (even_take _)) i
      · have hpre := even_net (even_append (even_append (even_descr (c.descr E)) (even_stolen (c.descr E))) (even_take m))
        have hev := even_net (even_evenPart E m)
        have hrep : ∀ i, netHeld (replaceMade E m) i = (if m.arr.ty.num = 17 then (m.arr.objs.count i : Int) else 0) + netHeld (evenPart E m) i := by
          intro i
          show netHeld ((if m.arr.ty.num = objectNum then m.arr.objs.map smuggle else []) ++ evenPart E m) i = _
          rw [netHeld_append]
          by_cases h17 : m.arr.ty.num = 17
          · rw [if_pos (show m.arr.ty.num = objectNum from h17), if_pos h17, smuggle_held]
          · rw [if_neg (show ¬ m.arr.ty.num = objectNum from h17), if_neg h17]; rfl
        have hrec : ∀ i, netCounted (replaceMade E m) i = netCounted (evenPart E m) i := by
          intro i
          show netCounted ((if m.arr.ty.num = objectNum then m.arr.objs.map smuggle else []) ++ evenPart E m) i = _
          rw [netCounted_append]
          split
          · rw [smuggle_counted]; omega
          · show (0 : Int) + _ = _; omega
        have hall : Balanced (asAny E c).ticks ↔ ∀ i, (if m.arr.ty.num = 17 then (m.arr.objs.count i : Int) else 0) = 0 := by
          unfold Balanced
          rw [h1, h2]
          constructor <;> intro h i
          · have := h i
            simp only [netCounted_append, netHeld_append] at this hpre
            rw [hrep, hrec] at this
            have hp' := hpre i
            have he' := hev i
            omega
          · have := h i
            simp only [netCounted_append, netHeld_append] at hpre ⊢
            rw [hrep, hrec]
            have hp' := hpre i
            have he' := hev i
            omega
        rw [hall]
        constructor
        · intro h
          refine ⟨htw, ?_⟩
          rintro ⟨_, _, m', hm', _, h17, hne⟩
          rw [hnp, hm] at hm'; cases hm'
          obtain ⟨x, xs, hx⟩ := List.exists_cons_of_ne_nil hne
          have := h x
          rw [if_pos h17, hx, List.count_cons_self] at this
          omega
        · rintro ⟨_, h⟩ i
          by_cases h17 : m.arr.ty.num = 17
          · rw [if_pos h17]
            by_cases hne : m.arr.objs = []
            · rw [hne]; rfl
            · exact absurd ⟨hacc, hn, m, (hnp m).2 hm, h4, h17, hne⟩ h
          · rw [if_neg h17]
      · rw [h1, h2] at hu; exact absurd rfl hu

example : Balanced (asAny exE (exCall (.other 1) (some { noKw with dtype := some .none }))).ticks := by
  refine (as_any_balanced_iff_partial exE _ (by intro h; cases h)).2 ⟨(by intro h; cases h), ?_⟩
  rintro ⟨_, _, m, ⟨obj, fl, h1, _, h3⟩, _, h4, _⟩
  cases h1
  cases h3
  simp [exE, DArg.type, Call.dtype, Call.second, Call.name, noKw, exCall] at h4

/-! ### Fast arrays -/

/-- C162: `AsFastArray` is undefined exactly if `AsAnyArray` is, or if the class of fast arrays is known and `AsAnyArray` raises. -/
theorem as_fast_undefined_iff (E : Env) (c : Call) :
    (asFast E c).reply = .undefined ↔ (asAny E c).reply = .undefined ∨ (E.fast = true ∧ ∃ e, (asAny E c).reply = .raised e) := by
  have hset : ∀ exc r ts, (setView E exc r ts).reply ≠ .undefined := by
    intro exc r ts h
    unfold setView at h
    split at h
    · split at h
      · exact answer_ne_undefined _ _ h
      · cases h
    · exact answer_ne_undefined _ _ h
  unfold asFast
  generalize asAny E c = x
  obtain ⟨rep, ts⟩ := x
  cases rep with
  | value r => simp [hset]
  | raised e => by_cases hf : E.fast = true <;> simp [hf]
  | both r e => simp [hset]
  | undefined => simp

/-- C162: what `AsFastArray` returns is what `AsAnyArray` returns, as a fast array if that class is known: the same object if it is one, else a view. -/
theorem as_fast_value (E : Env) (c : Call) (r : Res) (hv : E.viewOk = true) (h : (asAny E c).reply.res = some r) :
    ∃ r', (asFast E c).reply.res = some r' ∧ r'.dims = r.dims ∧ r'.what = r.what ∧ (E.fast = true → r'.cls = .fast) ∧
      (E.fast = true → r.cls ≠ .fast → r'.id = E.view) ∧ (E.fast = false ∨ r.cls = .fast → r' = r) ∧
      ((∃ e, (asFast E c).reply = .both r' e) ↔ ∃ e, (asAny E c).reply = .both r e) := by
  unfold asFast
  generalize asAny E c = x at h
  obtain ⟨rep, ts⟩ := x
  cases rep with
  | value s =>
    cases h
    by_cases hc : E.fast = true ∧ r.cls ≠ .fast
    · exact ⟨viewOf E r, by simp [setView, hc.1, hc.2, hv, answer, Reply.res], rfl, rfl, fun _ => rfl, fun _ _ => rfl,
        fun h => h.elim (fun h => by rw [hc.1] at h; cases h) fun h => absurd h hc.2, by simp [setView, hc.1, hc.2, hv, answer]⟩
    · refine ⟨r, by simp only [setView, if_neg hc]; rfl, rfl, rfl, fun hf => ?_, fun hf hr => absurd ⟨hf, hr⟩ hc, fun _ => rfl, by simp only [setView, if_neg hc, answer]⟩
      exact Classical.byContradiction fun hn => hc ⟨hf, hn⟩
  | raised e => cases h
  | both s e =>
    cases h
    by_cases hc : E.fast = true ∧ r.cls ≠ .fast
    · exact ⟨viewOf E r, by simp [setView, hc.1, hc.2, hv, answer, Reply.res], rfl, rfl, fun _ => rfl, fun _ _ => rfl,
        fun h => h.elim (fun h => by rw [hc.1] at h; cases h) fun h => absurd h hc.2, by simp [setView, hc.1, hc.2, hv, answer]⟩
    · refine ⟨r, by simp only [setView, if_neg hc]; rfl, rfl, rfl, fun hf => ?_, fun hf hr => absurd ⟨hf, hr⟩ hc, fun _ => rfl, by simp only [setView, if_neg hc, answer]⟩
      exact Classical.byContradiction fun hn => hc ⟨hf, hn⟩
  | undefined => cases h

example : (asFast exE (exCall (.array exA) none)).reply = .value { exA.res with id := 91, cls := .fast } := rfl

/-- C162: if the view fails, the array comes back as it is, with an exception. -/
theorem as_fast_no_view (E : Env) (c : Call) (r : Res) (hv : E.viewOk = false) (hf : E.fast = true) (hr : r.cls ≠ .fast) (h : (asAny E c).reply.res = some r) :
    (asFast E c).reply = .both r .numpy := by
  unfold asFast
  generalize asAny E c = x at h
  obtain ⟨rep, ts⟩ := x
  cases rep with
  | value s => cases h; simp [setView, hf, hr, hv]
  | raised e => cases h
  | both s e => cases h; simp [setView, hf, hr, hv]
  | undefined => cases h

/-- C162: as long as it is defined, `AsFastArray` counts every object as often as it holds it exactly if `AsAnyArray` does. -/
theorem as_fast_balanced_iff (E : Env) (c : Call) (hu : (asFast E c).reply ≠ .undefined) :
    Balanced (asFast E c).ticks ↔ Balanced (asAny E c).ticks := by
  have hset : ∀ exc r ts, Balanced (setView E exc r ts).ticks ↔ Balanced ts := by
    intro exc r ts
    unfold setView
    split
    · split
      · have hev : Even [gain E.view, gain r.id, drop r.id] := even_cons rfl (even_cons rfl (even_cons rfl even_nil))
        constructor <;> intro h i <;> have := h i <;> have he := even_net hev i
        · simp only [netCounted_append, netHeld_append] at this; omega
        · simp only [netCounted_append, netHeld_append]; omega
      · exact Iff.rfl
    · exact Iff.rfl
  unfold asFast at hu ⊢
  generalize asAny E c = x at hu ⊢
  obtain ⟨rep, ts⟩ := x
  cases rep with
  | value r => exact hset _ _ _
  | raised e =>
    by_cases hf : E.fast = true
    · simp [hf] at hu
    · simp [hf]
  | both r e => exact hset _ _ _
  | undefined => exact absurd rfl hu

/-- C162: the array `AsFastArray` returns belongs to the caller: its counter is one higher, and an array which became a view is held by the view alone. -/
theorem as_fast_counts (E : Env) (c : Call) (r : Res) (hv : E.viewOk = true) (hf : E.fast = true) (hr : r.cls ≠ .fast) (h : (asAny E c).reply.res = some r) (i : Nat) :
    netCounted (asFast E c).ticks i = netCounted (asAny E c).ticks i + if i = E.view then 1 else 0 := by
  have hset : ∀ exc ts, netCounted (setView E exc r ts).ticks i = netCounted ts i + if i = E.view then 1 else 0 := by
    intro exc ts
    simp only [setView, hf, hr, hv, ne_eq, not_false_eq_true, and_self, if_true]
    rw [netCounted_append, netCounted_cons, netCounted_cons, netCounted_cons]
    have hz : netCounted [] i = 0 := rfl
    rw [hz]
    simp only [gain, drop]
    by_cases h1 : E.view = i
    · by_cases h2 : r.id = i <;> simp [h1, h2]
    · by_cases h2 : r.id = i <;> simp [h1, h2, Ne.symm h1]
  unfold asFast
  generalize asAny E c = x at h
  obtain ⟨rep, ts⟩ := x
  cases rep with
  | value s => cases h; exact hset _ _
  | raised e => cases h
  | both s e => cases h; exact hset _ _
  | undefined => cases h

end Riptide.AsArrayCall
