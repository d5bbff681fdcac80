import Verif.AsArray.CallSpec
/-! # Lemmas about `AsAnyArray` and `AsFastArray` -/
namespace Riptide.AsArrayCall

/-- The flags of a call. -/
def Call.flags (c : Call) : Flags := match c.kw with | none => Flags.plain | some k => kwFlags k

/-- The exception the arguments by name leave. -/
def Call.exc (c : Call) : Option Exc := match c.kw with | none => none | some k => kwExc k

/-- The descriptor of a call. -/
def Call.descr (E : Env) (c : Call) : Option Descr := c.dtype.bind (toDescr E)

/-- The references taken for the descriptor. -/
def descrTicks (d : Option Descr) : List Tick := d.toList.map fun d => gain d.id

theorem toDescr_none {E : Env} {d : DArg} : toDescr E d = none ↔ d = .bad := by cases d <;> simp [toDescr]

theorem toDescr_type (E : Env) (d : DArg) : (toDescr E d).map Descr.ty = d.type E := by cases d <;> rfl

theorem asAny_cases (E : Env) (c : Call) :
    (c.WrongCount ∧ asAny E c = ⟨.raised .count, []⟩) ∨
    (¬ c.WrongCount ∧ c.second = some .bad ∧ asAny E c = ⟨.raised .dtype, []⟩) ∨
    (¬ c.WrongCount ∧ c.second ≠ some .bad ∧ c.Twice ∧ ∃ d : Descr, asAny E c = ⟨.raised .twice, [gain d.id, forget d.id]⟩) ∨
    (¬ c.WrongCount ∧ c.second = none ∧ c.name Kw.dtype = some .bad ∧ asAny E c = ⟨.raised .dtype, []⟩) ∨
    (c.Accepted ∧ ∃ obj, c.first = some obj ∧ asAny E c = convert E obj (c.descr E) c.flags c.exc (descrTicks (c.descr E))) := by
  obtain ⟨pos, kw⟩ := c
  match pos with
  | [] => exact Or.inl ⟨by simp [Call.WrongCount], rfl⟩
  | _ :: _ :: _ :: _ => exact Or.inl ⟨by simp [Call.WrongCount], rfl⟩
  | [a] =>
    right; right; right
    match kw with
    | none => exact Or.inr ⟨⟨by simp [Call.WrongCount], by simp [Call.Twice, Call.second], by simp [Call.dtype, Call.second, Call.name]⟩, a.obj, rfl, rfl⟩
    | some k =>
      obtain ⟨dt, cp, od, ex⟩ := k
      match dt with
      | none => exact Or.inr ⟨⟨by simp [Call.WrongCount], by simp [Call.Twice, Call.second], by simp [Call.dtype, Call.second, Call.name]⟩, a.obj, rfl, rfl⟩
      | some .bad => exact Or.inl ⟨by simp [Call.WrongCount], rfl, rfl, rfl⟩
      | some .none => exact Or.inr ⟨⟨by simp [Call.WrongCount], by simp [Call.Twice, Call.second], by simp [Call.dtype, Call.second, Call.name]⟩, a.obj, rfl, rfl⟩
      | some (.descr d) => exact Or.inr ⟨⟨by simp [Call.WrongCount], by simp [Call.Twice, Call.second], by simp [Call.dtype, Call.second, Call.name]⟩, a.obj, rfl, rfl⟩
      | some (.made d) => exact Or.inr ⟨⟨by simp [Call.WrongCount], by simp [Call.Twice, Call.second], by simp [Call.dtype, Call.second, Call.name]⟩, a.obj, rfl, rfl⟩
  | [a, b] =>
    right
    obtain ⟨bo, bd⟩ := b
    have hw : ¬ (Call.WrongCount ⟨[a, ⟨bo, bd⟩], kw⟩) := by simp [Call.WrongCount]
    by_cases hb : bd = .bad
    · subst hb; exact Or.inl ⟨hw, rfl, rfl⟩
    · have hs : Call.second ⟨[a, ⟨bo, bd⟩], kw⟩ ≠ some .bad := by simp [Call.second, hb]
      obtain ⟨d, hd⟩ : ∃ d, toDescr E bd = some d := by
        cases h : toDescr E bd with
        | none => exact absurd (toDescr_none.1 h) hb
        | some d => exact ⟨d, rfl⟩
      have he : asAny E ⟨[a, ⟨bo, bd⟩], kw⟩ = behind E a.obj (some d) [gain d.id] kw := by simp only [asAny, hd]
      right
      by_cases ht : ∃ x, Call.name ⟨[a, ⟨bo, bd⟩], kw⟩ Kw.dtype = some x
      · refine Or.inl ⟨hw, hs, ⟨⟨bd, rfl⟩, ht⟩, d, ?_⟩
        obtain ⟨x, hx⟩ := ht
        rw [he]
        match kw with
        | none => simp [Call.name] at hx
        | some ⟨dt, cp, od, ex⟩ =>
          simp only [Call.name, Option.bind_some] at hx
          subst hx; rfl
      · refine Or.inr (Or.inr ⟨⟨hw, fun h => ht h.2, by simp [Call.dtype, Call.second, hb]⟩, a.obj, rfl, ?_⟩)
        rw [he]
        have hdd : Call.descr E ⟨[a, ⟨bo, bd⟩], kw⟩ = some d := by simpa [Call.descr, Call.dtype, Call.second] using hd
        rw [hdd]
        match kw with
        | none => rfl
        | some ⟨dt, cp, od, ex⟩ =>
          match dt with
          | none => rfl
          | some x => exact absurd ⟨x, rfl⟩ ht

theorem accepted_eq {E : Env} {c : Call} (h : c.Accepted) :
    ∃ obj, c.first = some obj ∧ asAny E c = convert E obj (c.descr E) c.flags c.exc (descrTicks (c.descr E)) := by
  rcases asAny_cases E c with ⟨h1, _⟩ | ⟨_, h1, _⟩ | ⟨_, _, h1, _⟩ | ⟨_, h1, h2, _⟩ | ⟨_, h1⟩
  · exact absurd h1 h.1
  · exact absurd (by simp [Call.dtype, h1]) h.2.2
  · exact absurd h1 h.2.1
  · exact absurd (by simp [Call.dtype, h1, h2]) h.2.2
  · exact h1

theorem descr_none {E : Env} {c : Call} (h : c.Accepted) : c.descr E = none ↔ c.dtype = none := by
  unfold Call.descr
  cases hd : c.dtype with
  | none => simp
  | some d =>
    simp only [Option.bind_some, reduceCtorEq, iff_false]
    intro hn
    exact h.2.2 (by rw [hd, toDescr_none.1 hn])

theorem descr_type (E : Env) (c : Call) : (c.descr E).map Descr.ty = c.dtype.bind (DArg.type E) := by
  unfold Call.descr
  cases c.dtype with
  | none => rfl
  | some d => exact toDescr_type E d

theorem flags_asks (c : Call) : c.asks c.flags := by
  obtain ⟨pos, kw⟩ := c
  match kw with
  | none => simp [Call.asks, Call.flags, Call.name, Flags.plain]
  | some ⟨dt, cp, od, ex⟩ =>
    rcases cp with _ | (_ | _ | _) <;> rcases od with _ | (_ | _ | _) <;> simp [Call.asks, Call.flags, Call.name, kwFlags, copyFlag, orderFlags]

theorem asks_unique {c : Call} {fl fl' : Flags} (h : c.asks fl) (h' : c.asks fl') : fl = fl' := by
  obtain ⟨a, b, d⟩ := fl
  obtain ⟨a', b', d'⟩ := fl'
  obtain ⟨h1, h2, h3⟩ := h
  obtain ⟨g1, g2, g3⟩ := h'
  have e1 : a = a' := Bool.eq_iff_iff.2 (h1.trans g1.symm)
  have e2 : d = d' := Bool.eq_iff_iff.2 (h2.trans g2.symm)
  have e3 : b = b' := Bool.eq_iff_iff.2 (h3.trans g3.symm)
  rw [e1, e2, e3]

theorem plain_iff (c : Call) : c.Plain ↔ c.flags = Flags.plain := by
  obtain ⟨pos, kw⟩ := c
  match kw with
  | none => simp [Call.Plain, Call.flags, Call.name, Flags.plain]
  | some ⟨dt, cp, od, ex⟩ =>
    rcases cp with _ | (_ | _ | _) <;> rcases od with _ | (_ | _ | _) <;> simp [Call.Plain, Call.flags, Call.name, kwFlags, copyFlag, orderFlags, Flags.plain]

theorem exc_none (c : Call) : c.exc = none ↔ c.Sound := by
  obtain ⟨pos, kw⟩ := c
  match kw with
  | none => simp [Call.Sound, Call.exc, Call.name]
  | some ⟨dt, cp, od, ex⟩ =>
    rcases cp with _ | (_ | _ | _) <;> rcases od with _ | (_ | _ | _) <;> simp [Call.Sound, Call.exc, Call.name, kwExc]

theorem exc_some (c : Call) (e : Exc) : c.exc = some e ↔
    (e = .order ∧ c.name Kw.order = some .other) ∨ (e = .copy ∧ c.name Kw.copy = some .other ∧ c.name Kw.order ≠ some .other) := by
  obtain ⟨pos, kw⟩ := c
  match kw with
  | none => simp [Call.exc, Call.name]
  | some ⟨dt, cp, od, ex⟩ =>
    rcases cp with _ | (_ | _ | _) <;> rcases od with _ | (_ | _ | _) <;> cases e <;> simp [Call.exc, Call.name, kwExc]

theorem numpy_iff {E : Env} {c : Call} {obj : Input} (hf : c.first = some obj) (m : Option Made) :
    c.numpy E m ↔ E.fromAny obj ((c.descr E).map Descr.ty) c.flags = m := by
  constructor
  · rintro ⟨o, fl, h1, h2, h3⟩
    rw [hf] at h1
    cases h1
    rw [descr_type, ← asks_unique h2 (flags_asks c)]
    exact h3
  · intro h
    exact ⟨obj, c.flags, hf, flags_asks c, by rw [← descr_type]; exact h⟩

/-- The three ways through the rest of the call. -/
theorem accepted_cases {E : Env} {c : Call} (h : c.Accepted) :
    (∃ a, c.dtype = none ∧ c.first = some (.array a) ∧ c.Plain ∧ asAny E c = ⟨answer c.exc a.res, [gain a.id]⟩) ∨
    (∃ l, c.dtype = none ∧ c.first = some (.list l) ∧ AsArray.asArray E.long4 E.junk l ≠ .numpy ∧
      asAny E c = if E.enough then ⟨answer c.exc ⟨E.fresh, E.cls, [l.length], .conv (AsArray.asArray E.long4 E.junk l)⟩, [gain E.fresh]⟩
        else if l = [] then ⟨.raised .memory, []⟩ else ⟨.undefined, []⟩) ∨
    (¬ c.Easy E ∧ ∃ obj, c.first = some obj ∧ asAny E c = viaNumpy E obj (c.descr E) c.flags c.exc (descrTicks (c.descr E))) := by
  obtain ⟨obj, hf, he⟩ := accepted_eq (E := E) h
  rw [he]
  by_cases hd : c.dtype = none
  · have hn := (descr_none (E := E) h).2 hd
    rw [hn]
    match obj with
    | .array a =>
      by_cases hp : c.flags = Flags.plain
      · exact Or.inl ⟨a, hd, hf, (plain_iff c).2 hp, by simp [convert, hp, descrTicks]⟩
      · refine Or.inr (Or.inr ⟨?_, _, hf, by simp only [convert, if_neg hp]⟩)
        rintro ⟨_, ⟨b, _, hp'⟩ | ⟨l, hl, _⟩⟩
        · exact hp ((plain_iff c).1 hp')
        · rw [hf] at hl; simp at hl
    | .list l =>
      by_cases ha : AsArray.asArray E.long4 E.junk l = .numpy
      · refine Or.inr (Or.inr ⟨?_, _, hf, by simp only [convert, ofList, if_pos ha]⟩)
        rintro ⟨_, ⟨b, hb, _⟩ | ⟨l', hl, hne⟩⟩
        · rw [hf] at hb; simp at hb
        · rw [hf] at hl; simp at hl; subst hl; exact hne ha
      · exact Or.inr (Or.inl ⟨l, hd, hf, ha, by simp [convert, ofList, ha, descrTicks]⟩)
    | .other i =>
      refine Or.inr (Or.inr ⟨?_, _, hf, rfl⟩)
      rintro ⟨_, ⟨b, hb, _⟩ | ⟨l', hl, _⟩⟩
      · rw [hf] at hb; simp at hb
      · rw [hf] at hl; simp at hl
  · obtain ⟨d, hd'⟩ : ∃ d, c.descr E = some d := by
      cases hc : c.descr E with
      | none => exact absurd ((descr_none h).1 hc) hd
      | some d => exact ⟨d, rfl⟩
    refine Or.inr (Or.inr ⟨fun he => hd he.1, obj, hf, ?_⟩)
    rw [hd']
    cases obj <;> rfl

/-! ### Counting -/

theorem netHeld_append (a b : List Tick) (i : Nat) : netHeld (a ++ b) i = netHeld a i + netHeld b i := by
  simp [netHeld, List.filter_append, List.map_append, List.sum_append]

theorem netCounted_append (a b : List Tick) (i : Nat) : netCounted (a ++ b) i = netCounted a i + netCounted b i := by
  simp [netCounted, List.filter_append, List.map_append, List.sum_append]

theorem netHeld_cons (t : Tick) (b : List Tick) (i : Nat) : netHeld (t :: b) i = (if t.id = i then t.held else 0) + netHeld b i := by
  unfold netHeld
  by_cases h : t.id = i <;> simp [h]

theorem netCounted_cons (t : Tick) (b : List Tick) (i : Nat) : netCounted (t :: b) i = (if t.id = i then t.counted else 0) + netCounted b i := by
  unfold netCounted
  by_cases h : t.id = i <;> simp [h]

/-- Every single change counts what it holds. -/
def Even (ts : List Tick) : Prop := ∀ t ∈ ts, t.held = t.counted

theorem even_net {ts : List Tick} (h : Even ts) (i : Nat) : netCounted ts i = netHeld ts i := by
  induction ts with
  | nil => rfl
  | cons t ts ih =>
    rw [netHeld_cons, netCounted_cons, ih fun x hx => h x (List.mem_cons_of_mem _ hx), h t List.mem_cons_self]

theorem even_append {a b : List Tick} (h : Even a) (g : Even b) : Even (a ++ b) := by
  intro t ht
  rcases List.mem_append.1 ht with ht | ht
  · exact h t ht
  · exact g t ht

theorem even_gain (l : List Nat) : Even (l.map gain) := by
  intro t ht
  obtain ⟨i, _, rfl⟩ := List.mem_map.1 ht
  rfl

theorem even_drop (l : List Nat) : Even (l.map drop) := by
  intro t ht
  obtain ⟨i, _, rfl⟩ := List.mem_map.1 ht
  rfl

theorem even_cons {t : Tick} {b : List Tick} (h : t.held = t.counted) (g : Even b) : Even (t :: b) := by
  intro x hx
  rcases List.mem_cons.1 hx with rfl | hx
  · exact h
  · exact g x hx

theorem even_nil : Even [] := by intro t ht; cases ht

theorem even_descr (d : Option Descr) : Even (descrTicks d) := by
  cases d with
  | none => exact even_nil
  | some d => exact even_cons rfl even_nil

theorem even_stolen (d : Option Descr) : Even (stolen d) := by
  cases d with
  | none => exact even_nil
  | some d => exact even_cons rfl even_nil

theorem even_take (m : Made) : Even (takeMade m) := by
  unfold takeMade
  refine even_cons rfl ?_
  split
  · exact even_nil
  · exact even_gain _

/-- The part of the replacement which is counted. -/
def evenPart (E : Env) (m : Made) : List Tick := gain E.fresh :: drop m.arr.id :: (if m.shared then [] else m.arr.objs.map drop)

theorem even_evenPart (E : Env) (m : Made) : Even (evenPart E m) := by
  unfold evenPart
  refine even_cons rfl (even_cons rfl ?_)
  split
  · exact even_nil
  · exact even_drop _

theorem smuggle_counted (l : List Nat) (i : Nat) : netCounted (l.map smuggle) i = 0 := by
  induction l with
  | nil => rfl
  | cons x l ih => rw [List.map_cons, netCounted_cons, ih]; by_cases h : x = i <;> simp [smuggle, h]

theorem smuggle_held (l : List Nat) (i : Nat) : netHeld (l.map smuggle) i = (l.count i : Int) := by
  induction l with
  | nil => rfl
  | cons x l ih =>
    rw [List.map_cons, netHeld_cons, ih, List.count_cons]
    by_cases h : x = i
    · simp [smuggle, h]; omega
    · simp [smuggle, h]

theorem answer_res (exc : Option Exc) (r : Res) : (answer exc r).res = some r := by cases exc <;> rfl

theorem answer_ne_raised (exc : Option Exc) (r : Res) (e : Exc) : answer exc r ≠ .raised e := by cases exc <;> simp [answer]

theorem answer_ne_undefined (exc : Option Exc) (r : Res) : answer exc r ≠ .undefined := by cases exc <;> simp [answer]

theorem answer_value (exc : Option Exc) (r s : Res) : answer exc r = .value s ↔ exc = none ∧ r = s := by cases exc <;> simp [answer]

theorem answer_both (exc : Option Exc) (r s : Res) (e : Exc) : answer exc r = .both s e ↔ exc = some e ∧ r = s := by
  cases exc <;> simp [answer, and_comm]

/-- The three ends of the way through numpy. -/
theorem viaNumpy_cases (E : Env) (obj : Input) (d : Option Descr) (fl : Flags) (exc : Option Exc) (ts : List Tick) :
    (E.fromAny obj (d.map Descr.ty) fl = none ∧ viaNumpy E obj d fl exc ts = ⟨.raised .numpy, ts ++ stolen d⟩) ∨
    (∃ m, E.fromAny obj (d.map Descr.ty) fl = some m ∧ m.arr.dims ≠ [] ∧ viaNumpy E obj d fl exc ts = ⟨answer exc m.arr.res, ts ++ stolen d ++ takeMade m⟩) ∨
    (∃ m, E.fromAny obj (d.map Descr.ty) fl = some m ∧ m.arr.dims = [] ∧ E.enough = true ∧
      viaNumpy E obj d fl exc ts = ⟨answer exc (oneItem E m.arr).res, ts ++ stolen d ++ takeMade m ++ replaceMade E m⟩) ∨
    (∃ m, E.fromAny obj (d.map Descr.ty) fl = some m ∧ m.arr.dims = [] ∧ E.enough = false ∧ viaNumpy E obj d fl exc ts = ⟨.undefined, []⟩) := by
  unfold viaNumpy
  cases h : E.fromAny obj (d.map Descr.ty) fl with
  | none => exact Or.inl ⟨rfl, rfl⟩
  | some m =>
    right
    by_cases hd : m.arr.dims = []
    · right
      by_cases he : E.enough = true
      · exact Or.inl ⟨m, rfl, hd, he, by simp [hd, he]⟩
      · exact Or.inr ⟨m, rfl, hd, by simpa using he, by simp [hd, he]⟩
    · exact Or.inl ⟨m, rfl, hd, by simp [hd]⟩

end Riptide.AsArrayCall
