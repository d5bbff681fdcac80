import Verif.Date.CallLemmas
import Verif.Date.StrpProps
/-! What the calls on arrays of date and time strings answer (C141). -/
namespace Riptide.Date.Call
open Riptide.Binary Riptide.Mask.Call.Spec Riptide.Date.Call.Spec Riptide.Date Riptide.Date.Spec

/-- The array lies in memory item after item, in C order, and its characters have the order of bytes of the machine. -/
def Plain (a : Arr) : Prop := a.lay.strides.length = a.lay.dims.length ∧ a.lay.cContig = true ∧ (a.kind = .unicode → a.swapped = false)

/-- C141. Arrays which are not of bytes or of characters are refused by all calls. -/
theorem type_refused (w : Which) (strict : Bool) (fmt : List Int) (a : Arr) (m : Mem) (h : a.kind = .other) :
    call w strict a m = .typeError ∧ strptimeCall fmt a m = .typeError := by
  unfold call strptimeCall
  rw [if_pos h, if_pos h]
  exact ⟨rfl, rfl⟩

theorem plain_items {a : Arr} {m : Mem} {ts : List (List Int)} (h : Plain a) (ht : Texts a m ts) : items a m = some ts :=
  items_even h.2.2 (Riptide.Mask.Call.contiguous_even_c h.1 h.2.1) (Riptide.Mask.Call.inC_length _ _ h.1) ht

theorem plain_length {a : Arr} {m : Mem} {ts : List (List Int)} (h : Plain a) (ht : Texts a m ts) : ts.length = a.lay.len := by
  rw [(holds_get ht).1, Riptide.Mask.Call.inC_length _ _ h.1]; rfl

/-- C141 (partial: guarded). An array of any shape in C order: the values are those of the texts, one by one, in an array of one dimension; the
warning is about the first text with an error. What is missing: arrays in another order, for which the call is wrong
(`fortran_order_wrong`, `sliced_wrong`, `backwards_undefined`, `other_byte_order_wrong`). -/
theorem call_partial (w : Which) (a : Arr) (m : Mem) (ts : List (List Int)) (h : Plain a) (hk : a.kind ≠ .other) (ht : Texts a m ts)
    (rs : List (Int × Err)) (hr : ts.map (fun t => w.parse t none) = rs.map some) :
    call w false a m = .ok [ts.length] (rs.map Prod.fst) ((ts.zip rs).findSome? fun p => p.2.2.map fun y => (p.1, y)) := by
  unfold call
  rw [if_neg hk, plain_items h ht, Option.bind_some, walk_eq]
  have : ts.mapM (fun x => w.parse x none) = some rs := by
    clear ht
    induction ts generalizing rs with
    | nil => cases rs with
      | nil => rfl
      | cons r rs => cases hr
    | cons t ts ih => cases rs with
      | nil => cases hr
      | cons r rs =>
        rw [List.map_cons, List.map_cons] at hr
        injection hr with h1 h2
        rw [List.mapM_cons, h1, ih rs h2]
        rfl
  rw [this]
  show finish false a (some _) = _
  unfold finish
  simp [plain_length h ht]

/-- Texts without errors, and their values. -/
def Clean (parse : List Int → Err → Option (Int × Err)) (ts : List (List Int)) (vs : List Int) : Prop :=
  ts.length = vs.length ∧ ∀ (i : Nat) t v, ts[i]? = some t → vs[i]? = some v → parse t none = some (v, none)

/-- The call on texts without errors. -/
theorem call_clean (w : Which) (strict : Bool) (a : Arr) (m : Mem) (ts : List (List Int)) (vs : List Int) (h : Plain a) (hk : a.kind ≠ .other)
    (ht : Texts a m ts) (hc : Clean w.parse ts vs) : call w strict a m = .ok [vs.length] vs none := by
  unfold call
  rw [if_neg hk, plain_items h ht, Option.bind_some]
  have : walk w.parse ts none = some (vs, none) := by
    clear ht
    induction ts generalizing vs with
    | nil => cases vs with
      | nil => rfl
      | cons v vs => cases hc.1
    | cons t ts ih => cases vs with
      | nil => cases hc.1
      | cons v vs =>
        have h1 := hc.2 0 t v rfl rfl
        rw [walk]
        rw [show (none : Warning).map Prod.snd = none from rfl, h1]
        simp only [Option.bind_some, Option.isSome_none, Bool.false_eq_true, if_false, Option.map_none]
        rw [ih vs ⟨by simpa using hc.1, fun i t' v' h2 h3 => hc.2 (i + 1) t' v' (by simpa using h2) (by simpa using h3)⟩]
        rfl
  rw [this]
  unfold finish
  simp [← plain_length h ht, hc.1]

/-- A list of dates, each written with or without separators, between white space and the end of the item. -/
def Dates (ts : List (List Int)) (ds : List D) : Prop :=
  ts.length = ds.length ∧ ∀ (i : Nat) (t : List Int) (d : D), ts[i]? = some t → ds[i]? = some d → Valid d ∧ (1970 ≤ d.y ∧ d.y ≤ 2099) ∧
    ∃ (sep : Bool) (ws r : List Int), Blank ws ∧ Tail r ∧ t = ws ++ (dateText sep d ++ r)

theorem clean_of {β : Type} {parse : List Int → Err → Option (Int × Err)} {P : β → Nat → Prop} {val : β → Nat → Int} {ts : List (List Int)} {ds : List β} :
    ts.length = ds.length → (∀ (i : Nat) t d, ts[i]? = some t → ds[i]? = some d → ∃ n, P d n ∧ parse t none = some (val d n, none)) →
    ∃ ns : List Nat, ns.length = ds.length ∧ (∀ (i : Nat) d n, ds[i]? = some d → ns[i]? = some n → P d n) ∧
      Clean parse ts ((ds.zip ns).map fun p => val p.1 p.2) := by
  induction ts generalizing ds with
  | nil =>
    intro hl _
    cases ds with
    | nil => exact ⟨[], rfl, fun i d n h => by simp at h, rfl, fun i t v h => by simp at h⟩
    | cons d ds => cases hl
  | cons t ts ih =>
    intro hl h
    cases ds with
    | nil => cases hl
    | cons d ds =>
      obtain ⟨n, hn, hp⟩ := h 0 t d rfl rfl
      obtain ⟨ns, h1, h2, h3, h4⟩ := ih (ds := ds) (by simpa using hl) fun i t' d' ht hd => h (i + 1) t' d' (by simpa using ht) (by simpa using hd)
      refine ⟨n :: ns, by simp [h1], ?_, by simpa using h3, ?_⟩
      · intro i d' n' hd hn'
        cases i with
        | zero => simp at hd hn'; subst hd; subst hn'; exact hn
        | succ i => exact h2 i d' n' (by simpa using hd) (by simpa using hn')
      · intro i t' v ht hv
        cases i with
        | zero => simp at ht hv; subst ht; subst hv; exact hp
        | succ i => exact h4 i t' v (by simpa using ht) (by simpa using hv)

/-- C141. An array of dates of any shape in C order, of bytes or of characters: `DateStringToNanos` answers the numbers of days since 1970 in
nanoseconds, without a warning. -/
theorem dates_partial (strict : Bool) (a : Arr) (m : Mem) (ts : List (List Int)) (ds : List D) (h : Plain a) (hk : a.kind ≠ .other)
    (ht : Texts a m ts) (hd : Dates ts ds) :
    ∃ ns : List Nat, ns.map dateOf = ds ∧ call .date strict a m = .ok [ds.length] (ns.map fun (n : Nat) => (n : Int) * dayNanos) none := by
  obtain ⟨ns, h1, h2, h3⟩ := clean_of (parse := parseDate) (P := fun d n => dateOf n = d) (val := fun _ n => (n : Int) * dayNanos) hd.1
    (by
      intro i t d hi hj
      obtain ⟨hv, hy, sep, ws, r, hw, hr, rfl⟩ := hd.2 i t d hi hj
      obtain ⟨n, _, h2, h3⟩ := parseDate_text sep hv hy ws r hw hr none
      exact ⟨n, h2, h3⟩)
  have e1 : ns.map dateOf = ds := by
    apply List.ext_getElem?
    intro i
    rw [List.getElem?_map]
    rcases Nat.lt_or_ge i ds.length with hi | hi
    · have hi' : i < ns.length := by omega
      rw [List.getElem?_eq_getElem hi', List.getElem?_eq_getElem hi]
      exact congrArg some (h2 i _ _ (List.getElem?_eq_getElem hi) (List.getElem?_eq_getElem hi'))
    · rw [List.getElem?_eq_none hi, List.getElem?_eq_none (by omega)]; rfl
  refine ⟨ns, e1, ?_⟩
  have e2 : ((ds.zip ns).map fun p => ((p.2 : Nat) : Int) * dayNanos) = ns.map fun (n : Nat) => (n : Int) * dayNanos := by
    rw [show (fun p : D × Nat => ((p.2 : Nat) : Int) * dayNanos) = (fun n : Nat => (n : Int) * dayNanos) ∘ Prod.snd from rfl, ← List.map_map,
      List.map_snd_zip (by omega)]
  rw [e2] at h3
  have := call_clean .date strict a m ts _ h hk ht h3
  rw [this, List.length_map, h1]

/-- A time of day: hour, minute, second and the digits of a fraction. -/
structure Clock where
  h : Nat
  m : Nat
  s : Nat
  f : Option (List Nat)

/-- It is a time of day. -/
def Clock.Ok (c : Clock) : Prop := c.h < 24 ∧ c.m < 60 ∧ c.s < 60 ∧ FracOk c.f

/-- Its text. -/
def Clock.text (c : Clock) : List Int := clockText c.h c.m c.s ++ fracText c.f

/-- Nanoseconds since midnight. -/
def Clock.nanos (c : Clock) : Int := (((c.h * 60 + c.m) * 60 + c.s) * 1000000000 : Nat) + fracNanos c.f

/-- A list of times of day, each between white space and the end of the item. -/
def Times (ts : List (List Int)) (cs : List Clock) : Prop :=
  ts.length = cs.length ∧ ∀ (i : Nat) (t : List Int) (c : Clock), ts[i]? = some t → cs[i]? = some c → c.Ok ∧
    ∃ ws r : List Int, Blank ws ∧ Tail r ∧ t = ws ++ (c.text ++ r)

/-- C141. An array of times of day of any shape in C order: `TimeStringToNanos` answers the nanoseconds since midnight, without a warning. -/
theorem times_partial (strict : Bool) (a : Arr) (m : Mem) (ts : List (List Int)) (cs : List Clock) (h : Plain a) (hk : a.kind ≠ .other)
    (ht : Texts a m ts) (hc : Times ts cs) : call .time strict a m = .ok [cs.length] (cs.map Clock.nanos) none := by
  have hcl : Clean parseTime ts (cs.map Clock.nanos) := by
    refine ⟨by rw [List.length_map]; exact hc.1, ?_⟩
    intro i t v hi hv
    rw [List.getElem?_map] at hv
    obtain ⟨c, hc', rfl⟩ := Option.map_eq_some_iff.1 hv
    obtain ⟨ho, ws, r, hw, hr, rfl⟩ := hc.2 i t c hi hc'
    rw [Clock.text, List.append_assoc]
    exact parseTime_text ho.1 ho.2.1 ho.2.2.1 c.f ho.2.2.2 ws r hw hr none
  have := call_clean .time strict a m ts _ h hk ht hcl
  rw [this, List.length_map]

/-- A list of dates with times of day, with a `T` or a space between them. -/
def Moments (ts : List (List Int)) (ms : List (D × Clock)) : Prop :=
  ts.length = ms.length ∧ ∀ (i : Nat) (t : List Int) (d : D × Clock), ts[i]? = some t → ms[i]? = some d →
    Valid d.1 ∧ (1970 ≤ d.1.y ∧ d.1.y ≤ 2099) ∧ d.2.Ok ∧
    ∃ (sep : Bool) (ws r : List Int) (x : Int), Blank ws ∧ Tail r ∧ (x = 84 ∨ x = 32) ∧ t = ws ++ (dateText sep d.1 ++ x :: (d.2.text ++ r))

/-- C141. An array of dates with times of day of any shape in C order: `DateTimeStringToNanos` answers the nanoseconds since 1970, without a
warning. -/
theorem moments_partial (strict : Bool) (a : Arr) (m : Mem) (ts : List (List Int)) (ms : List (D × Clock)) (h : Plain a) (hk : a.kind ≠ .other)
    (ht : Texts a m ts) (hm : Moments ts ms) :
    ∃ ns : List Nat, ns.map dateOf = ms.map Prod.fst ∧
      call .dateTime strict a m = .ok [ms.length] ((ms.zip ns).map fun p => (p.2 : Int) * dayNanos + p.1.2.nanos) none := by
  obtain ⟨ns, h1, h2, h3⟩ := clean_of (parse := parseDateTime) (P := fun (d : D × Clock) n => dateOf n = d.1)
    (val := fun d n => (n : Int) * dayNanos + d.2.nanos) hm.1
    (by
      intro i t d hi hj
      obtain ⟨hv, hy, ho, sep, ws, r, x, hw, hr, hx, rfl⟩ := hm.2 i t d hi hj
      obtain ⟨n, _, h2, h3⟩ := parseDateTime_text sep hv hy ho.1 ho.2.1 ho.2.2.1 x hx d.2.f ho.2.2.2 ws r hw hr none
      refine ⟨n, h2, ?_⟩
      rw [Clock.text, List.append_assoc, h3, Clock.nanos, Int.add_assoc])
  refine ⟨ns, ?_, ?_⟩
  · apply List.ext_getElem?
    intro i
    rw [List.getElem?_map, List.getElem?_map]
    rcases Nat.lt_or_ge i ms.length with hi | hi
    · have hi' : i < ns.length := by omega
      rw [List.getElem?_eq_getElem hi', List.getElem?_eq_getElem hi]
      exact congrArg some (h2 i _ _ (List.getElem?_eq_getElem hi) (List.getElem?_eq_getElem hi'))
    · rw [List.getElem?_eq_none hi, List.getElem?_eq_none (by omega)]; rfl
  · have := call_clean .dateTime strict a m ts _ h hk ht h3
    rw [this, List.length_map, List.length_zip, h1, Nat.min_self]

/-- C141. Whatever the texts are, as long as the characters are ones `isspace` is defined for: there is a value for each item, never below 0 and never
beyond the year 2100 (or, for times, never a day or more). -/
theorem values_in_range (w : Which) (a : Arr) (m : Mem) (ts : List (List Int)) (h : Plain a) (hk : a.kind ≠ .other) (ht : Texts a m ts)
    (hn : ∀ t ∈ ts, ∀ c ∈ t, -1 ≤ c ∧ c ≤ 255) :
    ∃ vs warning, call w false a m = .ok [a.lay.len] vs warning ∧ vs.length = a.lay.len ∧
      ∀ v ∈ vs, 0 ≤ v ∧ v < (if w = .time then 1 else 47513) * dayNanos := by
  have hp : ∀ t ∈ ts, ∃ r, w.parse t none = some r ∧ 0 ≤ r.1 ∧ r.1 < (if w = .time then 1 else 47513) * dayNanos := by
    intro t htm
    obtain ⟨⟨r1, g1⟩, ⟨r2, g2⟩, ⟨r3, g3⟩⟩ := parse_defined t none (hn t htm)
    cases w
    · have := parseTime_range _ _ _ g2
      exact ⟨r2, g2, this.1, by simpa using this.2⟩
    · have := parseDate_range _ _ _ g1
      refine ⟨r1, g1, this.1, ?_⟩
      have h2 := this.2
      rw [if_neg (by decide)]
      unfold dayNanos at *
      omega
    · have := parseDateTime_range _ _ _ g3
      refine ⟨r3, g3, this.1, ?_⟩
      rw [if_neg (by decide)]
      exact this.2
  obtain ⟨rs, hrs, hv⟩ : ∃ rs : List (Int × Err), ts.map (fun t => w.parse t none) = rs.map some ∧
      ∀ r ∈ rs, 0 ≤ r.1 ∧ r.1 < (if w = .time then 1 else 47513) * dayNanos := by
    clear ht hn
    induction ts with
    | nil => exact ⟨[], rfl, nofun⟩
    | cons t ts ih =>
      obtain ⟨r, hr, hr'⟩ := hp t (by simp)
      obtain ⟨rs, h1, h2⟩ := ih fun t ht => hp t (by simp [ht])
      refine ⟨r :: rs, by simp [hr, h1], ?_⟩
      intro x hx
      rcases List.mem_cons.1 hx with rfl | hx
      · exact hr'
      · exact h2 x hx
  have hl := plain_length h ht
  have hlr : rs.length = ts.length := by have := congrArg List.length hrs; simpa using this.symm
  refine ⟨_, _, by rw [call_partial w a m ts h hk ht rs hrs, hl], by rw [List.length_map, hlr, hl], ?_⟩
  intro v hv'
  obtain ⟨r, hr, rfl⟩ := List.mem_map.1 hv'
  exact hv r hr

/-- C141. There is a warning exactly if one of the texts has an error; its text is the first of these, and a filter which makes it an error turns the
result into a `SystemError`. -/
theorem warning_partial (w : Which) (a : Arr) (m : Mem) (ts : List (List Int)) (h : Plain a) (hk : a.kind ≠ .other) (ht : Texts a m ts)
    (before : List (List Int)) (t : List Int) (after : List (List Int)) (hs : ts = before ++ t :: after)
    (hb : ∀ x ∈ before, ∃ v, w.parse x none = some (v, none)) (v : Int) (msg : String) (pos : Nat) (he : w.parse t none = some (v, some (msg, pos)))
    (ha : ∀ x ∈ after, ∃ r, w.parse x none = some r) :
    (∃ vs, call w false a m = .ok [ts.length] vs (some (t, msg, pos))) ∧ call w true a m = .systemError := by
  have hw : ∃ vs, walk w.parse ts none = some (vs, some (t, msg, pos)) := by
    subst hs
    clear ht
    induction before with
    | nil =>
      rw [List.nil_append, walk, show (none : Warning).map Prod.snd = none from rfl, he]
      simp only [Option.bind_some, Option.isSome_none, Bool.false_eq_true, if_false, Option.map_some]
      have : ∃ vs, walk w.parse after (some (t, msg, pos)) = some (vs, some (t, msg, pos)) := by
        clear he
        induction after with
        | nil => exact ⟨[], rfl⟩
        | cons x after ih =>
          obtain ⟨vs, hvs⟩ := ih fun y hy => ha y (by simp [hy])
          obtain ⟨r, hr⟩ := ha x (by simp)
          refine ⟨r.1 :: vs, ?_⟩
          rw [walk, parse_after, hr]
          simp [hvs]
      obtain ⟨vs, hvs⟩ := this
      exact ⟨v :: vs, by rw [hvs]; rfl⟩
    | cons x before ih =>
      obtain ⟨vs, hvs⟩ := ih fun y hy => hb y (by simp [hy])
      obtain ⟨u, hu⟩ := hb x (by simp)
      refine ⟨u :: vs, ?_⟩
      rw [List.cons_append, walk, show (none : Warning).map Prod.snd = none from rfl, hu]
      simp only [Option.bind_some, Option.isSome_none, Bool.false_eq_true, if_false, Option.map_none]
      rw [hvs]; rfl
  obtain ⟨vs, hvs⟩ := hw
  unfold call
  rw [if_neg hk, if_neg hk, plain_items h ht, Option.bind_some, hvs]
  refine ⟨⟨vs, ?_⟩, rfl⟩
  unfold finish
  simp [plain_length h ht]

/-- C141. `StrptimeToNanos` of an array of moments written after a format of `%Y`, `%m`, `%d`, `%H`, `%M`, `%S`, `%B`, `%F`, `%T`, `%R` and other characters,
which names a date. The format may have a zero byte and anything after it. -/
theorem strptime_partial (a : Arr) (m : Mem) (ts : List (List Int)) (xs : List Stamp) (h : Plain a) (hk : a.kind ≠ .other)
    (ht : Texts a m ts) (fs : List Tok) (hd : HasDate fs) (rest : List Int) (hz : ∀ c ∈ fmtOf fs, c ≠ 0) (hr : rest = [] ∨ ∃ r, rest = 0 :: r)
    (hl : ts.length = xs.length) (hx : ∀ (i : Nat) t x, ts[i]? = some t → xs[i]? = some x → x.Ok ∧
      ∃ w z, Written x fs w ∧ (z = [] ∨ ∃ r, z = 0 :: r) ∧ t.map (· % 256) = w ++ z) :
    ∃ ns : List Nat, ns.map dateOf = xs.map Stamp.date ∧ strptimeCall (fmtOf fs ++ rest) a m = .ok [xs.length]
      ((xs.zip ns).map fun p => (p.2 : Int) * dayNanos + ((((if hasH fs then p.1.h else 0) * 60 + (if hasM fs then p.1.mi else 0)) * 60 +
        (if hasS fs then p.1.s else 0)) * 1000000000 : Nat)) none := by
  have hf : (fmtOf fs ++ rest).takeWhile (fun c => decide (c ≠ 0)) = fmtOf fs := by
    rw [List.takeWhile_append_of_pos (by intro c hc; simpa using hz c hc)]
    rcases hr with rfl | ⟨r, rfl⟩ <;> simp
  obtain ⟨ns, h1, h2, h3⟩ := clean_of (parse := fun t _ => (parseStrptime (fmtOf fs) t).map fun v => (v, none))
    (P := fun (d : Stamp) n => dateOf n = d.date)
    (val := fun d n => (n : Int) * dayNanos + ((((if hasH fs then d.h else 0) * 60 + (if hasM fs then d.mi else 0)) * 60 +
        (if hasS fs then d.s else 0)) * 1000000000 : Nat)) hl
    (by
      intro i t x hi hj
      obtain ⟨ho, w, z, hw, hz', ht'⟩ := hx i t x hi hj
      obtain ⟨n, _, g2, g3⟩ := parseStrptime_text x ho fs hd none nofun t w z
        (by
          intro c r hc
          rcases hz' with rfl | ⟨r', rfl⟩
          · cases hc
          · injection hc with hc _; subst hc; decide) hw (by simpa [fracText] using ht')
      refine ⟨n, g2, ?_⟩
      show Option.map _ (parseStrptime (fmtOf fs) t) = _
      rw [g3]
      simp [fracNanos])
  refine ⟨ns, ?_, ?_⟩
  · apply List.ext_getElem?
    intro i
    rw [List.getElem?_map, List.getElem?_map]
    rcases Nat.lt_or_ge i xs.length with hi | hi
    · have hi' : i < ns.length := by omega
      rw [List.getElem?_eq_getElem hi', List.getElem?_eq_getElem hi]
      exact congrArg some (h2 i _ _ (List.getElem?_eq_getElem hi) (List.getElem?_eq_getElem hi'))
    · rw [List.getElem?_eq_none hi, List.getElem?_eq_none (by omega)]; rfl
  · unfold strptimeCall
    rw [if_neg hk, plain_items h ht, Option.bind_some, hf]
    have : ∀ (ts : List (List Int)) (vs : List Int), Clean (fun t _ => (parseStrptime (fmtOf fs) t).map fun v => (v, none)) ts vs →
        ts.mapM (parseStrptime (fmtOf fs)) = some vs := by
      intro ts
      induction ts with
      | nil => intro vs hc; cases vs with
        | nil => rfl
        | cons v vs => cases hc.1
      | cons t ts ih => intro vs hc; cases vs with
        | nil => cases hc.1
        | cons v vs =>
          have h1 := hc.2 0 t v rfl rfl
          simp only [Option.map_eq_some_iff] at h1
          obtain ⟨v', hv, hv'⟩ := h1
          injection hv' with hv' _
          subst hv'
          rw [List.mapM_cons, hv, ih vs ⟨by simpa using hc.1, fun i t' v' h2 h3 => hc.2 (i + 1) t' v' (by simpa using h2) (by simpa using h3)⟩]
          rfl
    rw [this _ _ h3]
    unfold finish
    simp [← plain_length h ht, hl]

end Riptide.Date.Call
