import Verif.Date.Props
/-! # C88: date and time strings -/
namespace Riptide.Date
open Spec

/-- The value of digits. -/
def val (ds : List Int) (a : Int) : Int := ds.foldl (fun a c => a * 10 + (c - 48)) a

/-- No digit follows. -/
def Stops (r : List Int) : Prop := ∀ c s, r = c :: s → isDigit c = false

theorem digitsLoop_digits (ds r : List Int) (k : Nat) (a : Int) (hd : ∀ c ∈ ds, isDigit c = true) (hk : ds.length ≤ k) :
    digitsLoop k (ds ++ r) a = ((digitsLoop (k - ds.length) r (val ds a)).1, (digitsLoop (k - ds.length) r (val ds a)).2.1,
      (digitsLoop (k - ds.length) r (val ds a)).2.2 + ds.length) := by
  induction ds generalizing k a with
  | nil => rfl
  | cons c ds ih =>
    obtain ⟨k', rfl⟩ : ∃ k', k = k' + 1 := ⟨k - 1, by simp only [List.length_cons] at hk; omega⟩
    rw [List.cons_append, digitsLoop]
    simp only [hd c (by simp), if_true]
    rw [ih k' (a * 10 + (c - 48)) (fun x hx => hd x (by simp [hx])) (by simpa using hk)]
    have : k' + 1 - (c :: ds).length = k' - ds.length := by simp
    rw [this]
    rfl

theorem digitsLoop_stop (k : Nat) (r : List Int) (a : Int) (h : k = 0 ∨ Stops r) : digitsLoop k r a = (a, r, 0) := by
  cases k with
  | zero => rfl
  | succ k =>
    cases r with
    | nil => rfl
    | cons c s =>
      rcases h with h | h
      · cases h
      · rw [digitsLoop]; simp only [h c s rfl, Bool.false_eq_true, if_false]

theorem parseNumber_digits (ds r : List Int) (k p : Nat) (e : Err) (hd : ∀ c ∈ ds, isDigit c = true) (hn : ds ≠ [])
    (hk : ds.length ≤ k) (hs : ds.length = k ∨ Stops r) :
    parseNumber k ⟨ds ++ r, p, e⟩ = (val ds 0, ⟨r, p + ds.length, e⟩) := by
  have h1 : skipNon (ds ++ r) p e = ⟨ds ++ r, p, e⟩ := by
    cases ds with
    | nil => exact absurd rfl hn
    | cons c ds => rw [List.cons_append, skipNon]; simp only [hd c (by simp), if_true]
  unfold parseNumber
  simp only [h1]
  rw [digitsLoop_digits ds r k 0 hd hk, digitsLoop_stop _ r _ (hs.imp (by omega) id)]
  simp

theorem pad_length (w n : Nat) : (pad w n).length = w := by
  induction w generalizing n with
  | zero => rfl
  | succ w ih => rw [pad, List.length_append, ih]; rfl

theorem pad_digits (w n : Nat) : ∀ c ∈ pad w n, isDigit c = true := by
  induction w generalizing n with
  | zero => intro c hc; cases hc
  | succ w ih =>
    intro c hc
    rw [pad, List.mem_append] at hc
    rcases hc with hc | hc
    · exact ih _ c hc
    · rw [List.mem_singleton.1 hc]
      unfold isDigit
      simp only [Bool.and_eq_true, decide_eq_true_eq]
      omega

theorem pad_val (w n : Nat) (h : n < 10 ^ w) : val (pad w n) 0 = n := by
  induction w generalizing n with
  | zero =>
    have : n = 0 := by simpa using h
    subst this; rfl
  | succ w ih =>
    unfold val at *
    rw [pad, List.foldl_append, ih (n / 10) (by rw [Nat.pow_succ] at h; omega)]
    simp only [List.foldl_cons, List.foldl_nil]
    omega

theorem pad_ne (w n : Nat) (h : 0 < w) : pad w n ≠ [] := by
  intro c
  have := pad_length w n
  rw [c] at this
  simp at this
  omega

/-- A number of fixed width. -/
theorem parseNumber_pad (w n : Nat) (hw : 0 < w) (h : n < 10 ^ w) (r : List Int) (p : Nat) (e : Err) :
    parseNumber w ⟨pad w n ++ r, p, e⟩ = ((n : Int), ⟨r, p + w, e⟩) := by
  rw [parseNumber_digits _ r w p e (pad_digits w n) (pad_ne w n hw) (by rw [pad_length]; omega) (.inl (pad_length w n)),
    pad_val w n h, pad_length]

theorem isspace_space {c : Int} (h : Space c) : isspace c = some true := by
  unfold isspace
  have : -1 ≤ c ∧ c ≤ 255 := by unfold Space at h; omega
  rw [if_pos this]
  unfold Space at h
  congr 1
  simp only [Bool.or_eq_true, Bool.and_eq_true, decide_eq_true_eq]
  exact h

theorem isspace_digit {c : Int} (h : isDigit c = true) : isspace c = some false ∧ c ≠ 0 := by
  unfold isDigit at h
  simp only [Bool.and_eq_true, decide_eq_true_eq] at h
  unfold isspace
  rw [if_pos (by omega)]
  refine ⟨?_, by omega⟩
  congr 1
  cases e : (decide (9 ≤ c) && decide (c ≤ 13) || decide (c = 32)) with
  | false => rfl
  | true =>
    simp only [Bool.or_eq_true, Bool.and_eq_true, decide_eq_true_eq] at e
    omega

theorem lead_blank (ws l : List Int) (p : Nat) (hw : Blank ws) : lead (ws ++ l) p = lead l (p + ws.length) := by
  induction ws generalizing p with
  | nil => rfl
  | cons c ws ih =>
    have hc : Space c := hw c (by simp)
    have h0 : c ≠ 0 := by unfold Space at hc; omega
    rw [List.cons_append, lead, if_neg h0, isspace_space hc]
    simp only [Option.bind_some, if_true]
    rw [ih (p + 1) (fun x hx => hw x (by simp [hx]))]
    simp only [List.length_cons]
    congr 1; omega

theorem lead_digits (ds r : List Int) (p : Nat) (hd : ∀ c ∈ ds, isDigit c = true) (hn : ds ≠ []) :
    lead (ds ++ r) p = some (ds ++ r, p) ∧ atEnd (ds ++ r) = false := by
  cases ds with
  | nil => exact absurd rfl hn
  | cons c ds =>
    have h := isspace_digit (hd c (by simp))
    rw [List.cons_append, lead, if_neg h.2, h.1]
    exact ⟨rfl, by unfold atEnd; simp [h.2]⟩

theorem trail_tail (l : List Int) (p : Nat) (e : Err) (h : Tail l) : trail l p e = some e := by
  obtain ⟨ws, z, rfl, hw, hz⟩ := h
  induction ws generalizing p with
  | nil =>
    rcases hz with rfl | ⟨r, rfl⟩
    · rfl
    · rw [List.nil_append, trail, if_pos rfl]
  | cons c ws ih =>
    have hc : Space c := hw c (by simp)
    have h0 : c ≠ 0 := by unfold Space at hc; omega
    rw [List.cons_append, trail, if_neg h0, isspace_space hc]
    simp only [Option.bind_some, if_true]
    exact ih (p + 1) (fun x hx => hw x (by simp [hx]))

theorem parseSingle_hit (x : Int) (r : List Int) (p : Nat) (e : Err) (h : isDigit x = false) :
    parseSingle x ⟨x :: r, p, e⟩ = (true, ⟨r, p + 1, e⟩) := by
  unfold parseSingle
  simp only [h, Bool.false_eq_true, if_false, if_true]

theorem parseSingle_digits (x : Int) (ds r : List Int) (p : Nat) (e : Err) (hd : ∀ c ∈ ds, isDigit c = true) (hn : ds ≠ []) :
    parseSingle x ⟨ds ++ r, p, e⟩ = (false, ⟨ds ++ r, p, e⟩) := by
  cases ds with
  | nil => exact absurd rfl hn
  | cons c ds =>
    unfold parseSingle
    simp only [List.cons_append, hd c (by simp), if_true]

/-- The text of a date, with or without hyphens. -/
def dateText (sep : Bool) (a : D) : List Int :=
  pad 4 a.y ++ ((if sep then [45] else []) ++ (pad 2 a.m ++ ((if sep then [45] else []) ++ pad 2 a.d)))

theorem parseYmd_text (sep : Bool) {a : D} (h : Valid a) (hy : a.y ≤ 9999) (r : List Int) (p : Nat) (e : Err) :
    parseYmd ⟨dateText sep a ++ r, p, e⟩ = (((a.y : Int), (a.m : Int), (a.d : Int)), ⟨r, p + (dateText sep a).length, e⟩) := by
  obtain ⟨a1, a2, a3, a4⟩ := h
  have hm := monthLen_le a.y a.m
  have hd45 : isDigit 45 = false := by decide
  unfold parseYmd dateText
  cases sep with
  | true =>
    simp only [if_true, List.append_assoc, List.cons_append, List.nil_append, List.length_append, pad_length, List.length_cons]
    rw [parseNumber_pad 4 a.y (by decide) (by omega)]
    simp only
    rw [parseSingle_hit 45 _ _ _ hd45]
    simp only
    rw [parseNumber_pad 2 a.m (by decide) (by omega)]
    simp only
    rw [parseSingle_hit 45 _ _ _ hd45]
    simp only [if_true]
    rw [parseNumber_pad 2 a.d (by decide) (by omega)]
  | false =>
    simp only [Bool.false_eq_true, if_false, List.append_assoc, List.nil_append, List.length_append, pad_length]
    rw [parseNumber_pad 4 a.y (by decide) (by omega)]
    simp only
    rw [parseSingle_digits 45 _ _ _ _ (pad_digits 2 a.m) (pad_ne 2 a.m (by decide))]
    simp only
    rw [parseNumber_pad 2 a.m (by decide) (by omega)]
    simp only
    rw [parseSingle_digits 45 _ _ _ _ (pad_digits 2 a.d) (pad_ne 2 a.d (by decide))]
    simp only [if_true]
    rw [parseNumber_pad 2 a.d (by decide) (by omega)]

theorem dateText_lead (sep : Bool) (a : D) (ws r : List Int) (hw : Blank ws) :
    lead (ws ++ (dateText sep a ++ r)) 0 = some (dateText sep a ++ r, ws.length) ∧ atEnd (dateText sep a ++ r) = false := by
  rw [lead_blank ws _ 0 hw]
  unfold dateText
  rw [List.append_assoc]
  have := lead_digits (pad 4 a.y) (((if sep then [45] else []) ++ (pad 2 a.m ++ ((if sep then [45] else []) ++ pad 2 a.d))) ++ r)
    (0 + ws.length) (pad_digits 4 a.y) (pad_ne 4 a.y (by decide))
  rw [this.1, this.2]
  simp

/-- The number of a date. -/
theorem epoch_number {a : D} (h : Valid a) (hy : 1970 ≤ a.y ∧ a.y ≤ 2099) :
    ∃ n, n ≤ 47481 ∧ dateOf n = a ∧ epochNano a.y a.m a.d = n * dayNanos := by
  obtain ⟨n, h1, h2⟩ := dateOf_all h hy
  exact ⟨n, h1, h2, by rw [← h2]; exact epochNano_dateOf n h1⟩

/-- **C88**, dates: the text of a date, with white space around it and zero bytes after it, gives its number of days, and no
error. -/
theorem parseDate_text (sep : Bool) {a : D} (h : Valid a) (hy : 1970 ≤ a.y ∧ a.y ≤ 2099) (ws t : List Int) (hw : Blank ws)
    (ht : Tail t) (e : Err) :
    ∃ n, n ≤ 47481 ∧ dateOf n = a ∧ parseDate (ws ++ (dateText sep a ++ t)) e = some (n * dayNanos, e) := by
  obtain ⟨n, h1, h2, h3⟩ := epoch_number h hy
  refine ⟨n, h1, h2, ?_⟩
  obtain ⟨l1, l2⟩ := dateText_lead sep a ws t hw
  unfold parseDate
  rw [l1]
  simp only [Option.bind_some, l2, Bool.false_eq_true, if_false]
  rw [parseYmd_text sep h (by omega)]
  simp only
  rw [trail_tail t _ e ht, h3]
  simp only [Option.map_some]
  rw [if_neg (by unfold dayNanos; omega)]

example : parseDate [32, 50, 48, 50, 52, 45, 48, 50, 45, 50, 57, 0, 0] none = some (19782 * dayNanos, none) := by
  decide +kernel

/-- The text of a time of day: hours, minutes, seconds. -/
def clockText (h m s : Nat) : List Int := pad 2 h ++ (58 :: (pad 2 m ++ (58 :: pad 2 s)))

/-- A fraction of a second: nothing, or a period and digits. -/
def fracText : Option (List Nat) → List Int
  | none => []
  | some f => 46 :: f.map fun (x : Nat) => 48 + (x : Int)

/-- Its nanoseconds. -/
def fracNanos : Option (List Nat) → Int
  | none => 0
  | some f => nanos f

theorem scale_eq (p : Nat) (n : Int) (h : p ≤ 9) : scale p n = n * 10 ^ (9 - p) := by
  have : p = 0 ∨ p = 1 ∨ p = 2 ∨ p = 3 ∨ p = 4 ∨ p = 5 ∨ p = 6 ∨ p = 7 ∨ p = 8 ∨ p = 9 := by omega
  rcases this with rfl | rfl | rfl | rfl | rfl | rfl | rfl | rfl | rfl | rfl <;> (simp [scale]; try omega)

theorem tail_stops {t : List Int} (h : Tail t) : Stops t := by
  intro c s hc
  obtain ⟨ws, z, rfl, hw, hz⟩ := h
  cases ws with
  | nil =>
    rcases hz with rfl | ⟨r, rfl⟩
    · cases hc
    · injection hc with h1 _; rw [← h1]; rfl
  | cons x ws =>
    injection hc with h1 _
    have := hw x (by simp)
    rw [← h1]
    unfold Space at this
    unfold isDigit
    cases e : (decide (48 ≤ x) && decide (x ≤ 57)) with
    | false => rfl
    | true => simp only [Bool.and_eq_true, decide_eq_true_eq] at e; omega

theorem tail_no_period {t : List Int} (h : Tail t) : ∀ c s, t = c :: s → c ≠ 46 := by
  intro c s hc
  obtain ⟨ws, z, rfl, hw, hz⟩ := h
  cases ws with
  | nil =>
    rcases hz with rfl | ⟨r, rfl⟩
    · cases hc
    · injection hc with h1 _; rw [← h1]; decide
  | cons x ws =>
    injection hc with h1 _
    have := hw x (by simp)
    rw [← h1]
    unfold Space at this
    omega

theorem val_map (f : List Nat) (a : Nat) : val (f.map fun (x : Nat) => 48 + (x : Int)) a = f.foldl (fun a x => 10 * a + x) a := by
  induction f generalizing a with
  | nil => rfl
  | cons x f ih =>
    unfold val at *
    rw [List.map_cons, List.foldl_cons, List.foldl_cons, ← ih]
    congr 1
    omega

theorem frac_digits (f : List Nat) (h : ∀ x ∈ f, x ≤ 9) : ∀ c ∈ f.map (fun (x : Nat) => 48 + (x : Int)), isDigit c = true := by
  intro c hc
  obtain ⟨x, hx, rfl⟩ := List.mem_map.1 hc
  have := h x hx
  unfold isDigit
  simp only [Bool.and_eq_true, decide_eq_true_eq]
  omega

/-- Digits of a fraction. -/
def FracOk (o : Option (List Nat)) : Prop := ∀ f, o = some f → f.length ≤ 9 ∧ ∀ x ∈ f, x ≤ 9

theorem parseFraction_text (o : Option (List Nat)) (ho : FracOk o) (t : List Int) (ht : Tail t) (p : Nat) (e : Err) :
    ∃ q, parseFraction ⟨fracText o ++ t, p, e⟩ = (fracNanos o, ⟨t, q, e⟩) := by
  cases o with
  | none =>
    refine ⟨p, ?_⟩
    unfold parseFraction fracText
    cases t with
    | nil => rfl
    | cons c s =>
      simp only [List.nil_append]
      rw [if_neg (tail_no_period ht c s rfl)]
      rfl
  | some f =>
    obtain ⟨h1, h2⟩ := ho f rfl
    refine ⟨p + 1 + f.length, ?_⟩
    unfold parseFraction fracText
    simp only [List.cons_append, if_true]
    unfold parseDecimal
    simp only
    rw [digitsLoop_digits _ t 9 0 (frac_digits f h2) (by simpa using h1), digitsLoop_stop _ t _ (.inr (tail_stops ht))]
    simp only [List.length_map, Nat.zero_add]
    congr 1
    rw [scale_eq _ _ h1]
    unfold fracNanos nanos
    have := val_map f 0
    simp only [Int.natCast_zero] at this
    rw [this]
    simp

theorem parseMs_text (m s : Nat) (hm : m < 60) (hs : s < 60) (r : List Int) (p : Nat) (e : Err) :
    ∃ q, parseMs ⟨pad 2 m ++ (58 :: (pad 2 s ++ r)), p, e⟩ = (((m : Int), (s : Int), true), ⟨r, q, e⟩) := by
  refine ⟨p + 2 + 1 + 2, ?_⟩
  unfold parseMs
  rw [parseNumber_pad 2 m (by decide) (by omega)]
  simp only
  rw [parseSingle_hit 58 _ _ _ (by decide)]
  simp only [if_true]
  rw [parseNumber_pad 2 s (by decide) (by omega)]
  simp only
  congr 1
  have h1 : decide ((m : Int) < 60) = true := decide_eq_true (by omega)
  have h2 : decide ((s : Int) < 60) = true := decide_eq_true (by omega)
  rw [h1, h2]; rfl

/-- **C88**, times: hours, minutes and seconds with an optional fraction of up to nine digits. -/
theorem parseTime_text {h m s : Nat} (hh : h < 24) (hm : m < 60) (hs : s < 60) (o : Option (List Nat)) (ho : FracOk o)
    (ws t : List Int) (hw : Blank ws) (ht : Tail t) (e : Err) :
    parseTime (ws ++ (clockText h m s ++ (fracText o ++ t))) e =
      some ((((h * 60 + m) * 60 + s) * 1000000000 : Nat) + fracNanos o, e) := by
  unfold parseTime clockText
  rw [lead_blank ws _ 0 hw, List.append_assoc]
  have l := lead_digits (pad 2 h) ((58 :: (pad 2 m ++ (58 :: pad 2 s))) ++ (fracText o ++ t)) (0 + ws.length) (pad_digits 2 h)
    (pad_ne 2 h (by decide))
  rw [l.1]
  simp only [Option.bind_some, l.2, Bool.false_eq_true, if_false]
  rw [parseNumber_pad 2 h (by decide) (by omega)]
  simp only [List.cons_append, List.append_assoc]
  rw [parseSingle_hit 58 _ _ _ (by decide)]
  simp only [if_true]
  obtain ⟨q, hq⟩ := parseMs_text m s hm hs (fracText o ++ t) (0 + ws.length + 2 + 1) e
  rw [hq]
  simp only
  obtain ⟨q', hq'⟩ := parseFraction_text o ho t ht q e
  rw [hq']
  simp only
  rw [trail_tail t _ e ht]
  have h1 : decide ((h : Int) < 24) = true := decide_eq_true (by omega)
  simp only [h1, Bool.and_self, if_true, Option.map_some, clock]
  congr 2
  omega

example : parseTime [49, 50, 58, 51, 52, 58, 53, 54, 46, 53, 0] none = some (45296500000000, none) := by decide +kernel

/-- **C88**, dates and times: the text of a date, a `T` or a space, and a time of day. -/
theorem parseDateTime_text (sep : Bool) {a : D} (hv : Valid a) (hy : 1970 ≤ a.y ∧ a.y ≤ 2099) {h m s : Nat} (hh : h < 24)
    (hm : m < 60) (hs : s < 60) (x : Int) (hx : x = 84 ∨ x = 32) (o : Option (List Nat)) (ho : FracOk o) (ws t : List Int)
    (hw : Blank ws) (ht : Tail t) (e : Err) :
    ∃ n, n ≤ 47481 ∧ dateOf n = a ∧
      parseDateTime (ws ++ (dateText sep a ++ (x :: (clockText h m s ++ (fracText o ++ t))))) e =
        some (n * dayNanos + (((h * 60 + m) * 60 + s) * 1000000000 : Nat) + fracNanos o, e) := by
  obtain ⟨n, h1, h2, h3⟩ := epoch_number hv hy
  refine ⟨n, h1, h2, ?_⟩
  obtain ⟨l1, l2⟩ := dateText_lead sep a ws (x :: (clockText h m s ++ (fracText o ++ t))) hw
  unfold parseDateTime
  rw [l1]
  simp only [Option.bind_some, l2, Bool.false_eq_true, if_false]
  rw [parseYmd_text sep hv (by omega)]
  simp only
  rw [h3]
  have hxd : isDigit x = false := by rcases hx with rfl | rfl <;> rfl
  unfold parseHms clockText
  simp only [hxd, Bool.false_eq_true, if_false, hx, if_true, List.append_assoc]
  rw [parseNumber_pad 2 h (by decide) (by omega)]
  simp only [List.cons_append, List.append_assoc]
  rw [parseSingle_hit 58 _ _ _ (by decide)]
  simp only [if_true]
  obtain ⟨q, hq⟩ := parseMs_text m s hm hs (fracText o ++ t) (ws.length + (dateText sep a).length + 1 + 2 + 1) e
  rw [hq]
  simp only
  obtain ⟨q', hq'⟩ := parseFraction_text o ho t ht q e
  rw [hq']
  simp only
  rw [trail_tail t _ e ht]
  have c1 : decide ((h : Int) < 24) = true := decide_eq_true (by omega)
  have c2 : decide (0 ≤ (n : Int) * dayNanos) = true := decide_eq_true (by unfold dayNanos; omega)
  have c3 : ¬ (n : Int) * dayNanos < 0 := by unfold dayNanos; omega
  simp only [c1, c2, Bool.and_self, if_true, if_neg c3, Option.map_some, clock]
  congr 2
  omega

example : parseDateTime [50, 48, 50, 52, 48, 50, 50, 57, 84, 48, 49, 58, 48, 50, 58, 48, 51, 46, 49, 50] none =
    some (19782 * dayNanos + 3723120000000, none) := by decide +kernel

end Riptide.Date
