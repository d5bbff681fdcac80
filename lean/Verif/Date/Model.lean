/-! # Model of the conversion of date and time strings, `src/DateTime.cpp`

A string is the list of its characters (`char` as a signed number, or UCS4), as long as the item; reading past it is
not possible in the model since each read is under a test `pStart < pEnd`.  `none` is undefined behaviour. -/
namespace Riptide.Date

/-- The first error: message and position, `src/DateTime.cpp:18-34`. -/
abbrev Err := Option (String × Nat)

/-- `set_error`, `src/DateTime.cpp:74-78`. -/
def note (m : String) (p : Nat) (e : Err) : Err := if e.isSome then e else some (m, p)

/-- The characters from `pStart` to `pEnd`, the position and the error, `src/DateTime.cpp:38-42`. -/
structure St where
  rest : List Int
  pos : Nat
  err : Err
deriving DecidableEq, Repr

/-- `*pStart >= '0' && *pStart <= '9'`, `src/DateTime.cpp:101`, `164`. -/
def isDigit (c : Int) : Bool := decide (48 ≤ c) && decide (c ≤ 57)

/-- `std::isspace` of the C locale, `src/DateTime.cpp:54`, `62`: undefined outside of `unsigned char` and `EOF`. -/
def isspace (c : Int) : Option Bool :=
  if -1 ≤ c ∧ c ≤ 255 then some ((decide (9 ≤ c) && decide (c ≤ 13)) || decide (c = 32)) else none

/-- `consume_leading_whitespace`, `src/DateTime.cpp:52-56`. -/
def lead : List Int → Nat → Option (List Int × Nat)
  | [], p => some ([], p)
  | c :: r, p =>
    if c = 0 then some (c :: r, p)
    else (isspace c).bind fun b => if b then lead r (p + 1) else some (c :: r, p)

/-- `consume_trailing_characters`, `src/DateTime.cpp:58-67`. -/
def trail : List Int → Nat → Err → Option Err
  | [], _, e => some e
  | c :: r, p, e =>
    if c = 0 then some e
    else (isspace c).bind fun b => trail r (p + 1) (if b then e else note "Unexpected characters" p e)

/-- `at_end`, `src/DateTime.cpp:69-72`. -/
def atEnd : List Int → Bool
  | [] => true
  | c :: _ => decide (c = 0)

/-- The first loop of `ParseNumber`, `src/DateTime.cpp:154-163`. -/
def skipNon : List Int → Nat → Err → St
  | [], p, e => ⟨[], p, e⟩
  | c :: r, p, e => if isDigit c then ⟨c :: r, p, e⟩ else skipNon r (p + 1) (note "Unexpected characters" p e)

/-- The digits loop of `ParseNumber` and `ParseDecimal`, `src/DateTime.cpp:96-112`, `166-182`, with at most `k` more
digits: the number, the rest and the digits read. -/
def digitsLoop : Nat → List Int → Int → Int × List Int × Nat
  | 0, l, n => (n, l, 0)
  | _ + 1, [], n => (n, [], 0)
  | k + 1, c :: r, n =>
    if isDigit c then
      let t := digitsLoop k r (n * 10 + (c - 48))
      (t.1, t.2.1, t.2.2 + 1)
    else (n, c :: r, 0)

/-- `ParseNumber`, `src/DateTime.cpp:150-185`. -/
def parseNumber (k : Nat) (s : St) : Int × St :=
  let s' := skipNon s.rest s.pos s.err
  let t := digitsLoop k s'.rest 0
  (t.1, ⟨t.2.1, s'.pos + t.2.2, s'.err⟩)

/-- `while (places <= 6) { num *= 1000; places += 3; } while (places < 9) { num *= 10; places++; }`,
`src/DateTime.cpp:113-123`. -/
def scale (places : Nat) (n : Int) : Int :=
  let n1 := if places ≤ 6 then n * 1000 else n
  let p1 := if places ≤ 6 then places + 3 else places
  let n2 := if p1 ≤ 6 then n1 * 1000 else n1
  let p2 := if p1 ≤ 6 then p1 + 3 else p1
  let n3 := if p2 ≤ 6 then n2 * 1000 else n2
  let p3 := if p2 ≤ 6 then p2 + 3 else p2
  let n4 := if p3 < 9 then n3 * 10 else n3
  let p4 := if p3 < 9 then p3 + 1 else p3
  if p4 < 9 then n4 * 10 else n4

/-- `ParseDecimal`, `src/DateTime.cpp:90-127`. -/
def parseDecimal (s : St) : Int × St :=
  let t := digitsLoop 9 s.rest 0
  (scale t.2.2 t.1, ⟨t.2.1, s.pos + t.2.2, s.err⟩)

/-- `ParseSingleNonNumber`, `src/DateTime.cpp:130-142`. -/
def parseSingle (x : Int) (s : St) : Bool × St :=
  match s.rest with
  | [] => (false, s)
  | c :: r =>
    if isDigit c then (false, s)
    else (true, ⟨r, s.pos + 1, if c = x then s.err else note "Unexpected delimiter" s.pos s.err⟩)

/-- `if (pStart < pEnd && *pStart == PERIOD) { pStart++; … ParseDecimal … }`, `src/DateTime.cpp:239-247`, `439-448`: what to
add. -/
def parseFraction (s : St) : Int × St :=
  match s.rest with
  | [] => (0, s)
  | c :: r => if c = 46 then parseDecimal ⟨r, s.pos + 1, s.err⟩ else (0, s)

/-- `MONTH_SPLITS`, `src/DateTime.cpp:254`. -/
def splits : List Int := [0, 31, 59, 90, 120, 151, 181, 212, 243, 273, 304, 334]

/-- `MONTH_SPLITS_LEAP`, `src/DateTime.cpp:256-267`. -/
def splitsLeap : List Int := [0, 31, 60, 91, 121, 152, 182, 213, 244, 274, 305, 335]

/-- `NANOS_PER_DAY`, `src/DateTime.cpp:269-272`. -/
def nanosPerDay : Int := 1000000000 * 60 * 60 * 24

/-- `YearToEpochNano`, `src/DateTime.cpp:276-308`.  All values stay far below `2 ^ 63`. -/
def epochNano (year month day : Int) : Int :=
  if 1970 ≤ year ∧ year ≤ 2099 ∧ 1 ≤ month ∧ month ≤ 12 ∧ 1 ≤ day ∧ day ≤ 31 then
    let off := if year % 4 = 0 then splitsLeap.getD (month - 1).toNat 0 else splits.getD (month - 1).toNat 0
    let day' := off + day - 1
    let y := year - 1970
    (y * 365 + (y + 1) / 4 + day') * nanosPerDay
  else -1

/-- Hour, minute and second in nanoseconds, `src/DateTime.cpp:235`, `436`. -/
def clock (h m s : Int) : Int := 1000000000 * (h * 3600 + m * 60 + s)

/-- The date part, `src/DateTime.cpp:331-347`, `377-394`: year, month, day. -/
def parseYmd (s : St) : (Int × Int × Int) × St :=
  let y := parseNumber 4 s
  let b := parseSingle 45 y.2
  let m := parseNumber 2 b.2
  let c := parseSingle 45 m.2
  let s1 : St := if b.1 = c.1 then c.2 else
    { c.2 with err := note (if b.1 then "Expected delimiter" else "Unexpected delimiter") c.2.pos c.2.err }
  let d := parseNumber 2 s1
  ((y.1, m.1, d.1), d.2)

/-- One item of `ParseDateString`, `src/DateTime.cpp:315-355`. -/
def parseDate (item : List Int) (e : Err) : Option (Int × Err) :=
  (lead item 0).bind fun l =>
    if atEnd l.1 then some (0, e)
    else
      let r := parseYmd ⟨l.1, l.2, e⟩
      let v := epochNano r.1.1 r.1.2.1 r.1.2.2
      (trail r.2.rest r.2.pos r.2.err).map fun e' => (if v < 0 then 0 else v, e')

/-- The minutes and seconds after the hour, `src/DateTime.cpp:218-231`, `417-430`: minute, second and whether they are in
range. -/
def parseMs (s : St) : (Int × Int × Bool) × St :=
  let m := parseNumber 2 s
  let b := parseSingle 58 m.2
  if b.1 then
    let c := parseNumber 2 b.2
    ((m.1, c.1, decide (m.1 < 60) && decide (c.1 < 60)), c.2)
  else ((m.1, 0, decide (m.1 < 60)), b.2)

/-- One item of `ParseTimeString`, `src/DateTime.cpp:192-252`. -/
def parseTime (item : List Int) (e : Err) : Option (Int × Err) :=
  (lead item 0).bind fun l =>
    if atEnd l.1 then some (0, e)
    else
      let h := parseNumber 2 ⟨l.1, l.2, e⟩
      let b := parseSingle 58 h.2
      if b.1 then
        let r := parseMs b.2
        let ok := decide (h.1 < 24) && r.1.2.2
        let f := parseFraction r.2
        (trail f.2.rest f.2.pos f.2.err).map fun e' => (if ok then clock h.1 r.1.1 r.1.2.1 + f.1 else 0, e')
      else (trail b.2.rest b.2.pos b.2.err).map fun e' => (0, e')

/-- The time part of `ParseDateTimeString`, `src/DateTime.cpp:402-431`: hour, minute, second and whether they are in
range. -/
def parseHms (s : St) : (Int × Int × Int × Bool) × St :=
  match s.rest with
  | [] => ((0, 0, 0, true), s)
  | c :: r =>
    if isDigit c then ((0, 0, 0, true), s)
    else
      let s1 : St := ⟨r, s.pos + 1, if c = 84 ∨ c = 32 then s.err else note "Unexpected delimiter" s.pos s.err⟩
      let h := parseNumber 2 s1
      let b := parseSingle 58 h.2
      if b.1 then
        let r := parseMs b.2
        ((h.1, r.1.1, r.1.2.1, decide (h.1 < 24) && r.1.2.2), r.2)
      else ((h.1, 0, 0, decide (h.1 < 24)), b.2)

/-- One item of `ParseDateTimeString`, `src/DateTime.cpp:362-454`. -/
def parseDateTime (item : List Int) (e : Err) : Option (Int × Err) :=
  (lead item 0).bind fun l =>
    if atEnd l.1 then some (0, e)
    else
      let r := parseYmd ⟨l.1, l.2, e⟩
      let v := epochNano r.1.1 r.1.2.1 r.1.2.2
      let t := parseHms r.2
      let ok := decide (0 ≤ v) && t.1.2.2.2
      let v' := if v < 0 then 0 else v
      let f := parseFraction t.2
      (trail f.2.rest f.2.pos f.2.err).map fun e' =>
        (if ok then v' + clock t.1.1 t.1.2.1 t.1.2.2.1 + f.1 else v', e')

/-- The loop over the items: the parser keeps the first error, `src/DateTime.cpp:192-252`. -/
def parseAll (parse : List Int → Err → Option (Int × Err)) : List (List Int) → Err → Option (List Int × Err)
  | [], e => some ([], e)
  | x :: xs, e => (parse x e).bind fun r => (parseAll parse xs r.2).map fun q => (r.1 :: q.1, q.2)

end Riptide.Date
