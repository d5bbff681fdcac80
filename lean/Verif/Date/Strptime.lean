import Verif.Date.Model
/-! # Model of `rt_strptime`, `src/strptime5.cpp`, and of `ParseStrptime`, `src/DateTime.cpp:667-733`

Bytes are numbers from 0 to 255.  The buffer is the list of the bytes from `bp` to the terminating zero that
`ParseStrptime` adds, which is not in the list.  What lies beyond it is not initialised: reading there is undefined
behaviour (`none`).  A null pointer, the failure of a conversion, is `some none`. -/
namespace Riptide.Date

/-- The fields of `struct tm` that `ParseStrptime` uses, `src/DateTime.cpp:690-715`; the day of week, day of year and
daylight saving flag are left out. -/
structure Tm where
  year : Int := 0
  mon : Int := 0
  mday : Int := 0
  hour : Int := 0
  min : Int := 0
  sec : Int := 0
deriving DecidableEq, Repr

/-- The result, `src/strptime5.cpp:81-84`: where the reading stopped, and the fields. -/
abbrev Res := Option (Option (List Int × Tm))

/-- `isspace` on an `unsigned char`, `src/strptime5.cpp:100-105`, in the C locale. -/
def space (c : Int) : Bool := (decide (9 ≤ c) && decide (c ≤ 13)) || decide (c = 32)

/-- The loop of `conv_num`, `src/strptime5.cpp:530-537`. -/
def convLoop (ulim : Int) : Int → Int → List Int → Int × List Int
  | res, _, [] => (res, [])
  | res, rulim, c :: r =>
    if res * 10 ≤ ulim ∧ rulim ≠ 0 ∧ isDigit c then convLoop ulim (res * 10 + (c - 48)) (rulim / 10) r else (res, c :: r)

/-- `conv_num`, `src/strptime5.cpp:518-544`. -/
def convNum (llim ulim : Int) : List Int → Option (Int × List Int)
  | [] => none
  | c :: r =>
    if isDigit c then
      let t := convLoop ulim (c - 48) (ulim / 10) r
      if llim ≤ t.1 ∧ t.1 ≤ ulim then some t else none
    else none

/-- `tolower` of the C locale, as used by `strncasecmp`, `src/strptime5.cpp:557`. -/
def lower (c : Int) : Int := if 65 ≤ c ∧ c ≤ 90 then c + 32 else c

/-- `strncasecmp(name, bp, strlen(name)) == 0`, `src/strptime5.cpp:556-557`: what follows the name. -/
def matchName : List Int → List Int → Option (List Int)
  | [], b => some b
  | _ :: _, [] => none
  | x :: n, y :: b => if lower x = lower y then matchName n b else none

/-- The inner loop of `find_string`, `src/strptime5.cpp:554-562`. -/
def findIn (b : List Int) : List (List Int) → Int → Option (Int × List Int)
  | [], _ => none
  | n :: ns, i => match matchName n b with
    | some r => some (i, r)
    | none => findIn b ns (i + 1)

/-- `find_string`, `src/strptime5.cpp:546-567`: full names, then the abbreviated ones. -/
def findString (n1 n2 : List (List Int)) (b : List Int) : Option (Int × List Int) := (findIn b n1 0).or (findIn b n2 0)

/-- A string as bytes, for the constants of `src/strptime5.cpp:61-76`. -/
def bytes (s : String) : List Int := s.toList.map fun c => (c.toNat : Int)

/-- `day`, `src/strptime5.cpp:71`. -/
def dayNames : List (List Int) :=
  ["Sunday", "Monday", "Tuesday", "Wednesday", "Thursday", "Friday", "Saturday"].map bytes

/-- `abday`, `src/strptime5.cpp:72`. -/
def abday : List (List Int) := ["Sun", "Mon", "Tue", "Wed", "Thu", "Fri", "Sat"].map bytes

/-- `mon`, `src/strptime5.cpp:73-74`. -/
def monNames : List (List Int) := ["January", "February", "March", "April", "May", "June", "July", "August", "September",
  "October", "November", "December"].map bytes

/-- `abmon`, `src/strptime5.cpp:75`. -/
def abmon : List (List Int) :=
  ["Jan", "Feb", "Mar", "Apr", "May", "Jun", "Jul", "Aug", "Sep", "Oct", "Nov", "Dec"].map bytes

/-- The loop over the digits of an offset, `src/strptime5.cpp:458-472`: digits read, their value, the rest. -/
def offLoop : Nat → Int → List Int → Nat × Int × List Int
  | i, o, [] => (i, o, [])
  | i, o, c :: r =>
    if i < 4 then
      if isDigit c then offLoop (i + 1) (o * 10 + (c - 48)) r
      else if i = 2 ∧ c = 58 then offLoop i o r else (i, o, c :: r)
    else (i, o, c :: r)

/-- The case `'z'`, `src/strptime5.cpp:365-498`: what follows the time zone; its offset is not stored anywhere (`TM_GMTOFF` is
not defined). -/
def zone (b : List Int) : Option (List Int) :=
  match b.dropWhile space with
  | [] => none
  | c :: r =>
    if c = 71 then matchExact [77, 84] r
    else if c = 85 then matchExact [84] r
    else if c = 90 then some r
    else if c = 43 ∨ c = 45 then
      let t := offLoop 0 0 r
      if t.1 = 2 then some t.2.2
      else if t.1 = 4 ∧ t.2.1 % 100 < 60 then some t.2.2 else none
    else match findString (["EST", "CST", "MST", "PST"].map bytes) [] (c :: r) with
      | some q => some q.2
      | none => match findString (["EDT", "CDT", "MDT", "PDT"].map bytes) [] (c :: r) with
        | some q => some q.2
        | none => if (65 ≤ c ∧ c ≤ 73) ∨ (76 ≤ c ∧ c ≤ 89) then some r else none
where
  /-- Exactly these bytes, `src/strptime5.cpp:389-396`. -/
  matchExact : List Int → List Int → Option (List Int)
    | [], b => some b
    | _ :: _, [] => none
    | x :: n, y :: b => if x = y then matchExact n b else none

/-- What a conversion yields: the rest, the fields and `split_year`, `src/strptime5.cpp:86-91`. -/
abbrev Conv := Option (Option (List Int × Tm × Bool))

/-- A number stored by `f`, as in `src/strptime5.cpp:207-210`. -/
def numConv (llim ulim : Int) (b : List Int) (f : Int → Tm × Bool) : Conv :=
  some ((convNum llim ulim b).map fun t => (t.2, f t.1))

/-- One conversion `%c`, `src/strptime5.cpp:110-513`, with the modifiers allowed for it.  `sub` is the recursive call. -/
def conv (sub : List Int → List Int → Tm → Res) (alt : Nat) (c : Int) (b : List Int) (tm : Tm) (split : Bool) : Conv :=
  let legal (x : Nat) (r : Conv) : Conv := if alt = 0 ∨ alt = x then r else some none
  let recurse (f : String) : Conv := (sub (bytes f) b tm).map fun o => o.map fun p => (p.1, p.2, split)
  if c = 37 then legal 0 (match b with
    | [] => some none
    | x :: r => if x = 37 then some (some (r, tm, split)) else some none)
  else if c = 99 then legal 1 (recurse "%x %X")
  else if c = 68 then legal 0 (recurse "%m/%d/%y")
  else if c = 70 then legal 0 (recurse "%Y-%m-%d")
  else if c = 82 then legal 0 (recurse "%H:%M")
  else if c = 114 then legal 0 (recurse "%I:%M:%S %p")
  else if c = 84 then legal 0 (recurse "%H:%M:%S")
  else if c = 88 then legal 1 (recurse "%H:%M:%S")
  else if c = 120 then legal 1 (recurse "%m/%d/%y")
  else if c = 65 ∨ c = 97 then legal 0 (some ((findString dayNames abday b).map fun t => (t.2, tm, split)))
  else if c = 66 ∨ c = 98 ∨ c = 104 then
    legal 0 (some ((findString monNames abmon b).map fun t => (t.2, { tm with mon := t.1 }, split)))
  else if c = 67 then legal 1 (numConv 0 99 b fun i =>
    ({ tm with year := i * 100 - 1900 + (if split then tm.year.tmod 100 else 0) }, true))
  else if c = 100 ∨ c = 101 then legal 2 (numConv 1 31 b fun i => ({ tm with mday := i }, split))
  else if c = 107 then legal 0 (numConv 0 23 b fun i => ({ tm with hour := i }, split))
  else if c = 72 then legal 2 (numConv 0 23 b fun i => ({ tm with hour := i }, split))
  else if c = 108 then legal 0 (numConv 1 12 b fun i => ({ tm with hour := if i = 12 then 0 else i }, split))
  else if c = 73 then legal 2 (numConv 1 12 b fun i => ({ tm with hour := if i = 12 then 0 else i }, split))
  else if c = 106 then legal 0 (numConv 1 366 b fun _ => (tm, split))
  else if c = 77 then legal 2 (numConv 0 59 b fun i => ({ tm with min := i }, split))
  else if c = 109 then legal 2 (numConv 1 12 b fun i => ({ tm with mon := i - 1 }, split))
  else if c = 112 then legal 0 (match findString (["AM", "PM"].map bytes) [] b with
    | none => some none
    | some t => if 11 < tm.hour then some none else some (some (t.2, { tm with hour := tm.hour + t.1 * 12 }, split)))
  else if c = 83 then legal 2 (numConv 0 61 b fun i => ({ tm with sec := i }, split))
  else if c = 85 ∨ c = 87 then legal 2 (numConv 0 53 b fun _ => (tm, split))
  else if c = 119 then legal 2 (numConv 0 6 b fun _ => (tm, split))
  else if c = 117 then legal 2 (numConv 1 7 b fun _ => (tm, split))
  else if c = 103 then numConv 0 99 b fun _ => (tm, split)
  else if c = 71 then
    match b with
    | [] => none
    | _ :: r => some (some (r.dropWhile isDigit, tm, split))
  else if c = 86 then numConv 0 53 b fun _ => (tm, split)
  else if c = 89 then legal 1 (numConv 0 9999 b fun i => ({ tm with year := i - 1900 }, split))
  else if c = 121 then numConv 0 99 b fun i =>
    ({ tm with year := if split then i + tm.year.tdiv 100 * 100 else if i ≤ 68 then i + 2000 - 1900 else i + 1900 - 1900 }, true)
  else if c = 90 then match b with
    | 71 :: 77 :: 84 :: r => some (some (r, tm, split))
    | _ => some (some (b, tm, split))
  else if c = 122 then some ((zone b).map fun r => (r, tm, split))
  else if c = 110 ∨ c = 116 then legal 0 (some (some (b.dropWhile space, tm, split)))
  else some none

/-- `rt_strptime`, `src/strptime5.cpp:84-516`, with the recursive call `sub`. -/
def run (sub : List Int → List Int → Tm → Res) : List Int → List Int → Tm → Bool → Res
  | [], b, tm, _ => some (some (b, tm))
  | c :: f, b, tm, split =>
    if space c then run sub f (b.dropWhile space) tm split
    else if c ≠ 37 then
      match b with
      | [] => some none
      | x :: r => if c = x then run sub f r tm split else some none
    else
      match f with
      | [] => some none
      | d :: f' =>
        if d = 69 ∨ d = 79 then
          match f' with
          | [] => some none
          | d' :: f'' =>
            if d' = 69 ∨ d' = 79 then some none
            else (conv sub (if d = 69 then 1 else 2) d' b tm split).bind fun o => match o with
              | none => some none
              | some p => run sub f'' p.1 p.2.1 p.2.2
        else (conv sub 0 d b tm split).bind fun o => match o with
          | none => some none
          | some p => run sub f' p.1 p.2.1 p.2.2

/-- `rt_strptime`, `src/strptime5.cpp:84-516`. The recursion ends at depth 2: `%c` calls `%x` and `%X`, and these call simple conversions. -/
def strptime (f b : List Int) (tm : Tm) : Res :=
  run (fun f b tm => run (fun f b tm => run (fun _ _ _ => none) f b tm false) f b tm false) f b tm false

/-- One item of `ParseStrptime`, `src/DateTime.cpp:667-733`: characters are cut to a byte. -/
def parseStrptime (fmt item : List Int) : Option Int :=
  (strptime fmt (item.map (· % 256)) {}).map fun o =>
    let v := match o with
      | none => 0
      | some p =>
        if p.2.year ≠ 0 then
          epochNano (p.2.year + 1900) (p.2.mon + 1) p.2.mday + clock p.2.hour p.2.min p.2.sec + (parseFraction ⟨p.1, 0, none⟩).1
        else 0
    if 0 ≤ v then v else 0

end Riptide.Date
