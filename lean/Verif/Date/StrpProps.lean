import Verif.Date.Strptime
import Verif.Date.Accept
/-! # C89: `strptime` undoes the writing of a date by the same format -/
namespace Riptide.Date
open Spec

/-- A date and time of day. -/
structure Stamp where
  date : D
  h : Nat
  mi : Nat
  s : Nat

/-- A moment of the years that can be represented. -/
def Stamp.Ok (x : Stamp) : Prop := Valid x.date ∧ 1970 ≤ x.date.y ∧ x.date.y ≤ 2099 ∧ x.h < 24 ∧ x.mi < 60 ∧ x.s < 60

/-- Parts of a format: a character, a field, or one of the abbreviations `%F`, `%T`, `%R`. -/
inductive Tok where
  | lit (c : Int)
  | Y | m | d | H | M | S | B | F | T | R
deriving DecidableEq, Repr

/-- How it is written in the format. -/
def Tok.fmt : Tok → List Int
  | .lit c => if c = 37 then [37, 37] else [c]
  | .Y => [37, 89]
  | .m => [37, 109]
  | .d => [37, 100]
  | .H => [37, 72]
  | .M => [37, 77]
  | .S => [37, 83]
  | .B => [37, 66]
  | .F => [37, 70]
  | .T => [37, 84]
  | .R => [37, 82]

/-- The name of a month. -/
def monthName (m : Nat) : List Int :=
  (["January", "February", "March", "April", "May", "June", "July", "August", "September", "October", "November",
    "December"].map fun s => s.toList.map fun c => (c.toNat : Int)).getD (m - 1) []

/-- The text that `strftime` writes for it. -/
def Tok.text (x : Stamp) : Tok → List Int
  | .lit c => [c]
  | .Y => pad 4 x.date.y
  | .m => pad 2 x.date.m
  | .d => pad 2 x.date.d
  | .H => pad 2 x.h
  | .M => pad 2 x.mi
  | .S => pad 2 x.s
  | .B => monthName x.date.m
  | .F => pad 4 x.date.y ++ 45 :: (pad 2 x.date.m ++ 45 :: pad 2 x.date.d)
  | .T => pad 2 x.h ++ 58 :: (pad 2 x.mi ++ 58 :: pad 2 x.s)
  | .R => pad 2 x.h ++ 58 :: pad 2 x.mi

/-- The fields it sets. -/
def Tok.set (x : Stamp) (tm : Tm) : Tok → Tm
  | .lit _ => tm
  | .Y => { tm with year := x.date.y - 1900 }
  | .m | .B => { tm with mon := x.date.m - 1 }
  | .d => { tm with mday := x.date.d }
  | .H => { tm with hour := x.h }
  | .M => { tm with min := x.mi }
  | .S => { tm with sec := x.s }
  | .F => { tm with year := x.date.y - 1900, mon := x.date.m - 1, mday := x.date.d }
  | .T => { tm with hour := x.h, min := x.mi, sec := x.s }
  | .R => { tm with hour := x.h, min := x.mi }

/-- Characters allowed in a format. -/
def Tok.Fine : Tok → Prop
  | .lit c => 1 ≤ c ∧ c ≤ 255
  | _ => True

/-- White space in the format. -/
def Tok.isSpace : Tok → Bool
  | .lit c => space c
  | _ => false

/-! ## Numbers -/

theorem pad_two (n : Nat) : pad 2 n = [48 + ((n / 10 % 10 : Nat) : Int), 48 + ((n % 10 : Nat) : Int)] := rfl

theorem pad_four (n : Nat) : pad 4 n = [48 + ((n / 10 / 10 / 10 % 10 : Nat) : Int), 48 + ((n / 10 / 10 % 10 : Nat) : Int),
    48 + ((n / 10 % 10 : Nat) : Int), 48 + ((n % 10 : Nat) : Int)] := rfl

theorem isDigit_add (k : Nat) (h : k < 10) : isDigit (48 + (k : Int)) = true := by
  unfold isDigit; simp only [Bool.and_eq_true, decide_eq_true_eq]; omega

theorem convLoop_done (ulim res : Int) (r : List Int) : convLoop ulim res 0 r = (res, r) := by
  cases r with
  | nil => rfl
  | cons c r => rw [convLoop, if_neg (by simp)]

theorem convLoop_step {ulim res rulim c : Int} {r : List Int} (h1 : res * 10 ≤ ulim) (h2 : rulim ≠ 0) (h3 : isDigit c = true) :
    convLoop ulim res rulim (c :: r) = convLoop ulim (res * 10 + (c - 48)) (rulim / 10) r := by
  rw [convLoop, if_pos ⟨h1, h2, h3⟩]

theorem convNum_some {llim ulim c v : Int} {r r' : List Int} (h1 : isDigit c = true)
    (h2 : convLoop ulim (c - 48) (ulim / 10) r = (v, r')) (h3 : llim ≤ v) (h4 : v ≤ ulim) :
    convNum llim ulim (c :: r) = some (v, r') := by
  rw [convNum, if_pos h1]
  simp only [h2]
  rw [if_pos ⟨h3, h4⟩]

/-- Two digits. -/
theorem convNum_two (llim ulim : Int) (n : Nat) (r : List Int) (h1 : llim ≤ n) (h2 : (n : Int) ≤ ulim) (h3 : 10 ≤ ulim)
    (h4 : ulim ≤ 99) : convNum llim ulim (pad 2 n ++ r) = some ((n : Int), r) := by
  rw [pad_two]
  simp only [List.cons_append, List.nil_append]
  refine convNum_some (isDigit_add _ (by omega)) ?_ h1 h2
  rw [convLoop_step (by omega) (by omega) (isDigit_add _ (by omega))]
  have e : ulim / 10 / 10 = 0 := by omega
  rw [e, convLoop_done]
  congr 1
  omega

/-- Four digits. -/
theorem convNum_four (n : Nat) (r : List Int) (h : n ≤ 9999) : convNum 0 9999 (pad 4 n ++ r) = some ((n : Int), r) := by
  rw [pad_four]
  simp only [List.cons_append, List.nil_append]
  refine convNum_some (isDigit_add _ (by omega)) ?_ (by omega) (by omega)
  rw [convLoop_step (by omega) (by omega) (isDigit_add _ (by omega)),
    convLoop_step (by omega) (by omega) (isDigit_add _ (by omega)),
    convLoop_step (by omega) (by omega) (isDigit_add _ (by omega))]
  have e : (9999 : Int) / 10 / 10 / 10 / 10 = 0 := by decide
  rw [e, convLoop_done]
  congr 1
  omega

/-- The name of a month. -/
theorem findString_month (m : Nat) (h1 : 1 ≤ m) (h2 : m ≤ 12) (r : List Int) :
    findString monNames abmon (monthName m ++ r) = some ((m : Int) - 1, r) := by
  rcases month_cases h1 h2 with rfl | rfl | rfl | rfl | rfl | rfl | rfl | rfl | rfl | rfl | rfl | rfl <;> rfl

/-! ## Steps -/

/-- A conversion in the loop. -/
theorem run_conv (sub : List Int → List Int → Tm → Res) (d : Int) (f b b' : List Int) (tm tm' : Tm) (split : Bool)
    (hd : ¬ (d = 69 ∨ d = 79)) (h : conv sub 0 d b tm split = some (some (b', tm', split))) :
    run sub (37 :: d :: f) b tm split = run sub f b' tm' split := by
  have hs : space 37 = false := by decide
  rw [run.eq_def]
  simp only [hs, Bool.false_eq_true, if_false, ne_eq, not_true_eq_false, if_neg hd, h, Option.bind_some]

/-- The recursive call. -/
abbrev Sub := List Int → List Int → Tm → Res

section
variable (sub : Sub) (x : Stamp) (hx : x.Ok) (f r : List Int) (tm : Tm) (split : Bool)
include hx

theorem step_Y : run sub (Tok.Y.fmt ++ f) (Tok.Y.text x ++ r) tm split = run sub f r (Tok.Y.set x tm) split := by
  refine run_conv sub 89 f _ _ _ _ split (by decide) ?_
  simp [conv]
  unfold numConv Tok.text
  rw [convNum_four _ _ (by obtain ⟨_, _, h, _⟩ := hx; omega)]
  rfl

theorem step_m : run sub (Tok.m.fmt ++ f) (Tok.m.text x ++ r) tm split = run sub f r (Tok.m.set x tm) split := by
  refine run_conv sub 109 f _ _ _ _ split (by decide) ?_
  simp [conv]
  obtain ⟨⟨h1, h2, -, -⟩, -⟩ := hx
  unfold numConv Tok.text
  rw [convNum_two 1 12 _ _ (by omega) (by omega) (by decide) (by decide)]
  rfl

theorem step_d : run sub (Tok.d.fmt ++ f) (Tok.d.text x ++ r) tm split = run sub f r (Tok.d.set x tm) split := by
  refine run_conv sub 100 f _ _ _ _ split (by decide) ?_
  simp [conv]
  obtain ⟨⟨-, -, h1, h2⟩, -⟩ := hx
  have := monthLen_le x.date.y x.date.m
  unfold numConv Tok.text
  rw [convNum_two 1 31 _ _ (by omega) (by omega) (by decide) (by decide)]
  rfl

theorem step_H : run sub (Tok.H.fmt ++ f) (Tok.H.text x ++ r) tm split = run sub f r (Tok.H.set x tm) split := by
  refine run_conv sub 72 f _ _ _ _ split (by decide) ?_
  simp [conv]
  obtain ⟨-, -, -, h, -⟩ := hx
  unfold numConv Tok.text
  rw [convNum_two 0 23 _ _ (by omega) (by omega) (by decide) (by decide)]
  rfl

theorem step_M : run sub (Tok.M.fmt ++ f) (Tok.M.text x ++ r) tm split = run sub f r (Tok.M.set x tm) split := by
  refine run_conv sub 77 f _ _ _ _ split (by decide) ?_
  simp [conv]
  obtain ⟨-, -, -, -, h, -⟩ := hx
  unfold numConv Tok.text
  rw [convNum_two 0 59 _ _ (by omega) (by omega) (by decide) (by decide)]
  rfl

theorem step_S : run sub (Tok.S.fmt ++ f) (Tok.S.text x ++ r) tm split = run sub f r (Tok.S.set x tm) split := by
  refine run_conv sub 83 f _ _ _ _ split (by decide) ?_
  simp [conv]
  obtain ⟨-, -, -, -, -, h⟩ := hx
  unfold numConv Tok.text
  rw [convNum_two 0 61 _ _ (by omega) (by omega) (by decide) (by decide)]
  rfl

theorem step_B : run sub (Tok.B.fmt ++ f) (Tok.B.text x ++ r) tm split = run sub f r (Tok.B.set x tm) split := by
  refine run_conv sub 66 f _ _ _ _ split (by decide) ?_
  simp [conv]
  obtain ⟨⟨h1, h2, -, -⟩, -⟩ := hx
  unfold Tok.text
  rw [findString_month _ h1 h2]
  exact ⟨_, _, rfl, rfl, rfl⟩

omit hx in
theorem step_lit (c : Int) (hs : space c = false) :
    run sub ((Tok.lit c).fmt ++ f) ((Tok.lit c).text x ++ r) tm split = run sub f r tm split := by
  by_cases h : c = 37
  · subst h
    exact run_conv sub 37 f _ r _ tm split (by decide) rfl
  · have e : (Tok.lit c).fmt = [c] := if_neg h
    rw [e]
    show run sub (c :: f) (c :: r) tm split = _
    rw [run.eq_def]
    simp only [hs, Bool.false_eq_true, if_false, ne_eq, h, not_false_eq_true, if_true]

end

theorem bytes_F : bytes "%Y-%m-%d" = Tok.Y.fmt ++ ((Tok.lit 45).fmt ++ (Tok.m.fmt ++ ((Tok.lit 45).fmt ++ (Tok.d.fmt ++ [])))) := by
  decide
theorem bytes_T : bytes "%H:%M:%S" = Tok.H.fmt ++ ((Tok.lit 58).fmt ++ (Tok.M.fmt ++ ((Tok.lit 58).fmt ++ (Tok.S.fmt ++ [])))) := by
  decide
theorem bytes_R : bytes "%H:%M" = Tok.H.fmt ++ ((Tok.lit 58).fmt ++ (Tok.M.fmt ++ [])) := by decide

section
variable (sub' : Sub) (x : Stamp) (hx : x.Ok) (r : List Int) (tm : Tm) (split : Bool)
include hx

theorem run_F : run sub' (bytes "%Y-%m-%d") (Tok.F.text x ++ r) tm split = some (some (r, Tok.F.set x tm)) := by
  have e : Tok.F.text x ++ r = Tok.Y.text x ++ ((Tok.lit 45).text x ++ (Tok.m.text x ++ ((Tok.lit 45).text x ++ (Tok.d.text x ++ r)))) := by
    simp [Tok.text]
  rw [bytes_F, e, step_Y sub' x hx, step_lit sub' x _ _ _ _ 45 rfl, step_m sub' x hx, step_lit sub' x _ _ _ _ 45 rfl,
    step_d sub' x hx]
  rfl

theorem run_T : run sub' (bytes "%H:%M:%S") (Tok.T.text x ++ r) tm split = some (some (r, Tok.T.set x tm)) := by
  have e : Tok.T.text x ++ r = Tok.H.text x ++ ((Tok.lit 58).text x ++ (Tok.M.text x ++ ((Tok.lit 58).text x ++ (Tok.S.text x ++ r)))) := by
    simp [Tok.text]
  rw [bytes_T, e, step_H sub' x hx, step_lit sub' x _ _ _ _ 58 rfl, step_M sub' x hx, step_lit sub' x _ _ _ _ 58 rfl,
    step_S sub' x hx]
  rfl

theorem run_R : run sub' (bytes "%H:%M") (Tok.R.text x ++ r) tm split = some (some (r, Tok.R.set x tm)) := by
  have e : Tok.R.text x ++ r = Tok.H.text x ++ ((Tok.lit 58).text x ++ (Tok.M.text x ++ r)) := by simp [Tok.text]
  rw [bytes_R, e, step_H sub' x hx, step_lit sub' x _ _ _ _ 58 rfl, step_M sub' x hx]
  rfl

/-- One part of the format which is not white space. -/
theorem step_tok (t : Tok) (ht : t.isSpace = false) (f : List Int) :
    run (fun f b tm => run sub' f b tm false) (t.fmt ++ f) (t.text x ++ r) tm split =
      run (fun f b tm => run sub' f b tm false) f r (t.set x tm) split := by
  cases t with
  | lit c => exact step_lit _ x _ _ _ _ c ht
  | Y => exact step_Y _ x hx _ _ _ _
  | m => exact step_m _ x hx _ _ _ _
  | d => exact step_d _ x hx _ _ _ _
  | H => exact step_H _ x hx _ _ _ _
  | M => exact step_M _ x hx _ _ _ _
  | S => exact step_S _ x hx _ _ _ _
  | B => exact step_B _ x hx _ _ _ _
  | F =>
    refine run_conv _ 70 f _ r _ _ split (by decide) ?_
    simp [conv, run_F sub' x hx]
  | T =>
    refine run_conv _ 84 f _ r _ _ split (by decide) ?_
    simp [conv, run_T sub' x hx]
  | R =>
    refine run_conv _ 82 f _ r _ _ split (by decide) ?_
    simp [conv, run_R sub' x hx]

end

/-! ## Formats -/

/-- A format. -/
def fmtOf (ts : List Tok) : List Int := ts.flatMap Tok.fmt

/-- The text written by it. -/
def textOf (x : Stamp) (ts : List Tok) : List Int := ts.flatMap (Tok.text x)

theorem digit_not_space (k : Nat) (h : k < 10) : space (48 + (k : Int)) = false := by
  unfold space
  cases e : (decide (9 ≤ 48 + (k : Int)) && decide (48 + (k : Int) ≤ 13) || decide (48 + (k : Int) = 32)) with
  | false => rfl
  | true => simp only [Bool.or_eq_true, Bool.and_eq_true, decide_eq_true_eq] at e; omega

/-- A part which is not white space begins with another character. -/
theorem text_head (x : Stamp) (hx : x.Ok) (t : Tok) (ht : t.isSpace = false) :
    ∃ c r, t.text x = c :: r ∧ space c = false := by
  have h2 : ∀ n : Nat, ∃ c r, pad 2 n = c :: r ∧ space c = false := fun n => ⟨_, _, pad_two n, digit_not_space _ (by omega)⟩
  have h4 : ∀ n : Nat, ∃ c r, pad 4 n = c :: r ∧ space c = false := fun n => ⟨_, _, pad_four n, digit_not_space _ (by omega)⟩
  have hap : ∀ {l s : List Int}, (∃ c r, l = c :: r ∧ space c = false) → ∃ c r, l ++ s = c :: r ∧ space c = false := by
    rintro l s ⟨c, r, rfl, h⟩
    exact ⟨c, r ++ s, rfl, h⟩
  cases t with
  | lit c => exact ⟨c, [], rfl, ht⟩
  | Y => exact h4 _
  | m => exact h2 _
  | d => exact h2 _
  | H => exact h2 _
  | M => exact h2 _
  | S => exact h2 _
  | B =>
    obtain ⟨⟨h1, h2, -, -⟩, -⟩ := hx
    unfold Tok.text
    rcases month_cases h1 h2 with e | e | e | e | e | e | e | e | e | e | e | e <;> (rw [e]; exact ⟨_, _, rfl, rfl⟩)
  | F => exact hap (h4 _)
  | T => exact hap (h2 _)
  | R => exact hap (h2 _)

theorem dropWhile_idem (p : Int → Bool) (l : List Int) : (l.dropWhile p).dropWhile p = l.dropWhile p := by
  induction l with
  | nil => rfl
  | cons c l ih =>
    rw [List.dropWhile_cons]
    split
    · exact ih
    · next h => rw [List.dropWhile_cons, if_neg h]

/-- Texts which agree with a format: white space of the format stands for any amount of it. -/
inductive Written (x : Stamp) : List Tok → List Int → Prop where
  | nil : Written x [] []
  | tok (t : Tok) {ts r} : t.isSpace = false → Written x ts r → Written x (t :: ts) (t.text x ++ r)
  | blank (c : Int) (w : List Int) {ts r} : space c = true → (∀ y ∈ w, space y = true) → Written x ts r →
      Written x (.lit c :: ts) (w ++ r)

/-- The text written by a format agrees with it. -/
theorem written_textOf (x : Stamp) (ts : List Tok) : Written x ts (textOf x ts) := by
  induction ts with
  | nil => exact .nil
  | cons k ts ih =>
    have e : textOf x (k :: ts) = k.text x ++ textOf x ts := by simp [textOf]
    rw [e]
    cases hk : k.isSpace with
    | false => exact .tok k hk ih
    | true =>
      cases k with
      | lit c => exact .blank c [c] hk (by intro y hy; rw [List.mem_singleton.mp hy]; exact hk) ih
      | _ => cases hk

theorem dropWhile_append_all (w r : List Int) (h : ∀ y ∈ w, space y = true) :
    (w ++ r).dropWhile space = r.dropWhile space := by
  induction w with
  | nil => rfl
  | cons c w ih =>
    rw [List.cons_append, List.dropWhile_cons, if_pos (h c (by simp))]
    exact ih fun y hy => h y (by simp [hy])

/-- The whole format, followed by more of it. -/
theorem run_toks (sub' : Sub) (x : Stamp) (hx : x.Ok) (ts : List Tok) (w : List Int) (hw : Written x ts w) (f t : List Int)
    (ht : t.dropWhile space = t) (b : List Int) (hb : b = w ++ t ∨ b = (w ++ t).dropWhile space) (tm : Tm) (split : Bool) :
    run (fun f b tm => run sub' f b tm false) (fmtOf ts ++ f) b tm split =
      run (fun f b tm => run sub' f b tm false) f t (ts.foldl (Tok.set x) tm) split := by
  induction hw generalizing b tm with
  | nil =>
    have e : b = t := by
      rcases hb with rfl | rfl
      · rfl
      · exact ht
    rw [e]; rfl
  | @tok k ts r hk hw ih =>
    have e1 : fmtOf (k :: ts) ++ f = k.fmt ++ (fmtOf ts ++ f) := by simp [fmtOf]
    rw [e1]
    rw [List.append_assoc] at hb
    obtain ⟨c, r', h1, h2⟩ := text_head x hx k hk
    have e3 : b = k.text x ++ (r ++ t) := by
      rcases hb with rfl | rfl
      · rfl
      · rw [h1, List.cons_append, List.dropWhile_cons, if_neg (by rw [h2]; decide)]
    rw [e3, step_tok sub' x hx _ _ _ k hk]
    exact ih _ (.inl rfl) _
  | @blank c v ts r hc hv hw ih =>
    have h37 : c ≠ 37 := by rintro rfl; cases hc
    have e3 : b.dropWhile space = (r ++ t).dropWhile space := by
      have : (v ++ r ++ t).dropWhile space = (r ++ t).dropWhile space := by
        rw [List.append_assoc]; exact dropWhile_append_all v _ hv
      rcases hb with rfl | rfl
      · exact this
      · rw [dropWhile_idem, this]
    have e4 : fmtOf (.lit c :: ts) ++ f = c :: (fmtOf ts ++ f) := by
      have : fmtOf (.lit c :: ts) = (Tok.lit c).fmt ++ fmtOf ts := by simp [fmtOf]
      rw [this, show (Tok.lit c).fmt = [c] from if_neg h37]; rfl
    rw [e4, run.eq_def]
    simp only [hc, if_true]
    rw [e3]
    exact ih _ (.inr rfl) _

/-- Whether a format sets the hour, the minute, the second. -/
def hasH (ts : List Tok) : Bool := ts.any fun t => t = .H || t = .T || t = .R
def hasM (ts : List Tok) : Bool := ts.any fun t => t = .M || t = .T || t = .R
def hasS (ts : List Tok) : Bool := ts.any fun t => t = .S || t = .T

/-- A format with a date. -/
def HasDate (ts : List Tok) : Prop :=
  (Tok.Y ∈ ts ∨ Tok.F ∈ ts) ∧ (Tok.m ∈ ts ∨ Tok.B ∈ ts ∨ Tok.F ∈ ts) ∧ (Tok.d ∈ ts ∨ Tok.F ∈ ts)

theorem foldl_set (x : Stamp) (ts : List Tok) (tm : Tm) :
    (ts.foldl (Tok.set x) tm).hour = (if hasH ts then (x.h : Int) else tm.hour) ∧
    (ts.foldl (Tok.set x) tm).min = (if hasM ts then (x.mi : Int) else tm.min) ∧
    (ts.foldl (Tok.set x) tm).sec = (if hasS ts then (x.s : Int) else tm.sec) ∧
    (ts.foldl (Tok.set x) tm).year = (if Tok.Y ∈ ts ∨ Tok.F ∈ ts then (x.date.y : Int) - 1900 else tm.year) ∧
    (ts.foldl (Tok.set x) tm).mon = (if Tok.m ∈ ts ∨ Tok.B ∈ ts ∨ Tok.F ∈ ts then (x.date.m : Int) - 1 else tm.mon) ∧
    (ts.foldl (Tok.set x) tm).mday = (if Tok.d ∈ ts ∨ Tok.F ∈ ts then (x.date.d : Int) else tm.mday) := by
  induction ts generalizing tm with
  | nil => simp [hasH, hasM, hasS]
  | cons k ts ih =>
    rw [List.foldl_cons]
    obtain ⟨h1, h2, h3, h4, h5, h6⟩ := ih (Tok.set x tm k)
    rw [h1, h2, h3, h4, h5, h6]
    cases k <;> simp [Tok.set, hasH, hasM, hasS]

/-- **C89**: for every format of literal characters, `%Y`, `%m`, `%B`, `%d`, `%H`, `%M`, `%S`, `%F`, `%T` and `%R` with a year, a
month and a day, what was written by the format is read as the moment written, fields which the format does not have
being 0 and white space being of any length; a fraction of a second may follow, and anything after that is ignored. -/
theorem parseStrptime_text (x : Stamp) (hx : x.Ok) (ts : List Tok) (hd : HasDate ts) (o : Option (List Nat))
    (ho : FracOk o) (item w z : List Int) (hz : ∀ c r, z = c :: r → isDigit c = false ∧ c ≠ 46 ∧ space c = false)
    (hw : Written x ts w) (hi : item.map (· % 256) = w ++ (fracText o ++ z)) :
    ∃ n, n ≤ 47481 ∧ dateOf n = x.date ∧ parseStrptime (fmtOf ts) item =
      some (n * dayNanos + ((((if hasH ts then x.h else 0) * 60 + (if hasM ts then x.mi else 0)) * 60 +
        (if hasS ts then x.s else 0)) * 1000000000 : Nat) + fracNanos o) := by
  obtain ⟨n, n1, n2, n3⟩ := epoch_number hx.1 ⟨hx.2.1, hx.2.2.1⟩
  refine ⟨n, n1, n2, ?_⟩
  have ht : (fracText o ++ z).dropWhile space = fracText o ++ z := by
    cases o with
    | none =>
      show z.dropWhile space = z
      cases z with
      | nil => rfl
      | cons c r => rw [List.dropWhile_cons, if_neg (by rw [(hz c r rfl).2.2]; decide)]
    | some f => rfl
  unfold parseStrptime strptime
  rw [hi, ← List.append_nil (fmtOf ts), run_toks _ x hx ts w hw [] _ ht _ (.inl rfl)]
  rw [show ∀ (sub : Sub) b tm, run sub [] b tm false = some (some (b, tm)) from fun _ _ _ => rfl]
  obtain ⟨h1, h2, h3, h4, h5, h6⟩ := foldl_set x ts {}
  rw [if_pos hd.1] at h4
  rw [if_pos hd.2.1] at h5
  rw [if_pos hd.2.2] at h6
  have hf : (parseFraction ⟨fracText o ++ z, 0, none⟩).1 = fracNanos o := by
    cases o with
    | none =>
      show (parseFraction ⟨z, 0, none⟩).1 = 0
      unfold parseFraction
      cases z with
      | nil => rfl
      | cons c r => simp only; rw [if_neg (hz c r rfl).2.1]
    | some f =>
      obtain ⟨f1, f2⟩ := ho f rfl
      unfold parseFraction fracText
      simp only [List.cons_append, if_true]
      unfold parseDecimal
      simp only
      rw [digitsLoop_digits _ z 9 0 (frac_digits f f2) (by simpa using f1),
        digitsLoop_stop _ z _ (.inr fun c r e => (hz c r e).1)]
      simp only [List.length_map, Nat.zero_add]
      rw [scale_eq _ _ f1]
      unfold fracNanos nanos
      have := val_map f 0
      simp only [Int.natCast_zero] at this
      rw [this]
      simp
  simp only [Option.map_some]
  rw [h1, h2, h3, h4, h5, h6, hf]
  have e1 : ((x.date.y : Int) - 1900 + 1900) = x.date.y := by omega
  have e2 : ((x.date.m : Int) - 1 + 1) = x.date.m := by omega
  rw [e1, e2, n3]
  have hy := hx.2.1
  rw [if_pos (show (x.date.y : Int) - 1900 ≠ 0 by omega)]
  have hfr : 0 ≤ fracNanos o := by rw [← hf]; exact (parseFraction_range _).1
  unfold clock dayNanos
  cases hasH ts <;> cases hasM ts <;> cases hasS ts <;> simp only [Bool.false_eq_true, if_false, if_true] <;>
    (rw [if_pos (by omega)]; congr 1 <;> omega)

/-- The format `%d %B %Y, %R` and `29 February 2024, 01:02.5`. -/
example : let x : Stamp := ⟨⟨2024, 2, 29⟩, 1, 2, 3⟩
    x.Ok ∧ HasDate [.d, .lit 32, .B, .lit 32, .Y, .lit 44, .lit 32, .R] ∧
    fmtOf [.d, .lit 32, .B, .lit 32, .Y, .lit 44, .lit 32, .R] = bytes "%d %B %Y, %R" ∧
    textOf x [.d, .lit 32, .B, .lit 32, .Y, .lit 44, .lit 32, .R] = bytes "29 February 2024, 01:02" ∧
    parseStrptime (bytes "%d %B %Y, %R") (bytes "29 February 2024, 01:02.5") = some (19782 * dayNanos + 3720500000000) := by
  refine ⟨by unfold Stamp.Ok; decide, by unfold HasDate; decide, by decide, by decide, by decide +kernel⟩

/-- **C89**: a text which differs from the format in a literal character is not accepted. -/
theorem parseStrptime_literal (x : Stamp) (hx : x.Ok) (ts : List Tok) (w item z : List Int) (hw : Written x ts w) (c d : Int)
    (f : List Int) (hc : space c = false) (h37 : c ≠ 37) (hd : space d = false) (hcd : c ≠ d)
    (hi : item.map (· % 256) = w ++ d :: z) : parseStrptime (fmtOf ts ++ c :: f) item = some 0 := by
  unfold parseStrptime strptime
  rw [hi, run_toks _ x hx ts w hw (c :: f) (d :: z) (by rw [List.dropWhile_cons, if_neg (by rw [hd]; decide)]) _ (.inl rfl)]
  rw [run.eq_def]
  simp [hc, h37, hcd]

/-- **C89**: so is a text which ends before the format does. -/
theorem parseStrptime_short (x : Stamp) (hx : x.Ok) (ts : List Tok) (w item : List Int) (hw : Written x ts w) (c : Int)
    (f : List Int) (hc : space c = false) (h37 : c ≠ 37) (hi : item.map (· % 256) = w) :
    parseStrptime (fmtOf ts ++ c :: f) item = some 0 := by
  unfold parseStrptime strptime
  rw [hi, ← List.append_nil w, run_toks _ x hx ts w hw (c :: f) [] rfl _ (.inl rfl)]
  rw [run.eq_def]
  simp [hc, h37]

example : parseStrptime (bytes "%Y-%m-%d") (bytes "2020/01/01") = some 0 ∧
    parseStrptime (bytes "%Y-%m-%d") (bytes "2020") = some 0 := by decide +kernel

/-- **C89**: a field out of its range is not accepted, but seconds go up to 61. -/
theorem strptime_limits :
    parseStrptime (bytes "%Y-%m-%d") (bytes "2020-13-01") = some 0 ∧
    parseStrptime (bytes "%Y-%m-%d") (bytes "2020-01-32") = some 0 ∧
    parseStrptime (bytes "%Y-%m-%d") (bytes "2020-00-01") = some 0 ∧
    parseStrptime (bytes "%F %T") (bytes "2020-01-01 24:00:00") = some 0 ∧
    parseStrptime (bytes "%F %T") (bytes "2020-01-01 00:60:00") = some 0 ∧
    parseStrptime (bytes "%F %T") (bytes "2020-01-01 00:00:62") = some 0 ∧
    parseStrptime (bytes "%F %T") (bytes "2020-01-01 00:00:61") = some (18262 * dayNanos + 61000000000) := by decide +kernel

/-- White space of any kind and amount. -/
example : parseStrptime (bytes "%d\t%B %Y") (bytes "29February \n\t 2024") = some (19782 * dayNanos) := by decide +kernel

/-! ## Where more would be expected -/

/-- **C89**: a date out of range with a time of day gives one nanosecond less than the time of day. -/
theorem strptime_range_leaks :
    parseStrptime (bytes "%Y-%m-%d %H:%M") (bytes "2150-01-01 10:00") = some 35999999999999 ∧
    parseStrptime (bytes "%Y-%m-%d %H:%M") (bytes "2150-01-01 00:00") = some 0 := by decide +kernel

/-- **C89**: the offset of a time zone is read and ignored. -/
theorem strptime_zone_ignored :
    parseStrptime (bytes "%Y-%m-%d %H:%M %z") (bytes "2020-01-01 10:00 +0500") =
      parseStrptime (bytes "%Y-%m-%d %H:%M %z") (bytes "2020-01-01 10:00 -0500") ∧
    parseStrptime (bytes "%Y-%m-%d %H:%M %z") (bytes "2020-01-01 10:00 +0500") = some (18262 * dayNanos + 36000000000000) := by
  decide +kernel

/-- **C89**: the day of the year is read and ignored, so that there is no date. -/
theorem strptime_yday_ignored : parseStrptime (bytes "%Y %j") (bytes "2020 060") = some 0 := by decide +kernel

/-- **C89**: AM and PM must follow the hour; before it they are lost. -/
theorem strptime_pm_order :
    parseStrptime (bytes "%Y-%m-%d %I:%M %p") (bytes "2020-01-01 03:00 PM") = some (18262 * dayNanos + 54000000000000) ∧
    parseStrptime (bytes "%Y-%m-%d %p %I:%M") (bytes "2020-01-01 PM 03:00") = some (18262 * dayNanos + 10800000000000) := by
  decide +kernel

/-- **C89**: the abbreviated month is not undone if the text goes on like the full name. -/
theorem strptime_abbrev_month : parseStrptime (bytes "%d%bch%Y") (bytes "01March2020") = some 0 := by decide +kernel

/-- **C89**: `%G` at the end of the text reads past the terminating zero. -/
theorem strptime_G_reads_past : parseStrptime (bytes "%Y-%m-%d%G") (bytes "2020-01-01") = none := by decide +kernel

/-- **C89**: characters are cut to a byte, so that others are taken for digits (here U+0132 for `2`). -/
theorem strptime_cuts_characters :
    parseStrptime (bytes "%Y-%m-%d") ([306] ++ bytes "020-01-01") = some (18262 * dayNanos) := by decide +kernel

/-- **C89**: what follows is not looked at. -/
theorem strptime_trailing : parseStrptime (bytes "%Y-%m-%d") (bytes "2020-01-01nonsense") = some (18262 * dayNanos) := by
  decide +kernel

end Riptide.Date
