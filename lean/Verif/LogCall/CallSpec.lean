import Verif.LogCall.Call
/-! # What is said about logging -/
namespace Riptide.LogCall

/-- The records the handler has taken and not yet handed over. -/
def Hand.batch : Hand → List Rec
  | .fill b => b
  | .recv b => b
  | .pop b => b
  | .full b => b
  | _ => []

/-- What Python should be called with for a record: its name, text, level and time. -/
structure Faithful (r : Rec) (m : Msg) : Prop where
  name : m.name = r.name
  text : m.text = r.text
  level : m.level = r.level
  time : m.stamp = r.time

/-- The messages are those of the records in this order, but for their times. -/
inductive Same : List Rec → List Msg → Prop
  | nil : Same [] []
  | cons {r m rs ms} : m.name = r.name → m.text = r.text → m.level = r.level → Same rs ms → Same (r :: rs) (m :: ms)

/-- All Python loggers have a level and a method `log`, and there is one for each of the names. -/
def GoodSinks (names : Nat → Prop) (k : List (Nat × Sink)) : Prop :=
  (∀ n, names n → ∃ s, (n, s) ∈ k) ∧ ∀ e ∈ k, e.2.level ≠ .missing ∧ e.2.hasLog = true

/-- No exception, no expired timeout and no end of the interpreter; loggers of known names, and Python loggers which are good. -/
def Ev.calm (names : Nat → Prop) : Ev → Prop
  | .throw => False
  | .expire => False
  | .finalize => False
  | .log r => names r.name
  | .python k => GoodSinks names k
  | _ => True

/-- The event is a step of the handler. -/
def Ev.own : Ev → Bool
  | .handle _ => true
  | _ => false

end Riptide.LogCall
