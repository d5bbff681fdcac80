import Verif.Recycle.Call
import Verif.Recycle.Props
/-! What the calls of the recycler shall do (C159). -/
namespace Riptide.Recycle.Call.Spec
open Riptide.Recycle Riptide.Recycle.Call

/-- How many arrays are kept: the occupied slots of all buckets. -/
def kept (s : Rec) : Nat :=
  ((List.range 64).flatMap fun i => (List.range 14).flatMap fun j => (List.range 4).map fun k => (i, j, k)).countP fun p => decide ((s.item p.1 p.2.1 p.2.2).size ≠ 0)

/-- The recycler is in order: see `RecInv`; and what came less what went is what is kept. -/
structure Right (w : World) : Prop where
  inv : RecInv w.st
  count : w.heads - w.tails = kept w.st

/-- The array has been kept for more than this many cycles. -/
def Old (s : Rec) (now : Nat) (span : Int) (a : Nat) : Prop := ∃ i j k, InSlot s i j k a ∧ (now : Int) - (s.item i j k).tsc > span

/-- Somebody asking for items of this type gets this array: it is kept, nobody else holds it, and it is of this type, length and one dimension. -/
def Free (s : Rec) (type : Int) (len a : Nat) : Prop :=
  Held s a ∧ s.refs a = 1 ∧ ((s.info a).type : Int) = type ∧ (s.info a).len = len

/-- The array has been handed out: only the recycler had it and now only the caller has. -/
structure Handed (s s' : Rec) (type : Int) (len a : Nat) : Prop where
  before : Held s a ∧ s.refs a = 1 ∧ s.outside a = 0
  fits : ((s.info a).type : Int) = type ∧ (s.info a).len = len ∧ (s.info a).ndim = 1 ∧ (s.info a).plain = true
  after : ¬Held s' a ∧ s'.refs a = 1 ∧ s'.outside a = 1
  others : ∀ b, b ≠ a → (Held s' b ↔ Held s b) ∧ s'.refs b = s.refs b ∧ s'.outside b = s.outside b
  info : s'.info = s.info

/-- The array takes the place where it belongs: its kind can be kept and no array at the same address is kept with it. -/
def Welcome (s : Rec) (a : Nat) : Prop :=
  1 ≤ (s.info a).len ∧ (s.info a).type < 14 ∧ (s.info a).ndim = 1 ∧
    ¬∃ k, k < 4 ∧ (s.item (lzcnt (s.info a).len) (s.info a).type k).size ≠ 0 ∧ (s.item (lzcnt (s.info a).len) (s.info a).type k).addr = (s.info a).addr

/-- The array is taken in: those before stay but for at most one of the same kind, which goes only when there are four, and which is held elsewhere too if any is. -/
structure Taken (s s' : Rec) (a now : Nat) : Prop where
  held : ∃ i j k, InSlot s' i j k a ∧ (s'.item i j k).tsc = now
  others : ∀ b, b ≠ a → Held s' b → Held s b
  goes : ∀ b, Held s b → ¬Held s' b → (s.info b).type = (s.info a).type ∧ lzcnt (s.info b).len = lzcnt (s.info a).len ∧
    occupied s (lzcnt (s.info a).len) (s.info a).type = 4 ∧ ∀ c, Held s c → c ≠ b → Held s' c
  first : ∀ b c k, Held s b → ¬Held s' b → s.outside b = 0 → InSlot s (lzcnt (s.info a).len) (s.info a).type k c → s.outside c = 0

/-- A number of billions of cycles which fits. -/
def Fits (t : Int) : Prop := -9223372036854775808 ≤ t * 1000000000 ∧ t * 1000000000 ≤ 9223372036854775807

/-- What the program must see to: times fit, types are not negative, lists have arrays only, and only arrays which are held are used. -/
def Fair (w : World) : Op → Prop
  | .collectNow _ (.num n) => -9223372036854775808 ≤ n ∧ n ≤ 9223372036854775807 → Fits n
  | .recycle _ (.array a) => w.st.outside a ≥ 1 ∧ Fits w.st.timespan
  | .tryRecycle (.num t) (.list l) => 0 ≤ t ∧ ∀ x ∈ l, ∃ dims, x = .array dims
  | .allocateNumpy _ _ _ _ (.num t) => 0 ≤ t
  | .create a _ => w.st.refs a = 0
  | .change a _ => w.st.outside a ≥ 1 ∧ ¬Held w.st a
  | .incref a => w.st.refs a ≥ 1
  | .decref a => w.st.outside a ≥ 1
  | _ => True

/-- All of a history. -/
def AllFair (w : World) : List Op → Prop
  | [] => True
  | op :: ops => Fair w op ∧ ∀ w' r, step w op = some (w', r) → AllFair w' ops

end Riptide.Recycle.Call.Spec
