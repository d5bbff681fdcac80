import Verif.Hook.InPlaceProps

/-! # The table of operators: what Python calls for each operator after the hook (C127) -/
namespace Riptide.Hook

/-! ## What Python's documentation says of the operators -/

/-- The operators of Python which are taken over. -/
inductive Sym where
  | plus | minus | times | slash | slashslash | amp | bar | hat | shl | shr | percent | starstar | abs | neg | tilde
  deriving DecidableEq, Repr

/-- The slot which Python calls for `x op y`, `op x` or `abs(x)`. -/
def Sym.slot : Sym → Slot
  | .plus => .nbAdd | .minus => .nbSubtract | .times => .nbMultiply | .slash => .nbTrueDivide | .slashslash => .nbFloorDivide
  | .amp => .nbAnd | .bar => .nbOr | .hat => .nbXor | .shl => .nbLshift | .shr => .nbRshift | .percent => .nbRemainder
  | .starstar => .nbPower | .abs => .nbAbsolute | .neg => .nbNegative | .tilde => .nbInvert

/-- The slot for `x op= y`; `%=` is not taken over. -/
def Sym.inSlot : Sym → Option Slot
  | .plus => some .nbInplaceAdd | .minus => some .nbInplaceSubtract | .times => some .nbInplaceMultiply
  | .slash => some .nbInplaceTrueDivide | .slashslash => some .nbInplaceFloorDivide
  | .amp => some .nbInplaceAnd | .bar => some .nbInplaceOr | .hat => some .nbInplaceXor
  | .shl => some .nbInplaceLshift | .shr => some .nbInplaceRshift | .starstar => some .nbInplacePower
  | _ => none

/-- The calculation which an operator stands for. -/
def Sym.op : Sym → Op
  | .plus => .add | .minus => .sub | .times => .mul | .slash => .div | .slashslash => .floordiv | .amp => .bitAnd | .bar => .bitOr
  | .hat => .bitXor | .shl => .lshift | .shr => .rshift | .percent => .mod | .starstar => .power | .abs => .abs | .neg => .neg
  | .tilde => .invert

/-- How many operands an operator has, and that a power may have three. -/
def Sym.fn : Sym → Fn
  | .abs | .neg | .tilde => .unary
  | .starstar => .power
  | _ => .binary

/-- The slot is that of method `i`, which calculates `op` with the function `fn` and leaves other cases to numpy's function of the
same slot. -/
def Runs (c : Cls) (s : Slot) (fn : Fn) (op : Op) : Prop :=
  ∃ i row, c.slots s = .ours ⟨fn, i⟩ ∧ table[i]? = some row ∧ row.op = op ∧ c.super[i]? = some (.numpy s)

instance : Inhabited Row := ⟨⟨.add, ⟨.binary, 0⟩, .nbAdd⟩⟩

/-! ## Theorems -/

theorem rows_numbered : ∀ i : Fin table.length, (table.get i).meth.index = i.1 := by decide

/-- Each method calls its function with the index of its own row: "This order must match the order in g_MathHook". -/
theorem each_method_knows_its_row : ∀ (i : Nat) (row : Row), table[i]? = some row → row.meth.index = i := by
  intro i row h
  have hi : i < table.length := by
    rcases Nat.lt_or_ge i table.length with h' | h'
    · exact h'
    · rw [List.getElem?_eq_none h'] at h; cases h
  rw [List.getElem?_eq_getElem hi] at h
  cases h
  exact rows_numbered ⟨i, hi⟩

example := each_method_knows_its_row 8 _ rfl

/-- No slot is taken over twice. -/
theorem no_slot_twice : (table.map Row.slot).Nodup := by decide

theorem hooked_slots : ∀ s : Slot, (hook .start).slots s =
    .ours ((table.find? fun r => r.slot == s).getD default).meth := by
  intro s; cases s <;> decide

theorem hooked_super : (hook .start).super = table.map fun r => Held.numpy r.slot := by decide

/-- After the hook each operator runs its own calculation, and what it leaves to numpy is numpy's function of that operator. -/
theorem each_operator_runs_its_calculation (s : Sym) : Runs (hook .start) s.slot s.fn s.op := by
  unfold Runs
  cases s
  · exact ⟨0, _, by decide, rfl, by decide, by decide⟩
  · exact ⟨1, _, by decide, rfl, by decide, by decide⟩
  · exact ⟨2, _, by decide, rfl, by decide, by decide⟩
  · exact ⟨3, _, by decide, rfl, by decide, by decide⟩
  · exact ⟨4, _, by decide, rfl, by decide, by decide⟩
  · exact ⟨10, _, by decide, rfl, by decide, by decide⟩
  · exact ⟨11, _, by decide, rfl, by decide, by decide⟩
  · exact ⟨12, _, by decide, rfl, by decide, by decide⟩
  · exact ⟨16, _, by decide, rfl, by decide, by decide⟩
  · exact ⟨17, _, by decide, rfl, by decide, by decide⟩
  · exact ⟨20, _, by decide, rfl, by decide, by decide⟩
  · exact ⟨24, _, by decide, rfl, by decide, by decide⟩
  · exact ⟨21, _, by decide, rfl, by decide, by decide⟩
  · exact ⟨22, _, by decide, rfl, by decide, by decide⟩
  · exact ⟨23, _, by decide, rfl, by decide, by decide⟩

/-- And so does each operator in place, with the functions for operators in place. -/
theorem each_operator_in_place_runs_its_calculation (s : Sym) (t : Slot) (h : s.inSlot = some t) :
    Runs (hook .start) t (if s = .starstar then .inPlacePower else .inPlace) s.op := by
  unfold Runs
  cases s <;> cases h
  · exact ⟨5, _, by decide, rfl, by decide, by decide⟩
  · exact ⟨6, _, by decide, rfl, by decide, by decide⟩
  · exact ⟨7, _, by decide, rfl, by decide, by decide⟩
  · exact ⟨8, _, by decide, rfl, by decide, by decide⟩
  · exact ⟨9, _, by decide, rfl, by decide, by decide⟩
  · exact ⟨13, _, by decide, rfl, by decide, by decide⟩
  · exact ⟨14, _, by decide, rfl, by decide, by decide⟩
  · exact ⟨15, _, by decide, rfl, by decide, by decide⟩
  · exact ⟨18, _, by decide, rfl, by decide, by decide⟩
  · exact ⟨19, _, by decide, rfl, by decide, by decide⟩
  · exact ⟨25, _, by decide, rfl, by decide, by decide⟩

example := each_operator_in_place_runs_its_calculation .hat .nbInplaceXor rfl

/-- Python's numbers of the comparisons are those of the table. -/
theorem each_comparison_has_its_number :
    compTable = [Op.lt, Op.le, Op.eq, Op.ne, Op.gt, Op.ge] ∧ ∀ op ∈ compTable, op.isCmp = true := by decide

/-- Calling the hook again changes nothing: the methods never become their own fallback. -/
theorem hook_again_changes_nothing (c : Cls) (n : Nat) : Nat.repeat hook (n + 1) c = hook c := by
  have hf : ∀ (l : List (Row × Nat)) (c : Cls), (l.foldl (fun c p => hookRow c p.2 p.1) c).hooked = c.hooked := by
    intro l
    induction l with
    | nil => intro c; rfl
    | cons p l ih => intro c; rw [List.foldl_cons, ih]; rfl
  have hh : (hook c).hooked = true := by
    unfold hook
    split
    · assumption
    · rw [hf]
  have h2 : hook (hook c) = hook c := by
    rw [hook, if_pos hh]
  induction n with
  | zero => rfl
  | succ n ih => rw [Nat.repeat, ih, h2]

/-- In particular no slot's fallback is one of our methods, however often the hook is called. -/
theorem the_fallback_is_never_our_method (n : Nat) (h : Held) (hm : h ∈ (Nat.repeat hook (n + 1) .start).super) :
    ∃ s, h = .numpy s := by
  rw [hook_again_changes_nothing, hooked_super] at hm
  obtain ⟨r, -, e⟩ := List.mem_map.1 hm
  exact ⟨r.slot, e.symm⟩

example := the_fallback_is_never_our_method 2 (.numpy .nbAnd) (by decide)

end Riptide.Hook
