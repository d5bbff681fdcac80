import Verif.Module.CallProps
/-! # Small calls of the module: where they go wrong -/
namespace Riptide.ModuleCall
open Riptide.Recycle Riptide.Recycle.Call Riptide.Recycle.Call.Spec

/-- Two dimensions are answered with `None` and no exception. -/
theorem empty_two_dims_wrong : (empty exEnv .init 0 (.list [.num 2, .num 3]) (.num 12) (.num 0) (some false)).map Prod.snd = some .nothing := rfl

/-- A size of items beyond 32 bits is cut: nine bytes for 2^32 + 9. -/
theorem empty_item_wrong : (empty exEnv .init 0 (.list [.num 2]) (.num 18) (.num 4294967305) (some false)).map Prod.snd = some (.made 18 2 9 false) := by decide

/-- A size of items which is not that of the type is taken without a word. -/
theorem empty_size_wrong : (empty exEnv .init 0 (.list [.num 2]) (.num 12) (.num 3) (some false)).map Prod.snd = some (.made 12 2 0 false) := rfl

/-- A negative type reads outside the table of the recycler. -/
theorem empty_negative_type_wrong : empty exEnv .init 0 (.list [.num 2]) (.num (-1)) (.num 0) (some false) = none := rfl

/-- An array comes back beside an exception if only the second attempt succeeds. -/
theorem empty_second_wrong : (empty ⟨fun _ => true, false, true⟩ .init 0 (.list [.num 2]) (.num 12) (.num 0) (some false)).map Prod.snd = some (.made 12 2 0 true) := rfl

/-- A type numpy does not know throws away what the recycler keeps, although memory was never short. -/
theorem empty_unknown_type_wrong {w : World} (h : Right w) (E : Env) (now : Nat) {t n i : Int} (ht : 14 ≤ t) (ht2 : t ≤ 2147483647) (hk : E.known t = false)
    (hi : 1 ≤ i ∧ i ≤ 9223372036854775807) (hn : -9223372036854775808 ≤ n ∧ n ≤ 9223372036854775807) (hgc : 60000000000 ≤ now - w.st.lastGc) :
    ∃ w', empty E w now (.list [.num n]) (.num t) (.num i) (some false) = some (w', .error) ∧ ∀ a, Held w'.st a ↔ Held w.st a ∧ ¬ Old w.st now 0 a := by
  simp only [empty, int_num (n := t) (by omega), long_num (n := i) (by omega)]
  rw [if_pos hn]
  unfold alloc
  rw [if_neg (by omega), if_neg (by omega)]
  have hm : ∀ m, makes E m t n (toInt32 i) = false := fun m => by simp [makes, hk]
  obtain ⟨w', r, e, _, h1, h2⟩ := newArray_call h E now t n (toInt32 i)
  rcases h1 with ⟨_, g, _⟩ | ⟨_, _, g⟩ | ⟨g, _, _⟩
  · rw [hm] at g; cases g
  · rw [hm] at g; cases g
  · refine ⟨w', by rw [e, g], fun a => ?_⟩
    rw [h2 (hm _) a]
    simp [hgc]

example : (exEnv.known 99 = false) ∧ Right World.init ∧ 60000000000 ≤ 60000000000 - World.init.st.lastGc := ⟨rfl, Right.init, by decide⟩

/-- Another class than the first is taken for fine and forgotten. -/
theorem set_type_second_wrong (s : Types) (t u : Nat) (h : s.fast = some t) : setType s (.two u) = (s, true) := by simp [setType, h]

example : setType ⟨some 1, fun _ => false, fun _ => 0⟩ (.two 2) = (⟨some 1, fun _ => false, fun _ => 0⟩, true) := rfl

/-- Arrays which share memory may begin at different places, and arrays without items share none but may begin at the same. -/
theorem compare_shares_wrong : (compare [.array 100 16, .array 108 8] = some false ∧ Shares 100 16 108 8) ∧ (compare [.array 100 0, .array 100 0] = some true ∧ ¬ Shares 100 0 100 0) :=
  ⟨⟨rfl, 108, by omega, by omega, by omega, by omega⟩, rfl, fun ⟨x, h⟩ => by omega⟩

/-- A function without arguments cannot be called. -/
theorem ledger_no_arguments_wrong (fast view : Option Nat) (f : LObj → List LObj → List (Nat × LObj) → Ret) (a : LObj) (kw : List (Nat × LObj)) :
    ledger fast view f [a] kw = (.few, []) := rfl

/-- The class of what cannot be called is held for ever. -/
theorem ledger_leaks_wrong (fast view : Option Nat) (f : LObj → List LObj → List (Nat × LObj) → Ret) (a b : LObj) (as : List LObj) (kw : List (Nat × LObj)) (h : a.callable = false) :
    ledger fast view f (a :: b :: as) kw = (.notCallable, [a.cls]) := by simp [ledger, h]

example : ledger none none (fun _ _ _ => .raised) [⟨1, 7, false⟩, ⟨2, 2, false⟩] [] = (.notCallable, [7]) := rfl

/-- Right arguments are never answered. -/
theorem remap_wrong : remap [.array, .array, .array] = .undefined := rfl

/-- Entries of the map which do not fit the output are cut without a word. -/
theorem remap_loop_cuts : remapLoop 8 [300] [0] [0] = some [44] := by decide

end Riptide.ModuleCall
