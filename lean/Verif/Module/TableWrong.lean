import Verif.Module.TableProps
/-! # Where the table of methods and the settings go wrong -/
namespace Riptide.Table
open Spec

/-- **`ApplyRows` runs the function which answers about the ledger**, with whatever arguments it is given, `src/RipTide.cpp:1739`. -/
theorem applyRows_wrong (args kw : Nat) : callName "ApplyRows" args kw = .runs "LedgerFunction" args kw := by
  have h := callName_runs (e := ⟨"ApplyRows", "LedgerFunction", .keywords⟩) (by decide +kernel) (args := args) (kw := kw) (.inl rfl) (.inl (by decide))
  exact h

/-- A function which is in no entry is never run. -/
theorem callName_unreachable {f : String} (h : ∀ e ∈ methods, e.func ≠ f) (name : String) (args kw a k : Nat) : callName name args kw ≠ .runs f a k := by
  intro hr
  by_cases hn : Named name
  · obtain ⟨e, he, rfl⟩ := hn
    rw [callName_entry he] at hr
    unfold invoke at hr
    split at hr <;> (repeat' split at hr) <;> simp only [Out.runs.injEq, reduceCtorEq] at hr <;> exact h e he hr.1
  · rw [(callName_noName name args kw).2 hn] at hr
    cases hr

/-- **No call of the module runs `ApplyRows`**, `src/Convert.cpp:3986`, which is written, declared and named in the table. -/
theorem applyRows_unreachable (name : String) (args kw a k : Nat) : callName name args kw ≠ .runs "ApplyRows" a k :=
  callName_unreachable (by decide +kernel) name args kw a k

/-- No call of the module runs `ReMapIndex`, `src/Bins.cpp:279`. -/
theorem reMapIndex_unreachable (name : String) (args kw a k : Nat) : callName name args kw ≠ .runs "ReMapIndex" a k :=
  callName_unreachable (by decide +kernel) name args kw a k

/-- `RT_NEW_HASH=0` and an empty value do not mean the old hash: the import fails. And `10` means the new one. -/
theorem importModule_wrong : importModule (some [48]) = none ∧ importModule (some []) = none ∧ importModule (some [49, 48]) = some .tbb := ⟨rfl, rfl, rfl⟩

/-- **A gateway which is not bytes ends the process**: exactly then, whatever else is in the tuple. -/
theorem setLustreGateway_ends_wrong (s : Settings) (b : Bool) (t : Option (List (Option (List Nat)))) : (step s (.gateway b t)).2 = .ends ↔ b = true ∧ ∃ l, t = some l ∧ none ∈ l := by
  cases b with
  | false => simp [step]
  | true =>
    cases t with
    | none => simp [step]
    | some l =>
      simp only [step]
      cases hg : gateways l with
      | none => simp [(gateways_none l).1 hg]
      | some g =>
        have : none ∉ l := fun h => by rw [(gateways_none l).2 h] at hg; cases hg
        simp [this]

/-- After this there are no further answers. -/
theorem run_ends_wrong (s : Settings) (l : List (Option (List Nat))) (h : none ∈ l) (os : List Op) : run s (.gateway true (some l) :: os) = (s, [.ends]) := by
  have hg := (gateways_none l).2 h
  simp [run, step, hg]

example : run Settings.init [.gateway true (some [some [97], none]), .threading (.num 1)] = (Settings.init, [.ends]) := rfl

/-- No other call ends the process, and as many answers come as calls were made. -/
theorem run_answers_partial (s : Settings) (os : List Op) (h : ∀ b l, Op.gateway b (some l) ∈ os → b = true → none ∉ l) : (run s os).2.length = os.length ∧ Reply.ends ∉ (run s os).2 := by
  induction os generalizing s with
  | nil => simp [run]
  | cons o os ih =>
    have hne : (step s o).2 ≠ .ends := by
      intro he
      cases o with
      | threading x => unfold step at he; simp only at he; split at he <;> cases he
      | checksumming x => cases x <;> cases he
      | gateway b t =>
        obtain ⟨rfl, l, rfl, hl⟩ := (setLustreGateway_ends_wrong s b t).1 he
        exact h true l (by simp) rfl hl
    have := ih (step s o).1 (fun b l hm => h b l (List.mem_cons_of_mem _ hm))
    simp only [run, hne, if_false, List.length_cons, List.mem_cons]
    exact ⟨by rw [this.1], fun hm => hm.elim (fun e => hne e.symm) this.2⟩

end Riptide.Table
