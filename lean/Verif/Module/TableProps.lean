import Verif.Module.TableSpec
/-! # What is proved of the table of methods, the import of the module and its settings -/
namespace Riptide.Table
open Riptide.Recycle.Call (Arg long)
open Spec

/-! ### The copy of the table -/

/-- The count of a table with a null pointer at its end is one more than its entries: `PyInit` counts the null pointer. -/
theorem count_entries (l : List Entry) (rest : List (Option Entry)) : count (l.map some ++ none :: rest) = l.length + 1 := by
  induction l with
  | nil => rfl
  | cons e l ih => simp [count, ih]

/-- Whatever the table, Python reads from the copy all entries before the first null pointer, in order, and nothing else. -/
theorem registered_copied (l : List Entry) (rest : List (Option Entry)) : registered (copied (l.map some ++ none :: rest)) = l := by
  have h : copied (l.map some ++ none :: rest) = l.map some ++ [none, none] := by
    simp only [copied, count_entries]
    rw [List.take_append]
    have e : List.take (l.length + 1) (l.map some) = l.map some := List.take_of_length_le (by simp)
    rw [e]
    simp
  rw [h]
  clear h
  induction l with
  | nil => rfl
  | cons e l ih => simp [registered] at ih ⊢; exact ih

/-- The copy ends in a null pointer, so that Python never reads behind it, and is as long as what was allocated. -/
theorem copied_ends (l : List Entry) (rest : List (Option Entry)) :
    (copied (l.map some ++ none :: rest)).length = count (l.map some ++ none :: rest) + 1 ∧ (copied (l.map some ++ none :: rest)).getLast? = some none := by
  constructor
  · simp [copied, count_entries]
  · simp [copied]

example : copied [some ⟨"a", "f", .noargs⟩, none, some ⟨"b", "g", .varargs⟩] = [some ⟨"a", "f", .noargs⟩, none, none] := by decide

/-- Python knows exactly the entries of the table. -/
theorem registered_table : registered (copied table) = methods := registered_copied methods []

/-- There are a hundred methods. -/
theorem methods_hundred : methods.length = 100 := by decide

/-- No name is given twice. -/
theorem methods_names_once : (methods.map Entry.name).Nodup := by decide +kernel

/-- In a list in which no name is given twice a name is looked up to be its entry. -/
theorem lookup_entry {l : List Entry} (h : (l.map Entry.name).Nodup) {e : Entry} (he : e ∈ l) : lookup l e.name = some e := by
  have hp : ∀ x ∈ l, x.name = e.name → x = e := by
    intro x hx hn
    induction l with
    | nil => cases hx
    | cons a l ih =>
      simp only [List.map_cons, List.nodup_cons, List.mem_map, not_exists, not_and] at h
      rcases List.mem_cons.1 hx with rfl | hx' <;> rcases List.mem_cons.1 he with rfl | he'
      · rfl
      · exact absurd hn.symm (h.1 e he')
      · exact absurd hn (h.1 x hx')
      · exact ih h.2 he' hx'
  unfold lookup
  cases hf : l.reverse.find? (fun x => decide (x.name = e.name)) with
  | none =>
    have := List.find?_eq_none.1 hf e (by simpa using he)
    simp at this
  | some x =>
    have h1 := List.mem_of_find?_eq_some hf
    have h2 := List.find?_some hf
    rw [hp x (by simpa using h1) (by simpa using h2)]

/-- **A name of the table is its own entry.** -/
theorem callName_entry {e : Entry} (he : e ∈ methods) (args kw : Nat) : callName e.name args kw = invoke e args kw := by
  unfold callName
  rw [registered_table, lookup_entry methods_names_once he]

/-- A name which is not in the table is no name of the module, and the other way round. -/
theorem callName_noName (name : String) (args kw : Nat) : callName name args kw = .noName ↔ ¬ Named name := by
  constructor
  · rintro h ⟨e, he, rfl⟩
    rw [callName_entry he] at h
    unfold invoke at h
    split at h <;> (repeat' split at h) <;> cases h
  · intro h
    unfold callName
    rw [registered_table]
    have hf : lookup methods name = none := by
      unfold lookup
      rw [List.find?_eq_none]
      intro x hx hn
      exact h ⟨x, by simpa using hx, by simpa using hn⟩
    rw [hf]

example : callName "Nothing" 0 0 = .noName := by decide +kernel
example : Named "MakeiNext" := ⟨⟨"MakeiNext", "MakeiNext", .varargs⟩, by decide +kernel, rfl⟩

/-- The flags of every entry are those of its function: three parameters exactly for those which take names. -/
theorem methods_params : ∀ e ∈ methods, params e.func = some (if e.kind = .keywords then 3 else 2) := by decide +kernel

/-- **No call by name reads a parameter nobody gave**, whatever the name and the arguments. -/
theorem callName_defined (name : String) (args kw : Nat) : callName name args kw ≠ .undefined := by
  by_cases h : Named name
  · obtain ⟨e, he, rfl⟩ := h
    rw [callName_entry he]
    have hp := methods_params e he
    unfold invoke
    split <;> (rename_i hk; rw [hk] at hp; simp at hp; simp [hp])
    · split <;> simp
    · split <;> simp
  · rw [(callName_noName name args kw).2 h]
    simp

/-- Arguments by name are refused exactly by the methods which do not take them; those which take nothing also refuse arguments by position. -/
theorem callName_refused {e : Entry} (he : e ∈ methods) (args kw : Nat) :
    callName e.name args kw = .refused ↔ (e.kind ≠ .keywords ∧ kw ≠ 0) ∨ (e.kind = .noargs ∧ args ≠ 0) := by
  rw [callName_entry he]
  have hp := methods_params e he
  unfold invoke
  split <;> (rename_i hk; rw [hk] at hp; simp at hp; simp [hp, hk])
  omega

/-- Otherwise the function of the entry runs with all arguments. -/
theorem callName_runs {e : Entry} (he : e ∈ methods) {args kw : Nat} (hk : e.kind = .keywords ∨ kw = 0) (hn : e.kind ≠ .noargs ∨ args = 0) :
    callName e.name args kw = .runs e.func args kw := by
  rw [callName_entry he]
  have hp := methods_params e he
  unfold invoke
  split <;> (rename_i hkind; rw [hkind] at hp hk hn; simp at hp hk hn; simp [hp, hk, hn])

example : callName "GetNanoTime" 0 0 = .runs "GetNanoTime" 0 0 := by decide +kernel
example : callName "GetNanoTime" 1 0 = .refused := by decide +kernel
example : callName "MakeiNext" 3 1 = .refused := by decide +kernel
example : callName "BinCount" 3 2 = .runs "BinCount" 3 2 := by decide +kernel
example : callName "BinsToCutsBSearch" 3 0 = .runs "BinsToCutsBSearch" 3 0 := by decide +kernel

/-- All methods but `IsMember64` and `ApplyRows` are functions of the same name. -/
theorem methods_own_partial : ∀ e ∈ methods, e.name ∉ Others → e.func = e.name := by decide +kernel

/-- **A method runs the function of its name**, except for two names; see `applyRows_wrong`. -/
theorem callName_own_partial {name : String} (h : name ∉ Others) {args kw : Nat} {f : String} {a k : Nat} (hr : callName name args kw = .runs f a k) :
    f = name ∧ a = args ∧ k = kw := by
  by_cases hn : Named name
  · obtain ⟨e, he, rfl⟩ := hn
    have hf := methods_own_partial e he h
    rw [callName_entry he] at hr
    unfold invoke at hr
    split at hr <;> (repeat' split at hr) <;> simp only [Out.runs.injEq, reduceCtorEq] at hr <;> (refine ⟨hr.1 ▸ hf, ?_, ?_⟩ <;> omega)
  · rw [(callName_noName name args kw).2 hn] at hr
    cases hr

/-- `IsMember64` is `IsMember32`: the same call for both. -/
theorem callName_isMember64 (args kw : Nat) : callName "IsMember64" args kw = callName "IsMember32" args kw := by
  have h1 := callName_entry (e := ⟨"IsMember64", "IsMember32", .varargs⟩) (by decide +kernel) args kw
  have h2 := callName_entry (e := ⟨"IsMember32", "IsMember32", .varargs⟩) (by decide +kernel) args kw
  simp only at h1 h2
  rw [h1, h2]
  rfl

/-! ### The tables of bools -/

/-- **The bytes of an entry of `gBooleanLUT64` are the bits of its number**, and those of the inverse their negation. -/
theorem lut64_bytes : ∀ i < 256, ∀ j < 8, lutWord i 8 / 256 ^ j % 256 = (if i.testBit j then 1 else 0) ∧ lutInverse64 i / 256 ^ j % 256 = (if i.testBit j then 0 else 1) := by
  decide +kernel

/-- The same for `gBooleanLUT32`. -/
theorem lut32_bytes : ∀ i < 16, ∀ j < 4, lutWord i 4 / 256 ^ j % 256 = (if i.testBit j then 1 else 0) ∧ lutInverse32 i / 256 ^ j % 256 = (if i.testBit j then 0 else 1) := by
  decide +kernel

/-- Every entry fits into its word. -/
theorem lut_fits : (∀ i < 256, lutWord i 8 < 2 ^ 64 ∧ lutInverse64 i < 2 ^ 64) ∧ ∀ i < 16, lutWord i 4 < 2 ^ 32 ∧ lutInverse32 i < 2 ^ 32 := by
  decide +kernel

example : lutWord 5 8 = 0x10001 := by decide
example : lutInverse32 5 = 0x01000100 := by decide

/-! ### The environment -/

/-- Without the variable the old hash is used, with a value which begins with `1` the new one; with any other the import fails. -/
theorem importModule_choice (v : Option (List Nat)) :
    (importModule v = some .linear ↔ v = none) ∧ (importModule v = some .tbb ↔ ∃ r, v = some (49 :: r)) ∧ (importModule v = none ↔ ∃ t, v = some t ∧ t.head? ≠ some 49) := by
  cases v with
  | none => simp [importModule]
  | some t =>
    cases t with
    | nil => simp [importModule]
    | cons c r =>
      by_cases h : c = 49
      · subst h; simp [importModule]
      · simp [importModule, h]

example : importModule (some [49, 48]) = some .tbb := rfl
example : importModule (some []) = none := rfl

/-! ### Settings -/

/-- Whether a number fits, said by `long`. -/
theorem long_fits (n : Int) : long (.num n) = if Fits n then some n else none := by
  by_cases h : Fits n
  · have h' := h
    unfold Fits at h'
    rw [if_pos h]
    exact if_pos (by omega)
  · have h' := h
    unfold Fits at h'
    rw [if_neg h]
    exact if_neg (by omega)

/-- A call which does not end the process leaves for `ThreadingMode` what it sets, or what was there. -/
theorem step_single (s : Settings) (o : Op) : (step s o).1.single = (sets o).getD s.single := by
  unfold step sets
  split
  · rename_i x
    cases x with
    | num n =>
      rw [long_fits]
      by_cases h : Fits n
      · simp [h]
      · simp [h]
    | other => simp [long]
  · rfl
  · rfl
  · split <;> rfl
  · rfl

/-- **`ThreadingMode` answers with what was set last**: after any calls, 1 if the last number given to it was not zero and 0 otherwise. -/
theorem threadingMode_previous (os : List Op) (n : Int) (h : Fits n) :
    (step (os.foldl (fun s o => (step s o).1) Settings.init) (.threading (.num n))).2 = .number (if lastSet os.reverse then 1 else 0) := by
  have hs : ∀ os : List Op, (os.foldl (fun s o => (step s o).1) Settings.init).single = lastSet os.reverse := by
    intro os
    have : ∀ l : List Op, (l.reverse.foldl (fun s o => (step s o).1) Settings.init).single = lastSet l := by
      intro l
      induction l with
      | nil => rfl
      | cons o l ih =>
        simp only [List.reverse_cons, List.foldl_append, List.foldl_cons, List.foldl_nil]
        rw [step_single, ih]
        show _ = (match sets o with | some b => b | none => lastSet l)
        cases sets o <;> rfl
    have := this os.reverse
    simpa using this
  have ha : ∀ s : Settings, (step s (.threading (.num n))).2 = .number (if s.single then 1 else 0) := by
    intro s
    simp only [step, long_fits, h, if_true]
  rw [ha, hs]

example : (step ([Op.threading (.num 7), .checksumming (some false), .threading .other].foldl (fun s o => (step s o).1) Settings.init) (.threading (.num 0))).2 = .number 1 := by decide

/-- A number which does not fit, or no number, is refused and changes nothing. -/
theorem threadingMode_refused (s : Settings) (x : Arg) : (∀ n, x = .num n → ¬ Fits n) ↔ step s (.threading x) = (s, .error) := by
  cases x with
  | other => simp [step, long]
  | num n =>
    simp only [step, long_fits]
    by_cases h : Fits n
    · simp [h]
    · simp [h]

/-- The cut of a text is the longest start without a zero. -/
theorem cText_cut (b : List Nat) : IsCut b (cText b) := by
  induction b with
  | nil => exact ⟨by simp [cText], .inl rfl⟩
  | cons c l ih =>
    obtain ⟨h1, h2⟩ := ih
    by_cases hc : c = 0
    · subst hc
      exact ⟨by simp [cText], .inr ⟨l, by simp [cText]⟩⟩
    · refine ⟨by simp [cText, hc, h1, Ne.symm hc], ?_⟩
      rcases h2 with h2 | ⟨r, h2⟩
      · left; simp [cText, hc, ← h2]
      · right; exact ⟨r, by simp [cText, hc, ← h2]⟩

/-- The loop over bytes gives all of them, cut. -/
theorem gateways_bytes (l : List (List Nat)) : gateways (l.map some) = some (l.map cText) := by
  induction l with
  | nil => rfl
  | cons b l ih => simp [gateways, ih]

/-- The loop fails exactly if something is not bytes. -/
theorem gateways_none (l : List (Option (List Nat))) : gateways l = none ↔ none ∈ l := by
  induction l with
  | nil => simp [gateways]
  | cons b l ih => cases b <;> simp [gateways, ih]

/-- **`SetLustreGateway` with a tuple of bytes replaces the gateways by these**, in order, each up to its first zero, and touches no other setting. -/
theorem setLustreGateway_bytes_partial (s : Settings) (l : List (List Nat)) :
    ∃ g : List (List Nat), step s (.gateway true (some (l.map some))) = ({ s with gateways := g }, .nothing) ∧ g.length = l.length ∧
      ∀ (i : Nat) (b c : List Nat), l[i]? = some b → g[i]? = some c → IsCut b c := by
  refine ⟨l.map cText, by simp [step, gateways_bytes], by simp, ?_⟩
  intro i b c hb hc
  simp only [List.getElem?_map, hb, Option.map_some, Option.some.injEq] at hc
  exact hc ▸ cText_cut b

example : step Settings.init (.gateway true (some [some [97, 0, 98], some [99]])) = ({ Settings.init with gateways := [[97], [99]] }, .nothing) := rfl

/-- A file name which is not bytes and what is no tuple are refused and change nothing. -/
theorem setLustreGateway_refused (s : Settings) (b : Bool) (t : Option (List (Option (List Nat)))) (h : b = false ∨ t = none) : step s (.gateway b t) = (s, .error) := by
  rcases h with rfl | rfl
  · rfl
  · cases b <;> rfl

/-- Checksums are made until `SetZstdChecksumming` is called with something false, and no other call changes it. -/
theorem setZstdChecksumming_only (s : Settings) (o : Op) (h : (step s o).1.checksum ≠ s.checksum) : ∃ b, o = .checksumming (some b) ∧ (step s o).1 = { s with checksum := b } ∧ b = !s.checksum := by
  unfold step at h ⊢
  split at h
  · split at h <;> simp at h
  · simp at h
  · rename_i b
    exact ⟨b, rfl, rfl, by simpa [Bool.eq_not] using h⟩
  · split at h <;> simp at h
  · simp at h

example : (step Settings.init (.checksumming (some false))).1.checksum = false := rfl

/-- `SetZstdChecksumming` sets what it is given. -/
theorem setZstdChecksumming_sets (s : Settings) (b : Bool) : step s (.checksumming (some b)) = ({ s with checksum := b }, .nothing) ∧ step s (.checksumming none) = (s, .error) := ⟨rfl, rfl⟩

end Riptide.Table
