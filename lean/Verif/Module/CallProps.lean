import Verif.Module.CallSpec
import Verif.Recycle.CallProps
/-! # Small calls of the module: what is proved -/
namespace Riptide.ModuleCall
open Riptide.Recycle Riptide.Recycle.Call Riptide.Recycle.Call.Spec

/-! ### `Empty` -/

theorem toInt32_same {n : Int} (h : 0 ≤ n) (h2 : n < 2147483648) : toInt32 n = n := by
  unfold toInt32; split <;> omega

theorem flexible_iff {t : Int} : flexible t = true ↔ 18 ≤ t ∧ t ≤ 20 := by simp [flexible]

theorem flexible_false {t : Int} : flexible t = false ↔ ¬ (18 ≤ t ∧ t ≤ 20) := by rw [← flexible_iff]; simp

theorem makes_iff (E : Env) (m : Bool) (t n i : Int) : makes E m t n i = true ↔ E.known t = true ∧ 0 ≤ n ∧ (flexible t = true → 1 ≤ i) ∧ m = true := by
  unfold makes
  cases hf : flexible t <;> simp [and_assoc]

/-- What both attempts do. -/
theorem newArray_call {w : World} (h : Right w) (E : Env) (now : Nat) (t n i : Int) :
    ∃ w' r, newArray E w now t n i = some (w', r) ∧ Right w' ∧
      ((r = .made t n (if flexible t then i else 0) false ∧ makes E E.first t n i = true ∧ w' = w) ∨
       (r = .made t n (if flexible t then i else 0) true ∧ makes E E.first t n i = false ∧ makes E E.second t n i = true) ∨
       (r = .error ∧ makes E E.first t n i = false ∧ makes E E.second t n i = false)) ∧
      (makes E E.first t n i = false → ∀ a, Held w'.st a ↔ Held w.st a ∧ ¬ (60000000000 ≤ now - w.st.lastGc ∧ Old w.st now 0 a)) := by
  unfold newArray
  simp only
  cases hm : makes E E.first t n i with
  | true => exact ⟨w, _, rfl, h, Or.inl ⟨rfl, rfl, rfl⟩, by intro h; cases h⟩
  | false =>
    obtain ⟨w', k, e, h1, _, _, _, _, _, _, _, h2⟩ := collect_world h now 0 false (Or.inl ⟨by omega, by omega⟩)
    rw [if_neg (by simp), e]
    refine ⟨w', _, rfl, h1, ?_, fun _ a => by simpa using h2 a⟩
    cases hm2 : makes E E.second t n i with
    | true => exact Or.inr (Or.inl ⟨by simp, rfl, rfl⟩)
    | false => exact Or.inr (Or.inr ⟨by simp, rfl, rfl⟩)

/-- What `Empty` does for a list of one number, where it is defined. An array comes from the recycler or is new; it has the type and the length asked for. -/
theorem empty_call_partial {w : World} (h : Right w) (E : Env) (now : Nat) {t i n : Int} (f : Bool) (ht : -2147483648 ≤ t ∧ t ≤ 2147483647)
    (hi : -9223372036854775808 ≤ i ∧ i ≤ 9223372036854775807) (hn : -9223372036854775808 ≤ n ∧ n ≤ 9223372036854775807)
    (hd : ¬ (t < 0 ∧ i = 0 ∧ 1 ≤ n)) :
    ∃ w' r, empty E w now (.list [.num n]) (.num t) (.num i) (some f) = some (w', r) ∧ Right w' ∧
      ((∃ a, r = .recycled a ∧ i = 0 ∧ ¬ (18 ≤ t ∧ t ≤ 20) ∧ Handed w.st w'.st t n.toNat a ∧ 1 ≤ n) ∨
       (∃ item p, r = .made t n item p ∧ E.known t = true ∧ 0 ≤ n ∧ (p = false ↔ E.first = true) ∧ (p = true → E.second = true) ∧
          (¬ (18 ≤ t ∧ t ≤ 20) → item = 0) ∧ (18 ≤ t ∧ t ≤ 20 → 1 ≤ item ∧ (i = 0 → item = 1) ∧ (0 < i → i < 2147483648 → item = i))) ∨
       (r = .error ∧ (¬ Possible E t n i ∨ (E.first = false ∧ E.second = false)))) := by
  have fin : ∀ {w1 : World}, Right w1 → ∀ it, (flexible t = true → it = (if i = 0 then 1 else toInt32 i)) → ∃ w' r, newArray E w1 now t n it = some (w', r) ∧ Right w' ∧
      ((∃ item p, r = .made t n item p ∧ E.known t = true ∧ 0 ≤ n ∧ (p = false ↔ E.first = true) ∧ (p = true → E.second = true) ∧
          (¬ (18 ≤ t ∧ t ≤ 20) → item = 0) ∧ (18 ≤ t ∧ t ≤ 20 → 1 ≤ item ∧ (i = 0 → item = 1) ∧ (0 < i → i < 2147483648 → item = i))) ∨
       (r = .error ∧ (¬ Possible E t n i ∨ (E.first = false ∧ E.second = false)))) := by
    intro w1 h1 it hit
    obtain ⟨w', r, e, h2, h3, _⟩ := newArray_call h1 E now t n it
    refine ⟨w', r, e, h2, ?_⟩
    have hmade : ∀ m p, makes E m t n it = true → r = .made t n (if flexible t then it else 0) p → (p = false ↔ E.first = true) → (p = true → E.second = true) →
        ∃ item p, r = .made t n item p ∧ E.known t = true ∧ 0 ≤ n ∧ (p = false ↔ E.first = true) ∧ (p = true → E.second = true) ∧
          (¬ (18 ≤ t ∧ t ≤ 20) → item = 0) ∧ (18 ≤ t ∧ t ≤ 20 → 1 ≤ item ∧ (i = 0 → item = 1) ∧ (0 < i → i < 2147483648 → item = i)) := by
      intro m p hm hr hp1 hp2
      obtain ⟨g1, g2, g3, g4⟩ := (makes_iff E m t n it).1 hm
      refine ⟨_, p, hr, g1, g2, hp1, hp2, fun hf => by rw [flexible_false.2 hf]; rfl, fun hf => ?_⟩
      have hf' := flexible_iff.2 hf
      rw [hf', if_pos rfl]
      refine ⟨g3 hf', fun h0 => by rw [hit hf', if_pos h0], fun h0 h1 => ?_⟩
      rw [hit hf', if_neg (by omega)]
      exact toInt32_same (by omega) h1
    rcases h3 with ⟨hr, hm, _⟩ | ⟨hr, hm1, hm⟩ | ⟨hr, hm1, hm2⟩
    · have := ((makes_iff E _ t n it).1 hm).2.2.2
      exact Or.inl (hmade _ _ hm hr (by simp [this]) (by intro h; cases h))
    · obtain ⟨g1, g2, g3, g4⟩ := (makes_iff E _ t n it).1 hm
      have hf : E.first = false := by
        cases hfm : E.first with
        | false => rfl
        | true => rw [hfm, (makes_iff E true t n it).2 ⟨g1, g2, g3, rfl⟩] at hm1; cases hm1
      exact Or.inl (hmade _ _ hm hr (by simp [hf]) (fun _ => g4))
    · refine Or.inr ⟨hr, ?_⟩
      by_cases hp : Possible E t n i
      · have key : ∀ m, m = true → makes E m t n it = true := by
          intro m hm
          refine (makes_iff E m t n it).2 ⟨hp.known, hp.dim, fun hf => ?_, hm⟩
          rw [hit hf]
          rcases hp.item (flexible_iff.1 hf) with h0 | ⟨h0, h1⟩
          · rw [if_pos h0]; omega
          · rw [if_neg (by omega), toInt32_same (by omega) h1]; omega
        right
        constructor
        · cases hfm : E.first with
          | false => rfl
          | true => rw [key _ hfm] at hm1; cases hm1
        · cases hfm : E.second with
          | false => rfl
          | true => rw [key _ hfm] at hm2; cases hm2
      · exact Or.inl hp
  have he : empty E w now (.list [.num n]) (.num t) (.num i) (some f) = alloc E w now t n i := by
    simp only [empty, int_num ht, long_num hi]
    rw [if_pos hn]
  rw [he]
  unfold alloc
  by_cases hc : i = 0 ∧ flexible t = false
  · rw [if_pos hc]
    have hfind : ∃ w1 r1, find w 1 t n.toNat = some (w1, r1) ∧ Right w1 ∧ (∀ a, r1 = some a → Handed w.st w1.st t n.toNat a ∧ n.toNat ≥ 1) := by
      by_cases h0 : 0 ≤ t
      · obtain ⟨w1, r1, e, g1, _, _, _, _, g2⟩ := find_world h 1 t n.toNat h0
        exact ⟨w1, r1, e, g1, fun a ha => ⟨(g2 a ha).1, (g2 a ha).2.2.1⟩⟩
      · have hn0 : n.toNat = 0 := by
          have : ¬ 1 ≤ n := fun g => hd ⟨by omega, hc.1, g⟩
          omega
        refine ⟨w, none, ?_, h, by intro a ha; cases ha⟩
        rw [hn0]
        simp [find, Rec.find]
    obtain ⟨w1, r1, e, g1, g2⟩ := hfind
    rw [e]
    cases r1 with
    | some a =>
      obtain ⟨g3, g4⟩ := g2 a rfl
      exact ⟨w1, _, rfl, g1, Or.inl ⟨a, rfl, hc.1, flexible_false.1 hc.2, g3, by omega⟩⟩
    | none =>
      obtain ⟨w', r, e2, g3, g4⟩ := fin g1 0 (fun hf => by rw [hc.2] at hf; cases hf)
      exact ⟨w', r, e2, g3, Or.inr g4⟩
  · rw [if_neg hc]
    obtain ⟨w', r, e2, g3, g4⟩ := fin h _ (fun _ => rfl)
    exact ⟨w', r, e2, g3, Or.inr g4⟩

/-- `Empty` is undefined exactly for a negative type with a positive length and no size of items. -/
theorem empty_undefined_iff {w : World} (h : Right w) (E : Env) (now : Nat) {t i n : Int} (f : Bool) (ht : -2147483648 ≤ t ∧ t ≤ 2147483647)
    (hi : -9223372036854775808 ≤ i ∧ i ≤ 9223372036854775807) (hn : -9223372036854775808 ≤ n ∧ n ≤ 9223372036854775807) :
    empty E w now (.list [.num n]) (.num t) (.num i) (some f) = none ↔ t < 0 ∧ i = 0 ∧ 1 ≤ n := by
  constructor
  · intro hu
    refine Classical.byContradiction fun hd => ?_
    obtain ⟨w', r, e, _⟩ := empty_call_partial h E now f ht hi hn hd
    rw [e] at hu; cases hu
  · rintro ⟨h1, h2, h3⟩
    simp only [empty, int_num ht, long_num hi]
    rw [if_pos hn]
    unfold alloc
    rw [if_pos ⟨h2, flexible_false.2 (by omega)⟩]
    have : find w 1 t n.toNat = none := by
      simp only [find, Rec.find, Option.map_eq_none_iff]
      rw [if_pos ⟨by omega, by omega, trivial⟩, if_pos h1]
    rw [this]; rfl

/-- A list with another number of dimensions than one is answered with `None`. -/
theorem empty_dims (E : Env) (w : World) (now : Nat) (l : List Dim) {t i : Int} (f : Bool) (ht : -2147483648 ≤ t ∧ t ≤ 2147483647)
    (hi : -9223372036854775808 ≤ i ∧ i ≤ 9223372036854775807) (hl : l.length ≠ 1) : empty E w now (.list l) (.num t) (.num i) (some f) = some (w, .nothing) := by
  simp only [empty, int_num ht, long_num hi]
  match l, hl with
  | [], _ => rfl
  | [_], hl => exact absurd rfl hl
  | d :: _ :: _, _ => cases d <;> rfl

/-- Arguments of another kind raise, and nothing else happens. -/
theorem empty_args (E : Env) (w : World) (now : Nat) (d : Dims) (a b : Arg) (f : Option Bool) (h : d = .other ∨ int a = none ∨ long b = none ∨ f = none) :
    empty E w now d a b f = some (w, .error) := by
  unfold empty
  rcases h with h | h | h | h
  · subst h; rfl
  · rw [h]; cases d <;> cases long b <;> cases f <;> rfl
  · rw [h]; cases d <;> cases int a <;> cases f <;> rfl
  · rw [h]; cases d <;> cases int a <;> cases long b <;> rfl

/-- A dimension which is no number, or one which is too large, raises. -/
theorem empty_bad_dim {w : World} (hw : Right w) (E : Env) (now : Nat) {t i n : Int} (f : Bool) (ht : -2147483648 ≤ t ∧ t ≤ 2147483647)
    (hi : -9223372036854775808 ≤ i ∧ i ≤ 9223372036854775807) :
    (∃ w', empty E w now (.list [.other]) (.num t) (.num i) (some f) = some (w', .error)) ∧
    (¬ (-9223372036854775808 ≤ n ∧ n ≤ 9223372036854775807) → empty E w now (.list [.num n]) (.num t) (.num i) (some f) = some (w, .error)) := by
  constructor
  · have e1 : empty E w now (.list [.other]) (.num t) (.num i) (some f) = alloc E w now t (-1) i := by
      simp only [empty, int_num ht, long_num hi]
    have e2 : empty E w now (.list [.num (-1)]) (.num t) (.num i) (some f) = alloc E w now t (-1) i := by
      simp only [empty, int_num ht, long_num hi]
      rw [if_pos (by omega)]
    obtain ⟨w', r, e, _, h1⟩ := empty_call_partial hw E now (n := -1) f ht hi (by omega) (by omega)
    rw [e2] at e
    rw [e1, e]
    rcases h1 with ⟨a, _, _, _, _, h⟩ | ⟨item, p, _, _, h, _⟩ | ⟨h, _⟩
    · omega
    · omega
    · exact ⟨w', by rw [h]⟩
  · intro hn
    simp only [empty, int_num ht, long_num hi]
    rw [if_neg hn]

/-! ### `SetFastArrayType` -/

theorem setTypes_fixed : ∀ (l : List TArgs) (s : Types) (t : Nat), s.fast = some t → (setTypes s l).1 = s ∧ (setTypes s l).2 = l.map fun a => a != .other
  | [], s, t, h => ⟨rfl, rfl⟩
  | a :: l, s, t, h => by
    have e : setType s a = (s, a != .other) := by
      cases a with
      | other => rfl
      | two u => simp [setType, h]
    obtain ⟨h1, h2⟩ := setTypes_fixed l s t h
    simp only [setTypes, e, h1, h2, List.map_cons]
    exact ⟨trivial, trivial⟩

/-- After any calls the class of fast arrays is that of the first call whose class had no finalizer; only this class has got one, and it is held once. -/
theorem set_type_first : ∀ (l : List TArgs) (final : Nat → Bool) (held : Nat → Nat),
    (setTypes ⟨none, final, held⟩ l).1.fast = firstPlain final l ∧
    (∀ u, (setTypes ⟨none, final, held⟩ l).1.final u = true ↔ final u = true ∨ firstPlain final l = some u) ∧
    (∀ u, (setTypes ⟨none, final, held⟩ l).1.held u = held u + if firstPlain final l = some u then 1 else 0)
  | [], final, held => by simp [setTypes, firstPlain]
  | a :: l, final, held => by
    cases a with
    | other =>
      have e1 : firstPlain final (.other :: l) = firstPlain final l := rfl
      have e2 : (setTypes ⟨none, final, held⟩ (.other :: l)).1 = (setTypes ⟨none, final, held⟩ l).1 := rfl
      rw [e1, e2]
      exact set_type_first l final held
    | two t =>
      cases hf : final t with
      | true =>
        have e1 : firstPlain final (.two t :: l) = firstPlain final l := by simp [firstPlain, hf]
        have e2 : (setTypes ⟨none, final, held⟩ (.two t :: l)).1 = (setTypes ⟨none, final, held⟩ l).1 := by simp [setTypes, setType, hf]
        rw [e1, e2]
        exact set_type_first l final held
      | false =>
        have e : firstPlain final (.two t :: l) = some t := by simp [firstPlain, hf]
        have e2 := setTypes_fixed l ⟨some t, fun u => if u = t then true else final u, fun u => if u = t then held u + 1 else held u⟩ t rfl
        have e3 : (setTypes ⟨none, final, held⟩ (.two t :: l)).1 = ⟨some t, fun u => if u = t then true else final u, fun u => if u = t then held u + 1 else held u⟩ := by
          simp only [setTypes, setType, hf, if_true, Bool.false_eq_true, if_false]
          exact e2.1
        rw [e3, e]
        refine ⟨rfl, fun u => ?_, fun u => ?_⟩
        · simp only [Option.some.injEq]
          by_cases hu : u = t
          · simp [hu]
          · simp [hu, Ne.symm hu]
        · simp only [Option.some.injEq]
          by_cases hu : u = t
          · simp [hu]
          · simp [hu, Ne.symm hu]

/-- A call raises exactly if there are not two arguments, or no class is known yet and the class given has a finalizer; then nothing changes. -/
theorem set_type_raises_iff (s : Types) (a : TArgs) : ((setType s a).2 = false ↔ a = .other ∨ ∃ t, a = .two t ∧ s.fast = none ∧ s.final t = true) ∧
    ((setType s a).2 = false → (setType s a).1 = s) := by
  cases a with
  | other => simp [setType]
  | two t =>
    cases hs : s.fast with
    | some u => simp [setType, hs]
    | none => cases hf : s.final t <;> simp [setType, hs, hf]

/-! ### `CompareNumpyMemAddress` -/

/-- It raises exactly if there are not two arrays, and is true exactly if both begin at the same address. -/
theorem compare_iff (l : List MArg) : (compare l = none ↔ ¬ ∃ a m b n, l = [.array a m, .array b n]) ∧
    (compare l = some true ↔ ∃ a m n, l = [.array a m, .array a n]) := by
  match l with
  | [] => simp [compare]
  | [x] => simp [compare]
  | [.array a m, .array b n] => simp [compare]; exact eq_comm
  | [.other, y] => simp [compare]
  | [.array a m, .other] => simp [compare]
  | x :: y :: z :: l => cases x <;> cases y <;> simp [compare]

/-- Arrays which both have items and for which it is true share memory. -/
theorem compare_shares (a m b n : Nat) (h : compare [.array a m, .array b n] = some true) (hm : 0 < m) (hn : 0 < n) : Shares a m b n := by
  have e : a = b := by simpa [compare] using h
  subst e
  exact ⟨a, by omega, by omega, by omega, by omega⟩

/-! ### `LedgerFunction` -/

/-- The function is called with all the other arguments and the same names, and what it returns comes back; an array as a fast array, if there are any. -/
theorem ledger_call (fast view : Option Nat) (f : LObj → List LObj → List (Nat × LObj) → Ret) (a b : LObj) (as : List LObj) (kw : List (Nat × LObj)) (h : a.callable = true) :
    ∃ r, ledger fast view f (a :: b :: as) kw = (.ret r, []) ∧
      (f a (b :: as) kw = .raised → r = .raised) ∧ (∀ i, f a (b :: as) kw = .other i → r = .other i) ∧ (∀ i, f a (b :: as) kw = .array i true → r = .array i true) ∧
      (∀ i, f a (b :: as) kw = .array i false → (∀ u v, fast = some u → view = some v → r = .array v true) ∧ (fast = none ∨ view = none → r = .array i false)) := by
  refine ⟨_, by simp [ledger, h]; rfl, fun e => by rw [e]; rfl, fun i e => by rw [e]; rfl, fun i e => by rw [e]; rfl, fun i e => ⟨fun u v hu hv => ?_, fun hn => ?_⟩⟩
  · rw [e, hu, hv]; rfl
  · rw [e]
    rcases hn with hn | hn
    · rw [hn]; rfl
    · rw [hn]; cases fast <;> rfl

/-- The call is refused exactly if there are fewer than two arguments or the first cannot be called. -/
theorem ledger_refused_iff (fast view : Option Nat) (f : LObj → List LObj → List (Nat × LObj) → Ret) (args : List LObj) (kw : List (Nat × LObj)) :
    ((ledger fast view f args kw).1 = .few ↔ args.length < 2) ∧
    ((ledger fast view f args kw).1 = .notCallable ↔ ∃ a b as, args = a :: b :: as ∧ a.callable = false) ∧
    ((ledger fast view f args kw).2 = [] ↔ (ledger fast view f args kw).1 ≠ .notCallable) := by
  match args with
  | [] => simp [ledger]
  | [a] => simp [ledger]
  | a :: b :: as => cases h : a.callable <;> simp [ledger, h]

/-! ### `ReMapIndex` -/

/-- `ReMapIndex` is undefined exactly if its first two arguments are arrays and there is a third; otherwise it raises. -/
theorem remap_iff (l : List RArg) : (remap l = .undefined ↔ ∃ x, l = [.array, .array, x]) ∧ (remap l = .error ↔ ¬ ∃ x, l = [.array, .array, x]) := by
  match l with
  | [] => simp [remap]
  | [x] => simp [remap]
  | [x, y] => simp [remap]
  | [x, y, z] => cases x <;> cases y <;> simp [remap]
  | _ :: _ :: _ :: _ :: _ => simp [remap]

theorem wrap_same {bits : Nat} (hb : 0 < bits) {n : Int} (h : -(2 ^ (bits - 1)) ≤ n ∧ n < 2 ^ (bits - 1)) : wrap bits n = n := by
  obtain ⟨k, rfl⟩ : ∃ k, bits = k + 1 := ⟨bits - 1, by omega⟩
  simp only [Nat.add_sub_cancel] at h
  unfold wrap
  simp only [Nat.add_sub_cancel]
  have e : (2 : Int) ^ (k + 1) = 2 * 2 ^ k := by rw [Int.pow_succ]; omega
  rw [e]
  generalize (2 : Int) ^ k = p at *
  by_cases hn : 0 ≤ n
  · rw [Int.emod_eq_of_lt hn (by omega), if_pos h.2]
  · have : n % (2 * p) = n + 2 * p := by
      rw [← Int.add_emod_right, Int.emod_eq_of_lt (by omega) (by omega)]
    rw [this, if_neg (by omega)]; omega

theorem mapM_items {α β : Type} {g : α → Option β} : ∀ {l : List α} {r : List β}, l.mapM g = some r → r.length = l.length ∧ ∀ (k : Nat) x, l[k]? = some x → ∃ y, g x = some y ∧ r[k]? = some y
  | [], r, h => by simp at h; subst h; simp
  | x :: l, r, h => by
    rw [List.mapM_cons] at h
    cases hx : g x with
    | none => simp [hx] at h
    | some y =>
      cases hl : l.mapM g with
      | none => simp [hx, hl] at h
      | some ys =>
        simp [hx, hl] at h
        subst h
        obtain ⟨h1, h2⟩ := mapM_items hl
        refine ⟨by simp [h1], fun k z hz => ?_⟩
        cases k with
        | zero => simp at hz; subst hz; exact ⟨y, hx, rfl⟩
        | succ k => exact h2 k z hz

theorem mapM_none {α β : Type} {g : α → Option β} : ∀ {l : List α}, l.mapM g = none ↔ ∃ x ∈ l, g x = none
  | [] => by simp
  | x :: l => by
    rw [List.mapM_cons]
    cases hx : g x with
    | none => simp [hx]
    | some y =>
      have := mapM_none (g := g) (l := l)
      cases hl : l.mapM g with
      | none => simp [hx, this.1 hl]
      | some ys =>
        have hn : ¬ ∃ x ∈ l, g x = none := fun hh => by rw [this.2 hh] at hl; cases hl
        simp [hx]
        simpa using hn

/-- The loop which is never reached is undefined exactly if the output is too short or an index is outside the map. -/
theorem remap_loop_undefined_iff (bits : Nat) (mapper input out : List Int) :
    remapLoop bits mapper input out = none ↔ out.length < input.length ∨ ∃ i ∈ input, i < 0 ∨ (mapper.length : Int) ≤ i := by
  have item : ∀ i, remapItem bits mapper i = none ↔ i < 0 ∨ (mapper.length : Int) ≤ i := by
    intro i
    unfold remapItem
    by_cases h : i < 0
    · simp [h]
    · rw [if_neg h, Option.map_eq_none_iff, List.getElem?_eq_none_iff]
      omega
  unfold remapLoop
  by_cases h : out.length < input.length
  · simp [h]
  · rw [if_neg h, Option.map_eq_none_iff, mapM_none]
    simp only [h, false_or, item]

/-- Otherwise every item is the entry of the map, cut to the type of the output, and the rest of the output stays. -/
theorem remap_loop_items (bits : Nat) (hb : 0 < bits) (mapper input out l : List Int) (h : remapLoop bits mapper input out = some l) :
    l.length = out.length ∧
    (∀ (k : Nat) i, input[k]? = some i → ∃ v, mapper[i.toNat]? = some v ∧ l[k]? = some (wrap bits v) ∧
      (-(2 ^ (bits - 1)) ≤ v ∧ v < 2 ^ (bits - 1) → l[k]? = some v)) ∧
    (∀ k : Nat, input.length ≤ k → l[k]? = out[k]?) := by
  unfold remapLoop at h
  by_cases hl : out.length < input.length
  · simp [hl] at h
  · rw [if_neg hl] at h
    obtain ⟨r, hr, h2⟩ := Option.map_eq_some_iff.1 h
    subst h2
    obtain ⟨h3, h4⟩ := mapM_items hr
    refine ⟨by simp [h3]; omega, fun k i hi => ?_, fun k hk => ?_⟩
    · obtain ⟨y, hy, hk⟩ := h4 k i hi
      unfold remapItem at hy
      by_cases hi0 : i < 0
      · simp [hi0] at hy
      · rw [if_neg hi0] at hy
        obtain ⟨v, hv, e⟩ := Option.map_eq_some_iff.1 hy
        have hlt : k < r.length := (List.getElem?_eq_some_iff.1 hk).1
        have hk' : (r ++ out.drop input.length)[k]? = some (wrap bits v) := by rw [List.getElem?_append_left hlt, hk, e]
        exact ⟨v, hv, hk', fun hb' => by rw [hk', wrap_same hb hb']⟩
    · rw [List.getElem?_append_right (by omega), List.getElem?_drop, h3]
      congr 1; omega

/-! ### Cases -/

def exEnv : Env := ⟨fun t => decide (0 ≤ t ∧ t < 24), true, true⟩

example : (empty exEnv .init 0 (.list [.num 5]) (.num 18) (.num 8) (some false)).map Prod.snd = some (.made 18 5 8 false) := rfl
example : (empty exEnv .init 0 (.list [.num 5]) (.num 18) (.num 0) (some false)).map Prod.snd = some (.made 18 5 1 false) := rfl
example : (empty exEnv .init 0 (.list [.num 5]) (.num 12) (.num 0) (some true)).map Prod.snd = some (.made 12 5 0 false) := rfl
example : Possible exEnv 18 5 8 := ⟨rfl, by omega, fun _ => Or.inr ⟨by omega, by omega⟩⟩
example : (setTypes ⟨none, fun u => u == 3, fun _ => 0⟩ [.other, .two 3, .two 5, .two 6]).2 = [false, false, true, true] := rfl
example : (setTypes ⟨none, fun u => u == 3, fun _ => 0⟩ [.other, .two 3, .two 5, .two 6]).1.fast = some 5 := rfl
example : compare [.array 100 8, .array 100 16] = some true := rfl
example : ledger (some 1) (some 9) (fun _ l _ => if l.length = 2 then .array 4 false else .raised) [⟨1, 1, true⟩, ⟨2, 2, false⟩, ⟨3, 2, false⟩] [] = (.ret (.array 9 true), []) := rfl
example : remapLoop 8 [1, 2, 6, 5] [0, 1, 3, 1, 0, 1, 2] [0, 0, 0, 0, 0, 0, 0, 7] = some [1, 2, 5, 2, 1, 2, 6, 7] := by decide

end Riptide.ModuleCall
