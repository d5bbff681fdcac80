import Verif.Ema.EntryLemmas
import Verif.Ema.CumProps
import Verif.GroupBy.EntrySpec
/-! C134: what `EmaAll32` refuses, which function runs, and the sums, products and counts it returns. -/
namespace Riptide.Ema.Entry
open Riptide.Ema.Entry.Spec

/-! ## Refused calls -/

/-- A call is refused exactly when its arguments are not as they should be, provided that time and masks are arrays or `None`.
Missing: other objects (`call_pending_error`), and calls that are accepted although they cannot be answered (`call_empty`,
`call_short_column`, …). -/
theorem call_refuses_partial (fa : Arith) (calls : List Nat) (r : Req) (h : ArraysOnly r.params) :
    (∃ e, emaAll fa calls r = .err e) ↔ ¬ ∃ a uniq func number time inc rst, Good r a uniq func number time inc rst := by
  constructor
  · rintro ⟨e, he⟩ ⟨a, uniq, func, number, time, inc, rst, hg⟩
    rw [call_good fa calls r a uniq func number time inc rst hg, runJob] at he
    split at he
    · cases he
    · split at he <;> cases he
  · intro hn
    unfold emaAll
    split
    · rename_i key uniq func e1 e2 e3
      split
      · exact ⟨_, rfl⟩
      · split <;> exact ⟨_, rfl⟩
      · rename_i number time inc rst e4
        rw [e4] at h
        split
        · rename_i hk
          split
          · exact ⟨_, rfl⟩
          · rename_i d
            unfold callTests
            rcases maskBad_cases key.vals.length rst h.2.2 with ⟨g1, e⟩ | ⟨_, e⟩
            · rw [e]; dsimp only
              rcases maskBad_cases key.vals.length inc h.2.1 with ⟨g2, e⟩ | ⟨_, e⟩
              · rw [e]; dsimp only
                rcases timeBad_cases key.vals.length time h.1 with ⟨g3, e⟩ | ⟨_, e⟩
                · rw [e]; dsimp only
                  unfold callRun
                  rcases build_cases r.cols with ⟨g4, e⟩ | ⟨_, e⟩
                  · exfalso
                    apply hn
                    have long : ∀ (v : Option Int) (x : Int), longOf v = some x → v = some x ∧ -2 ^ 63 ≤ x ∧ x < 2 ^ 63 := by
                      intro v x hv
                      cases v with
                      | none => cases hv
                      | some y =>
                        rw [longOf, Option.bind_some] at hv
                        split at hv
                        · rename_i hy
                          cases hv
                          exact ⟨rfl, hy⟩
                        · cases hv
                    exact ⟨key, uniq, func, d, time, inc, rst, e1, by rw [← key_iff]; exact hk, long _ _ e2, long _ _ e3, e4, g3, g2,
                      g1, g4⟩
                  · rw [e]; exact ⟨_, rfl⟩
                · rw [e]; exact ⟨_, rfl⟩
              · rw [e]; exact ⟨_, rfl⟩
            · rw [e]; exact ⟨_, rfl⟩
        · exact ⟨_, rfl⟩
    · exact ⟨_, rfl⟩

/-- Which complaint comes for which argument, in the order of the tests: no array as key or no integers; no tuple; a key of the
wrong type; a tuple of another size; no number; the masks; the time; the columns. -/
theorem call_complaints (fa : Arith) (calls : List Nat) (r : Req) :
    (((∀ a, r.key ≠ .arr a) ∨ longOf r.uniq = none ∨ longOf r.func = none) → emaAll fa calls r = .err .args) ∧
    ∀ a u f, r.key = .arr a → longOf r.uniq = some u → longOf r.func = some f →
      (r.params = .notTuple → emaAll fa calls r = .err .paramsType) ∧
      (r.params ≠ .notTuple → isKey a.ty = false → emaAll fa calls r = .err .keyType) ∧
      (isKey a.ty = true →
        (∀ n, r.params = .otherSize n → emaAll fa calls r = .err .paramsSize) ∧
        ∀ number time inc rst, r.params = .four number time inc rst →
          (number = none → emaAll fa calls r = .err .paramsArgs) ∧
          (number ≠ none → rst ≠ .other → ¬ IsMask a.vals.length rst → emaAll fa calls r = .err .resetMask) ∧
          (number ≠ none → inc ≠ .other → IsMask a.vals.length rst → ¬ IsMask a.vals.length inc →
            emaAll fa calls r = .err .includeMask) ∧
          (number ≠ none → time ≠ .other → IsMask a.vals.length rst → IsMask a.vals.length inc → ¬ IsTime a.vals.length time →
            emaAll fa calls r = .err .time) ∧
          (number ≠ none → IsMask a.vals.length rst → IsMask a.vals.length inc → IsTime a.vals.length time → ¬ GoodCols r.cols →
            emaAll fa calls r = .err .columns)) := by
  have good1 : ∀ n o, IsMask n o → maskBad n o = some false := fun n o h => by
    rcases maskBad_cases n o (mask_notOther h) with ⟨_, e⟩ | ⟨hn, _⟩
    · exact e
    · exact absurd h hn
  have bad1 : ∀ n o, o ≠ .other → ¬ IsMask n o → maskBad n o = some true := fun n o ho h => by
    rcases maskBad_cases n o ho with ⟨hn, _⟩ | ⟨_, e⟩
    · exact absurd hn h
    · exact e
  constructor
  · intro h
    unfold emaAll
    split
    · rename_i key uniq func e1 e2 e3
      rcases h with h | h | h
      · exact absurd e1 (h key)
      · rw [e2] at h; cases h
      · rw [e3] at h; cases h
    · rfl
  · intro a u f h1 h2 h3
    refine ⟨fun hp => ?_, fun hp hk => ?_, fun hk => ⟨fun n hp => ?_, fun number time inc rst hp => ?_⟩⟩
    · unfold emaAll
      rw [h1, h2, h3, hp]
    · unfold emaAll
      rw [h1, h2, h3]
      cases hq : r.params with
      | notTuple => exact absurd hq hp
      | otherSize n => dsimp only; rw [key_iff, hk]; rfl
      | four number time inc rst => dsimp only; rw [key_iff, hk]; rfl
    · unfold emaAll
      rw [h1, h2, h3, hp]
      dsimp only
      rw [key_iff, hk]; rfl
    · have hd : ∀ d, number = some d → emaAll fa calls r = callTests fa calls r.cols a u f d time inc rst := by
        rintro d rfl
        unfold emaAll
        rw [h1, h2, h3, hp]
        dsimp only
        rw [key_iff, hk]; rfl
      have hs : number ≠ none → ∃ d, number = some d := fun h => Option.ne_none_iff_exists'.1 h
      refine ⟨fun hn => ?_, fun hn ho hm => ?_, fun hn ho g1 hm => ?_, fun hn ho g1 g2 hm => ?_, fun hn g1 g2 g3 hm => ?_⟩
      · subst hn
        unfold emaAll
        rw [h1, h2, h3, hp]
        dsimp only
        rw [key_iff, hk]; rfl
      · obtain ⟨d, hd'⟩ := hs hn
        rw [hd d hd', callTests, bad1 _ _ ho hm]
      · obtain ⟨d, hd'⟩ := hs hn
        rw [hd d hd', callTests, good1 _ _ g1]
        dsimp only
        rw [bad1 _ _ ho hm]
      · obtain ⟨d, hd'⟩ := hs hn
        rw [hd d hd', callTests, good1 _ _ g1]
        dsimp only
        rw [good1 _ _ g2]
        dsimp only
        rcases timeBad_cases a.vals.length time ho with ⟨hx, _⟩ | ⟨_, e⟩
        · exact absurd hx hm
        · rw [e]
      · obtain ⟨d, hd'⟩ := hs hn
        rw [hd d hd', callTests, good1 _ _ g1]
        dsimp only
        rw [good1 _ _ g2]
        dsimp only
        rcases timeBad_cases a.vals.length time (time_notOther g3) with ⟨_, e⟩ | ⟨hx, _⟩
        · rw [e]
          dsimp only
          rw [callRun]
          rcases build_cases r.cols with ⟨hx, _⟩ | ⟨_, e⟩
          · exact absurd hx hm
          · rw [e]
        · exact absurd g3 hx

/-- A call with proper arguments but no columns writes to memory it does not have. -/
theorem call_empty (fa : Arith) (calls : List Nat) (r : Req) (a : Arr) (uniq func number : Int) (time inc rst : Obj)
    (h : Good r a uniq func number time inc rst) (he : entries r.cols = []) : emaAll fa calls r = .undef := by
  rw [call_good fa calls r a uniq func number time inc rst h, runJob, if_pos]
  rw [jobOf, he]; rfl

/-- The answer does not depend on the threads. -/
theorem call_threads (fa : Arith) (r : Req) (workers workers' : Nat) (nt nt' : Bool) (calls calls' : List Nat)
    (h : ColSched workers (entries r.cols).length nt calls) (h' : ColSched workers' (entries r.cols).length nt' calls')
    (hg : ∃ a uniq func number time inc rst, Good r a uniq func number time inc rst) :
    emaAll fa calls r = emaAll fa calls' r := by
  obtain ⟨a, uniq, func, number, time, inc, rst, hg⟩ := hg
  rw [call_good fa calls r a uniq func number time inc rst hg, call_good fa calls' r a uniq func number time inc rst hg]
  by_cases he : (jobOf a r.cols uniq func number time inc rst).cols = []
  · rw [runJob, if_pos he, runJob, if_pos he]
  · rw [runJob_perm fa _ he (by simpa [jobOf] using h.perm), runJob_perm fa _ he (by simpa [jobOf] using h'.perm)]

/-! ## The choice of the function -/

/-- The function is the one which the number stands for; it reads the column with its type (bytes for booleans) and the time
with its type; sums and products have 64 bits or the type of a floating-point column, extremes the type of the column, averages
are float64, counts int32. -/
theorem kern_named (func : Int) (ty : Nat) (time : Int) (k : Kern) (h : kernOf func ty time = some k) :
    (func, k.name) ∈ named ∧
    (k.name ≠ .findNth → GroupBy.Entry.fits k.T ty = true) ∧
    (func = 300 ∨ func = 302 → (∀ t, whole ty = some t → k.out = sumTy t) ∧ (11 ≤ ty → k.out = ty)) ∧
    (306 ≤ func → k.out = ty) ∧ (func = 303 → k.out = 5) ∧
    (func = 301 ∨ func = 304 ∨ func = 305 → k.out = 12 ∧ ∃ v, k.V = some v ∧
      GroupBy.Entry.fits v time.toNat = true ∧ 5 ≤ time) := by
  have sums : ∀ n (k : Kern), sumKern n ty = some k → k.name = n ∧ GroupBy.Entry.fits k.T ty = true ∧
      (∀ t, whole ty = some t → k.out = sumTy t) ∧ (11 ≤ ty → k.out = ty) := by
    intro n k hk
    by_cases h13 : ty ≤ 13
    · have : ty = 0 ∨ ty = 1 ∨ ty = 2 ∨ ty = 3 ∨ ty = 4 ∨ ty = 5 ∨ ty = 6 ∨ ty = 7 ∨ ty = 8 ∨ ty = 9 ∨ ty = 10 ∨ ty = 11 ∨
        ty = 12 ∨ ty = 13 := by omega
      rcases this with h | h | h | h | h | h | h | h | h | h | h | h | h | h <;> subst h <;> cases hk <;>
        refine ⟨rfl, rfl, ?_, ?_⟩ <;> first | (intro t ht; cases ht <;> rfl) | (intro hx; first | rfl | omega)
    · exfalso
      have : GroupBy.Entry.inOf ty = none := by
        unfold GroupBy.Entry.inOf
        rw [if_neg (by omega)]
        unfold GroupBy.Entry.ctOf
        split <;> first | omega | rfl
      rw [sumKern, this] at hk
      cases hk
  have typed : ∀ t, GroupBy.Entry.inOf ty = some t → GroupBy.Entry.fits t ty = true := by
    intro t ht
    by_cases h13 : ty ≤ 13
    · have : ty = 0 ∨ ty = 1 ∨ ty = 2 ∨ ty = 3 ∨ ty = 4 ∨ ty = 5 ∨ ty = 6 ∨ ty = 7 ∨ ty = 8 ∨ ty = 9 ∨ ty = 10 ∨ ty = 11 ∨
        ty = 12 ∨ ty = 13 := by omega
      rcases this with h | h | h | h | h | h | h | h | h | h | h | h | h | h <;> subst h <;> cases ht <;> rfl
    · exfalso
      unfold GroupBy.Entry.inOf at ht
      rw [if_neg (by omega)] at ht
      unfold GroupBy.Entry.ctOf at ht
      split at ht <;> first | omega | cases ht
  have exts : ∀ n (k : Kern), extKern n ty = some k → k.name = n ∧ GroupBy.Entry.fits k.T ty = true ∧ k.out = ty := by
    intro n k hk
    unfold extKern at hk
    cases ht : GroupBy.Entry.inOf ty with
    | none => rw [ht] at hk; cases hk
    | some t =>
      rw [ht] at hk
      cases hk
      exact ⟨rfl, typed t ht, rfl⟩
  have avgs : ∀ n (k : Kern), avgKern n ty time = some k → k.name = n ∧ GroupBy.Entry.fits k.T ty = true ∧ k.out = 12 ∧
      ∃ v, k.V = some v ∧ GroupBy.Entry.fits v time.toNat = true ∧ 5 ≤ time := by
    intro n k hk
    unfold avgKern at hk
    cases ht : GroupBy.Entry.inOf ty with
    | none => rw [ht] at hk; cases hk
    | some t =>
      rw [ht, Option.bind_some] at hk
      cases hv : timeOf time with
      | none => rw [hv] at hk; cases hk
      | some v =>
        rw [hv] at hk
        cases hk
        refine ⟨rfl, typed t ht, rfl, v, rfl, ?_⟩
        have : time = 5 ∨ time = 6 ∨ time = 7 ∨ time = 8 ∨ time = 9 ∨ time = 10 ∨ time = 11 ∨ time = 12 ∨ time = 13 := by
          unfold timeOf at hv
          by_cases h1 : 5 ≤ time ∧ time ≤ 13
          · omega
          · exfalso
            rw [if_neg (by omega), if_neg (by omega), if_neg (by omega), if_neg (by omega), if_neg (by omega), if_neg (by omega),
              if_neg (by omega)] at hv
            cases hv
        rcases this with h | h | h | h | h | h | h | h | h <;> subst h <;> cases hv <;> exact ⟨rfl, by omega⟩
  unfold kernOf at h
  split at h
  · rename_i hf; subst hf
    obtain ⟨h1, h2, h3, h4⟩ := sums _ _ h
    exact ⟨by rw [h1]; decide, fun _ => h2, fun _ => ⟨h3, h4⟩, by omega, by omega, by omega⟩
  split at h
  · rename_i hf; subst hf
    obtain ⟨h1, h2, h3⟩ := avgs _ _ h
    exact ⟨by rw [h1]; decide, fun _ => h2, by omega, by omega, by omega, fun _ => h3⟩
  split at h
  · rename_i hf; subst hf
    obtain ⟨h1, h2, h3, h4⟩ := sums _ _ h
    exact ⟨by rw [h1]; decide, fun _ => h2, fun _ => ⟨h3, h4⟩, by omega, by omega, by omega⟩
  split at h
  · rename_i hf; subst hf
    cases h
    exact ⟨by decide, fun h => absurd rfl h, by omega, by omega, fun _ => rfl, by omega⟩
  split at h
  · rename_i hf; subst hf
    obtain ⟨h1, h2, h3⟩ := avgs _ _ h
    exact ⟨by rw [h1]; decide, fun _ => h2, by omega, by omega, by omega, fun _ => h3⟩
  split at h
  · rename_i hf; subst hf
    obtain ⟨h1, h2, h3⟩ := avgs _ _ h
    exact ⟨by rw [h1]; decide, fun _ => h2, by omega, by omega, by omega, fun _ => h3⟩
  split at h
  · rename_i hf; subst hf
    obtain ⟨h1, h2, h3⟩ := exts _ _ h
    exact ⟨by rw [h1]; decide, fun _ => h2, by omega, fun _ => h3, by omega, by omega⟩
  split at h
  · rename_i hf; subst hf
    obtain ⟨h1, h2, h3⟩ := exts _ _ h
    exact ⟨by rw [h1]; decide, fun _ => h2, by omega, fun _ => h3, by omega, by omega⟩
  split at h
  · rename_i hf; subst hf
    obtain ⟨h1, h2, h3⟩ := exts _ _ h
    exact ⟨by rw [h1]; decide, fun _ => h2, by omega, fun _ => h3, by omega, by omega⟩
  split at h
  · rename_i hf; subst hf
    obtain ⟨h1, h2, h3⟩ := exts _ _ h
    exact ⟨by rw [h1]; decide, fun _ => h2, by omega, fun _ => h3, by omega, by omega⟩
  · cases h

/-- There is a function for every number of `named` and every numeric type, for averages only with a time; counting rows works
for columns of any type. -/
theorem kern_exists (func : Int) (ty : Nat) (time : Int) :
    (kernOf func ty time).isSome = true ↔ (∃ n, (func, n) ∈ named) ∧ (func = 303 ∨ ty ≤ 13) ∧
      (func = 301 ∨ func = 304 ∨ func = 305 → 5 ≤ time ∧ time ≤ 13) := by
  have ins : (GroupBy.Entry.inOf ty).isSome = true ↔ ty ≤ 13 := by
    by_cases h13 : ty ≤ 13
    · have : ty = 0 ∨ ty = 1 ∨ ty = 2 ∨ ty = 3 ∨ ty = 4 ∨ ty = 5 ∨ ty = 6 ∨ ty = 7 ∨ ty = 8 ∨ ty = 9 ∨ ty = 10 ∨ ty = 11 ∨
        ty = 12 ∨ ty = 13 := by omega
      rcases this with h | h | h | h | h | h | h | h | h | h | h | h | h | h <;> subst h <;> simp [GroupBy.Entry.inOf, GroupBy.Entry.ctOf]
    · have : GroupBy.Entry.inOf ty = none := by
        unfold GroupBy.Entry.inOf
        rw [if_neg (by omega)]
        unfold GroupBy.Entry.ctOf
        split <;> first | omega | rfl
      rw [this]
      constructor
      · intro h; cases h
      · intro h; exact absurd h h13
  have sums : ∀ n, (sumKern n ty).isSome = true ↔ ty ≤ 13 := by
    intro n; rw [← ins, sumKern, Option.isSome_map]
  have exts : ∀ n, (extKern n ty).isSome = true ↔ ty ≤ 13 := by
    intro n; rw [← ins, extKern, Option.isSome_map]
  have times : (timeOf time).isSome = true ↔ 5 ≤ time ∧ time ≤ 13 := by
    by_cases h1 : 5 ≤ time ∧ time ≤ 13
    · have : time = 5 ∨ time = 6 ∨ time = 7 ∨ time = 8 ∨ time = 9 ∨ time = 10 ∨ time = 11 ∨ time = 12 ∨ time = 13 := by omega
      rcases this with h | h | h | h | h | h | h | h | h <;> subst h <;> simp [timeOf]
    · unfold timeOf
      rw [if_neg (by omega), if_neg (by omega), if_neg (by omega), if_neg (by omega), if_neg (by omega), if_neg (by omega),
        if_neg (by omega)]
      constructor
      · intro h; cases h
      · intro h; exact absurd h h1
  have avgs : ∀ n, (avgKern n ty time).isSome = true ↔ ty ≤ 13 ∧ 5 ≤ time ∧ time ≤ 13 := by
    intro n
    rw [← ins, ← times, avgKern]
    cases GroupBy.Entry.inOf ty with
    | none => simp
    | some t => simp
  have names : (∃ n, (func, n) ∈ named) ↔ 300 ≤ func ∧ func ≤ 309 := by
    constructor
    · rintro ⟨n, hn⟩
      simp only [named, List.mem_cons, Prod.mk.injEq, List.not_mem_nil, or_false] at hn
      omega
    · intro h
      have : func = 300 ∨ func = 301 ∨ func = 302 ∨ func = 303 ∨ func = 304 ∨ func = 305 ∨ func = 306 ∨ func = 307 ∨ func = 308 ∨
        func = 309 := by omega
      rcases this with h | h | h | h | h | h | h | h | h | h <;> subst h
      · exact ⟨.cumSum, by decide⟩
      · exact ⟨.decay, by decide⟩
      · exact ⟨.cumProd, by decide⟩
      · exact ⟨.findNth, by decide⟩
      · exact ⟨.normal, by decide⟩
      · exact ⟨.weighted, by decide⟩
      · exact ⟨.nanMax, by decide⟩
      · exact ⟨.nanMin, by decide⟩
      · exact ⟨.max, by decide⟩
      · exact ⟨.min, by decide⟩
  rw [names]
  unfold kernOf
  split
  · rw [sums]; omega
  split
  · rw [avgs]; omega
  split
  · rw [sums]; omega
  split
  · simp; omega
  split
  · rw [avgs]; omega
  split
  · rw [avgs]; omega
  split
  · rw [exts]; omega
  split
  · rw [exts]; omega
  split
  · rw [exts]; omega
  split
  · rw [exts]; omega
  · constructor
    · intro h; cases h
    · omega

/-- What the function writes fits into its result array unless averages are asked for a time of type `long double`. -/
theorem kern_fits_partial (func : Int) (ty : Nat) (time : Int) (k : Kern) (h : kernOf func ty time = some k)
    (ht : (func = 301 ∨ func = 304 ∨ func = 305) → time ≠ 13) : k.U.size = GroupBy.Entry.freshItem k.out := by
  have sums : ∀ n (k : Kern), sumKern n ty = some k → k.U.size = GroupBy.Entry.freshItem k.out := by
    intro n k hk
    unfold sumKern at hk
    cases hi : GroupBy.Entry.inOf ty with
    | none => rw [hi] at hk; cases hk
    | some t => rw [hi] at hk; cases t <;> cases hk <;> rfl
  have exts : ∀ n (k : Kern), extKern n ty = some k → k.U.size = GroupBy.Entry.freshItem k.out := by
    intro n k hk
    unfold extKern at hk
    by_cases h13 : ty ≤ 13
    · have : ty = 0 ∨ ty = 1 ∨ ty = 2 ∨ ty = 3 ∨ ty = 4 ∨ ty = 5 ∨ ty = 6 ∨ ty = 7 ∨ ty = 8 ∨ ty = 9 ∨ ty = 10 ∨ ty = 11 ∨
        ty = 12 ∨ ty = 13 := by omega
      rcases this with h | h | h | h | h | h | h | h | h | h | h | h | h | h <;> subst h <;> cases hk <;> rfl
    · exfalso
      have : GroupBy.Entry.inOf ty = none := by
        unfold GroupBy.Entry.inOf
        rw [if_neg (by omega)]
        unfold GroupBy.Entry.ctOf
        split <;> first | omega | rfl
      rw [this] at hk
      cases hk
  have avgs : ∀ n (k : Kern), time ≠ 13 → avgKern n ty time = some k → k.U.size = GroupBy.Entry.freshItem k.out := by
    intro n k hne hk
    unfold avgKern at hk
    cases hi : GroupBy.Entry.inOf ty with
    | none => rw [hi] at hk; cases hk
    | some t =>
      rw [hi, Option.bind_some] at hk
      cases hv : timeOf time with
      | none => rw [hv] at hk; cases hk
      | some v =>
        rw [hv] at hk
        cases hk
        have : v ≠ .f80 := by
          rintro rfl
          unfold timeOf at hv
          (repeat' split at hv) <;> first | cases hv | omega
        dsimp only
        rw [if_neg this]
        rfl
  unfold kernOf at h
  split at h
  · exact sums _ _ h
  split at h
  · rename_i hf; exact avgs _ _ (ht (.inl hf)) h
  split at h
  · exact sums _ _ h
  split at h
  · cases h; rfl
  split at h
  · rename_i hf; exact avgs _ _ (ht (.inr (.inl hf))) h
  split at h
  · rename_i hf; exact avgs _ _ (ht (.inr (.inr hf))) h
  split at h
  · exact exts _ _ h
  split at h
  · exact exts _ _ h
  split at h
  · exact exts _ _ h
  split at h
  · exact exts _ _ h
  · cases h

/-- With a time of type `long double` items of 16 bytes are written to an array of items of 8 bytes. -/
theorem kern_long_double : (kernOf 301 12 13).map (fun k => (k.U.size, GroupBy.Entry.freshItem k.out)) = some (16, 8) := by decide

end Riptide.Ema.Entry
