import Verif.GroupBy.EntryProps
/-! # The calls `GroupByAll32` and `GroupByAllPack32` -/
namespace Riptide.GroupBy.Entry

/-! ## Which accesses are inside -/

theorem within_of {lo hi n : Int} (h0 : 0 ≤ lo) (h2 : hi ≤ n) : within lo hi n = true := by
  simp [within, h0, h2]

theorem within_iff (lo hi n : Int) : within lo hi n = true ↔ (lo < hi → 0 ≤ lo ∧ hi ≤ n) := by
  simp only [within, Bool.or_eq_true, Bool.and_eq_true, decide_eq_true_eq]
  omega

theorem rowsOk_of {keys : List Int} {len : Nat} {lo hi n : Int} (hk : len ≤ keys.length) (h : lo < hi → 0 ≤ lo ∧ hi ≤ n) :
    rowsOk keys len lo hi n = true := by
  simp only [rowsOk, Bool.and_eq_true, decide_eq_true_eq, List.all_eq_true]
  refine ⟨hk, fun k _ => ?_⟩
  split
  · rw [within_iff]; omega
  · rfl

theorem inside_of (f : Two) {keys : List Int} {len : Nat} {lo hi n : Int} (hk : len ≤ keys.length) (h0 : 0 ≤ lo) (h1 : lo ≤ hi)
    (h2 : hi ≤ n) : f.inside keys len lo hi n = true := by
  have hw : within lo hi n = true := within_of h0 h2
  have hr : rowsOk keys len lo hi n = true := rowsOk_of hk (fun _ => ⟨h0, h2⟩)
  have hs : f.name.start lo hi n = true := by
    rw [Name.start]
    split
    · split
      · simp [clears, within]; omega
      · simp [clears, hw, h1]
    · exact hw
  have hf : f.name.finish lo hi len n = true := by
    cases hn : f.name <;> simp [Name.finish, hw]
  simp [Two.inside, hs, hr, hf]

/-- The exact condition under which the call of a function of columns stays inside of its arrays: there is a key for each row, the
bins are inside, and if the bins are cleared by `memset` the range is not negative.  (For the two functions which clear from bin 0
the condition is sufficient by `column_call_inside`.) -/
theorem column_call_exact (f : Two) (keys : List Int) (len : Nat) (lo hi n : Int) (hz : f.name.clearsFromZero = false) :
    f.inside keys len lo hi n = true ↔
      len ≤ keys.length ∧ (lo < hi → 0 ≤ lo ∧ hi ≤ n) ∧ (f.name.memsets = true → lo ≤ hi) := by
  constructor
  · intro h
    simp only [Two.inside, Bool.and_eq_true] at h
    obtain ⟨⟨hs, hr⟩, _⟩ := h
    simp only [rowsOk, Bool.and_eq_true, decide_eq_true_eq] at hr
    refine ⟨hr.1, ?_⟩
    rw [Name.start, hz] at hs
    by_cases hm : f.name.memsets = true
    · rw [if_pos hm] at hs
      simp only [Bool.false_eq_true, if_false, clears, Bool.and_eq_true, decide_eq_true_eq] at hs
      exact ⟨(within_iff ..).mp hs.2, fun _ => hs.1⟩
    · rw [if_neg hm] at hs
      exact ⟨(within_iff ..).mp hs, fun hm' => absurd hm' hm⟩
  · rintro ⟨hk, hb, hm⟩
    have hw : within lo hi n = true := (within_iff ..).mpr hb
    have hr : rowsOk keys len lo hi n = true := rowsOk_of hk hb
    have hs : f.name.start lo hi n = true := by
      rw [Name.start, hz]
      by_cases hm' : f.name.memsets = true
      · rw [if_pos hm']; simp [clears, hw, hm hm']
      · rw [if_neg hm']; exact hw
    have hf : f.name.finish lo hi len n = true := by
      cases hn : f.name <;> simp [Name.finish, hw]
    simp [Two.inside, hs, hr, hf]

/-- With bins `0 ≤ lo ≤ hi ≤ n` and a key for each row every function of columns stays inside of its arrays, whatever the keys are. -/
theorem column_call_inside (f : Two) (keys : List Int) (len : Nat) (lo hi n : Int) (hk : len ≤ keys.length) (h0 : 0 ≤ lo)
    (h1 : lo ≤ hi) (h2 : hi ≤ n) : f.inside keys len lo hi n = true := inside_of f hk h0 h1 h2

example : (⟨.sum, .i64, .i64, 7, none, true⟩ : Two).inside [1, -5, 900] 3 1 3 3 = true :=
  column_call_inside _ _ _ _ _ _ (by decide) (by decide) (by decide) (by decide)
example : (⟨.sum, .i64, .i64, 7, none, true⟩ : Two).inside [1, 1, 1] 3 1 4 3 = false := by decide +kernel
example : (⟨.min, .i64, .i64, 7, none, true⟩ : Two).inside [1, 1, 1] 3 3 1 3 = true :=
  (column_call_exact _ _ _ _ _ _ rfl).mpr ⟨by decide, fun h => absurd h (by decide), fun h => absurd h (by decide)⟩

/-! ## Functions of columns -/

theorem asI64_id {v : Int} (h0 : 0 ≤ v) (h1 : v < 2 ^ 63) : asI64 v = v := by
  rw [asI64, if_pos ⟨by omega, h1⟩]

/-- What is known of a prepared column. -/
def JobOk (r : Req) (i : Nat) (c : Col) (j : Job) : Prop :=
  twoFunc (funcOf (r.funcs.getD i 0)) c.ty = some j.f ∧ j.len = c.len ∧ r.lows[i]? = some j.lo ∧ r.highs[i]? = some j.hi

theorem prepare_ok {r : Req} {n : Int} {i : Nat} {c : Col} {lo hi : Int} {f : Two} (hl : r.lows[i]? = some lo)
    (hh : r.highs[i]? = some hi) (h0 : 0 ≤ lo) (h1 : lo ≤ hi) (h2 : hi ≤ n) (hn : n < 2 ^ 63)
    (hf : twoFunc (funcOf (r.funcs.getD i 0)) c.ty = some f) : prepare r n i c = .ok ⟨f, c.len, lo, hi⟩ := by
  have hg : r.lows.getD i 0 = lo := by simp [List.getD, hl]
  rw [prepare, hh]
  simp only [hf, hg, asI64_id h0 (by omega : lo < 2 ^ 63), asI64_id (by omega : 0 ≤ hi) (by omega : hi < 2 ^ 63)]
  rw [if_neg (by omega)]
  have : tmpAlloc f lo hi i = none := by
    rw [tmpAlloc]
    cases f.tmp with
    | none => rfl
    | some _ => simp only; rw [if_pos (by omega)]
  rw [this]

theorem prepareAll_ok {r : Req} {n : Int} (hn : n < 2 ^ 63) : ∀ (cs : List Col) (i : Nat),
    (∀ (k : Nat) (c : Col), cs[k]? = some c → (twoFunc (funcOf (r.funcs.getD (i + k) 0)) c.ty).isSome = true ∧
      ∃ lo hi, r.lows[i + k]? = some lo ∧ r.highs[i + k]? = some hi ∧ 0 ≤ lo ∧ lo ≤ hi ∧ hi ≤ n) →
    ∃ jobs, prepareAll r n i cs = .ok jobs ∧ jobs.length = cs.length ∧
      ∀ (k : Nat) (c : Col) (j : Job), cs[k]? = some c → jobs[k]? = some j → JobOk r (i + k) c j
  | [], i, _ => ⟨[], rfl, rfl, fun k c j h => by simp at h⟩
  | c :: cs, i, h => by
    obtain ⟨hf, lo, hi, hl, hh, h0, h1, h2⟩ := h 0 c rfl
    obtain ⟨f, hf⟩ := Option.isSome_iff_exists.mp hf
    obtain ⟨jobs, e, hlen, hjobs⟩ := prepareAll_ok hn cs (i + 1) (fun k d hd => by
      have := h (k + 1) d (by simpa using hd)
      rw [show i + (k + 1) = i + 1 + k by omega] at this
      exact this)
    refine ⟨⟨f, c.len, lo, hi⟩ :: jobs, ?_, by simp [hlen], ?_⟩
    · rw [prepareAll, prepare_ok (i := i) (f := f) hl hh h0 h1 h2 hn hf]
      simp only [e]
    · intro k d j hd hj
      cases k with
      | zero =>
        simp only [List.getElem?_cons_zero, Option.some.injEq] at hd hj
        subst hd; subst hj
        exact ⟨hf, rfl, hl, hh⟩
      | succ k =>
        simp only [List.getElem?_cons_succ] at hd hj
        have := hjobs k d j hd hj
        rw [show i + 1 + k = i + (k + 1) by omega] at this
        exact this

/-- A request which passes the checks: columns of the length of the key, a function and a range of bins for each of them. -/
structure Fit (r : Req) : Prop where
  dim : r.keyDim = 1
  key : r.keyTy = 1 ∨ r.keyTy = 3 ∨ r.keyTy = 5 ∨ r.keyTy = 7 ∨ r.keyTy = 9
  ne : r.cols ≠ []
  len : ∀ c ∈ r.cols, c.len = r.keyLen
  funcs : r.funcs.length = r.cols.length
  lows : r.lows.length = r.cols.length
  bins : BinsInside r (r.uniq + 1)
  keys : r.keyLen ≤ r.keys.length

theorem Fit.range {r : Req} (h : Fit r) (i : Nat) (hi : i < r.cols.length) :
    ∃ lo hi, r.lows[i]? = some lo ∧ r.highs[i]? = some hi ∧ 0 ≤ lo ∧ lo ≤ hi ∧ hi ≤ r.uniq + 1 ∧ r.uniq + 1 < 2 ^ 63 := by
  have h1 : i < r.lows.length := by rw [h.lows]; exact hi
  have h2 : i < r.highs.length := by rw [h.bins.1]; exact hi
  exact ⟨r.lows[i], r.highs[i], List.getElem?_eq_getElem h1, List.getElem?_eq_getElem h2,
    h.bins.2 i _ _ (List.getElem?_eq_getElem h1) (List.getElem?_eq_getElem h2)⟩

theorem Fit.small {r : Req} (h : Fit r) : 0 ≤ r.uniq + 1 ∧ r.uniq + 1 < 2 ^ 63 := by
  obtain ⟨lo, hi, _, _, a, b, c, d⟩ := h.range 0 (List.length_pos_iff.mpr h.ne)
  exact ⟨by omega, d⟩

/-- The result array of a column of a request. -/
def ResultOf (r : Req) (i : Nat) (c : Col) (o : Out) : Prop :=
  npy o.ty = resultItems (funcOf (r.funcs.getD i 0)) c.ty ∧ o.items = r.uniq + 1 ∧ (npy o.ty).map (·.2) = some o.item

theorem fits_size {t : CT} {ty : Nat} (h : fits t ty = true) : (npy ty).map (·.2) = some t.size := by
  simp only [fits, Bool.or_eq_true, beq_iff_eq, Bool.and_eq_true] at h
  rcases h with h | ⟨h, h'⟩
  · rw [h]; rfl
  · subst h; subst h'; rfl

theorem resultOf_two {r : Req} {i : Nat} {c : Col} {f : Two} (h : twoFunc (funcOf (r.funcs.getD i 0)) c.ty = some f) :
    ResultOf r i c ⟨f.out, freshItem f.out, r.uniq + 1⟩ := by
  obtain ⟨_, hu, hs⟩ := column_function_types h
  exact ⟨column_result_type h, rfl, by rw [fits_size hu, hs]⟩

theorem plain32_ok {r : Req} (h : Fit r)
    (hf : ∀ (i : Nat) (c : Col), r.cols[i]? = some c → (twoFunc (funcOf (r.funcs.getD i 0)) c.ty).isSome = true) :
    ∃ jobs : List Job, plain32 r (r.uniq + 1) = .done (jobs.map (Job.result (r.uniq + 1))) ∧ jobs.length = r.cols.length ∧
      ∀ (k : Nat) (c : Col) (j : Job), r.cols[k]? = some c → jobs[k]? = some j → JobOk r k c j := by
  obtain ⟨jobs, e, hlen, hj⟩ := prepareAll_ok (r := r) (n := r.uniq + 1) h.small.2 r.cols 0 (fun k c hc => by
    have hk : k < r.cols.length := by
      rw [List.getElem?_eq_some_iff] at hc; exact hc.1
    obtain ⟨lo, hi, a, b, c1, c2, c3, _⟩ := h.range k hk
    simp only [Nat.zero_add]
    exact ⟨hf k c hc, lo, hi, a, b, c1, c2, c3⟩)
  refine ⟨jobs, ?_, hlen, fun k c j hc hk => by simpa using hj k c j hc hk⟩
  rw [plain32, e]
  simp only [runAll]
  rw [if_pos]
  rw [List.all_eq_true]
  intro j hjm
  obtain ⟨k, hk⟩ := List.getElem?_of_mem hjm
  have hkl : k < r.cols.length := by
    rw [← hlen]; rw [List.getElem?_eq_some_iff] at hk; exact hk.1
  have hc : r.cols[k]? = some r.cols[k] := List.getElem?_eq_getElem hkl
  obtain ⟨_, hjl, hlo, hhi⟩ := hj k _ j hc hk
  simp only [Nat.zero_add] at hlo hhi
  obtain ⟨a, b, c, _⟩ := h.bins.2 k _ _ hlo hhi
  exact inside_of _ (by rw [hjl, h.len _ (List.getElem_mem hkl)]; exact h.keys) a b c

theorem all32_eq_plain_or {r : Req} (h : Fit r) (work : Bool) (c : Col) (cs : List Col) (hc : r.cols = c :: cs) :
    all32 work r = plain32 r (r.uniq + 1) ∨
      (cs = [] ∧ ∃ f lo hi, twoFunc (funcOf (r.funcs.getD 0 0)) c.ty = some f ∧ scatterable (funcOf (r.funcs.getD 0 0)) = true ∧
        r.lows[0]? = some lo ∧ r.highs[0]? = some hi ∧
        all32 work r = scatterRun r (r.uniq + 1) lo hi (funcOf (r.funcs.getD 0 0)) f) := by
  have hlen : c.len = r.keyLen := h.len c (by rw [hc]; simp)
  have hall : cs.all (fun d => d.len == c.len) = true := by
    rw [List.all_eq_true]; intro d hd
    rw [h.len d (by rw [hc]; simp [hd]), hlen]; simp
  obtain ⟨lo, hi, hl, hh, h0, h1, h2, h3⟩ := h.range 0 (List.length_pos_iff.mpr h.ne)
  have hk : ¬ (r.keyTy ≠ 1 ∧ r.keyTy ≠ 3 ∧ r.keyTy ≠ 5 ∧ r.keyTy ≠ 7 ∧ r.keyTy ≠ 9) := by
    have := h.key; omega
  have hfl : ¬ (r.cols.length ≠ r.funcs.length) := by rw [h.funcs]; simp
  have hll : ¬ (r.cols.length ≠ r.lows.length) := by rw [h.lows]; simp
  have hg : r.lows.getD 0 0 = lo := by simp [List.getD, hl]
  have e : all32 work r = if (r.uniq + 1) * 10 < r.keyLen ∧ cs = [] then
        match r.highs[0]? with
        | none => .undef
        | some h =>
          match twoFunc (funcOf (r.funcs.getD 0 0)) c.ty with
          | none => plain32 r (r.uniq + 1)
          | some f =>
            if scatterable (funcOf (r.funcs.getD 0 0)) && work then
              scatterRun r (r.uniq + 1) (asI64 (r.lows.getD 0 0)) (asI64 h) (funcOf (r.funcs.getD 0 0)) f
            else plain32 r (r.uniq + 1)
      else plain32 r (r.uniq + 1) := by
    rw [all32, if_neg (by simp [h.dim]), if_neg hk]
    rw [hc] at hfl hll ⊢
    rw [hlen] at hall
    simp only [hall, Bool.not_true, Bool.false_eq_true, if_false, if_neg hfl, if_neg hll, hlen, ne_eq, not_true_eq_false]
    rfl
  rw [e]
  split
  · rename_i hcond
    rw [hh]
    simp only
    cases hf : twoFunc (funcOf (r.funcs.getD 0 0)) c.ty with
    | none => exact Or.inl rfl
    | some f =>
      simp only
      split
      · rename_i hs
        rw [Bool.and_eq_true] at hs
        refine Or.inr ⟨hcond.2, f, lo, hi, rfl, hs.1, hl, rfl, ?_⟩
        rw [hg, asI64_id h0 (by omega), asI64_id (by omega : 0 ≤ hi) (by omega)]
      · exact Or.inl rfl
  · exact Or.inl rfl

/-- A request which passes the checks, with a function for each column, gives a result for each column: of the type of the
documentation, with one item for each bin; and the same types whether threads divide the rows or not. -/
theorem columns_are_calculated (r : Req) (h : Fit r)
    (hf : ∀ (i : Nat) (c : Col), r.cols[i]? = some c → (twoFunc (funcOf (r.funcs.getD i 0)) c.ty).isSome = true) :
    ∃ outs, (∀ work, all32 work r = .done outs) ∧ outs.length = r.cols.length ∧
      ∀ (i : Nat) (c : Col) (o : Out), r.cols[i]? = some c → outs[i]? = some o → ResultOf r i c o := by
  obtain ⟨jobs, e, hlen, hj⟩ := plain32_ok h hf
  refine ⟨jobs.map (Job.result (r.uniq + 1)), ?_, by simp [hlen], ?_⟩
  · intro work
    cases hc : r.cols with
    | nil => exact absurd hc h.ne
    | cons c cs =>
      rcases all32_eq_plain_or h work c cs hc with hp | ⟨hcs, f, lo, hi, hf1, hs, hl, hh, hp⟩
      · rw [hp, e]
      · rw [hp]
        subst hcs
        have hl1 : jobs.length = 1 := by rw [hlen, hc]; rfl
        obtain ⟨j, rfl⟩ := List.length_eq_one_iff.mp hl1
        have := hj 0 c j (by rw [hc]; rfl) rfl
        have hjf : j.f = f := by
          have := this.1
          rw [hf1] at this
          exact (Option.some.inj this).symm
        obtain ⟨a, b, c1, c2⟩ := h.bins.2 0 lo hi hl hh
        obtain ⟨g, hg, _⟩ := gather_matches hf1 hs
        have hn : ¬ (r.uniq + 1 < 0) := by omega
        have ht : ¬ (((f.tmp.isSome && decide (hi < lo)) || !f.inside r.keys r.keyLen lo hi (r.uniq + 1) ||
            !within lo hi (r.uniq + 1)) = true) := by
          rw [inside_of f h.keys a b c1, within_of a c1, decide_eq_false (by omega)]
          simp
        rw [scatterRun, if_neg hn, if_neg ht, hg]
        simp [Job.result, hjf]
  · intro i c o hc ho
    rw [List.getElem?_map] at ho
    cases hji : jobs[i]? with
    | none => rw [hji] at ho; cases ho
    | some j =>
      rw [hji] at ho
      simp only [Option.map_some, Option.some.injEq] at ho
      subst ho
      exact resultOf_two (hj i c j hc hji).1

/-- Two columns, a sum of uint16 and a mean of float32, with three bins. -/
def exampleReq : Req where
  cols := [⟨4, 2, 4, false⟩, ⟨11, 4, 4, false⟩]
  keyTy := 1
  keyLen := 4
  keys := [1, 2, 0, 1]
  uniq := 2
  funcs := [0, 1]
  lows := [1, 0]
  highs := [3, 3]

theorem exampleReq_fit : Fit exampleReq where
  dim := rfl
  key := Or.inl rfl
  ne := by decide
  len := by decide
  funcs := rfl
  lows := rfl
  bins := by
    refine ⟨rfl, fun i lo hi h1 h2 => ?_⟩
    match i with
    | 0 => simp [exampleReq] at h1 h2; subst h1; subst h2; decide
    | 1 => simp [exampleReq] at h1 h2; subst h1; subst h2; decide
    | k + 2 => simp [exampleReq] at h1
  keys := by decide

example : ∃ outs, (∀ work, all32 work exampleReq = .done outs) ∧ outs.length = 2 ∧
    ∀ (i : Nat) (c : Col) (o : Out), exampleReq.cols[i]? = some c → outs[i]? = some o → ResultOf exampleReq i c o :=
  columns_are_calculated exampleReq exampleReq_fit (fun i c hc => by
    match i with
    | 0 => simp [exampleReq] at hc; subst hc; decide
    | 1 => simp [exampleReq] at hc; subst hc; decide
    | k + 2 => simp [exampleReq] at hc)
example : all32 true exampleReq = .done [⟨8, 8, 3⟩, ⟨11, 4, 3⟩] := by decide +kernel

theorem prepareAll_err {r : Req} {n : Int} (hn : n < 2 ^ 63) : ∀ (cs : List Col) (i k : Nat) (c : Col), cs[k]? = some c →
    twoFunc (funcOf (r.funcs.getD (i + k) 0)) c.ty = none →
    (∀ (m : Nat) (d : Col), cs[m]? = some d → (m < k → (twoFunc (funcOf (r.funcs.getD (i + m) 0)) d.ty).isSome = true) ∧
      ∃ lo hi, r.lows[i + m]? = some lo ∧ r.highs[i + m]? = some hi ∧ 0 ≤ lo ∧ lo ≤ hi ∧ hi ≤ n) →
    prepareAll r n i cs = .error (.err .noFunction (i + k))
  | [], i, k, c, h, _, _ => by simp at h
  | d :: cs, i, 0, c, h, hf, hall => by
    simp only [List.getElem?_cons_zero, Option.some.injEq] at h
    subst h
    obtain ⟨_, lo, hi, hl, hh, _⟩ := hall 0 d rfl
    rw [Nat.add_zero] at *
    rw [prepareAll, prepare, hh]
    simp only [hf]
  | d :: cs, i, k + 1, c, h, hf, hall => by
    obtain ⟨hf0, lo, hi, hl, hh, h0, h1, h2⟩ := hall 0 d rfl
    obtain ⟨f, hf0⟩ := Option.isSome_iff_exists.mp (hf0 (by omega))
    rw [prepareAll, prepare_ok (i := i) (f := f) hl hh h0 h1 h2 hn hf0]
    have := prepareAll_err hn cs (i + 1) k c (by simpa using h)
      (by rw [show i + 1 + k = i + (k + 1) by omega]; exact hf)
      (fun m e he => by
        have := hall (m + 1) e (by simpa using he)
        rw [show i + (m + 1) = i + 1 + m by omega] at this
        exact ⟨fun hm => this.1 (by omega), this.2⟩)
    simp only [this]
    rw [show i + 1 + k = i + (k + 1) by omega]

/-- If column `k` is the first one without a function an exception is raised, and the results of the `k` columns before it are
never released. -/
theorem missing_function_loses_arrays (r : Req) (h : Fit r) (work : Bool) (k : Nat) (c : Col) (hc : r.cols[k]? = some c)
    (hf : twoFunc (funcOf (r.funcs.getD k 0)) c.ty = none)
    (hb : ∀ (m : Nat) (d : Col), r.cols[m]? = some d → m < k → (twoFunc (funcOf (r.funcs.getD m 0)) d.ty).isSome = true) :
    all32 work r = .err .noFunction k := by
  have hp : plain32 r (r.uniq + 1) = .err .noFunction k := by
    rw [plain32, prepareAll_err h.small.2 r.cols 0 k c hc (by simpa using hf)]
    · simp
    · intro m d hd
      have hm : m < r.cols.length := by rw [List.getElem?_eq_some_iff] at hd; exact hd.1
      obtain ⟨lo, hi, a, b, c1, c2, c3, _⟩ := h.range m hm
      simp only [Nat.zero_add]
      exact ⟨fun hmk => hb m d hd hmk, lo, hi, a, b, c1, c2, c3⟩
  cases hcols : r.cols with
  | nil => exact absurd hcols h.ne
  | cons e es =>
    rcases all32_eq_plain_or h work e es hcols with h1 | ⟨hes, f, _, _, hf1, _⟩
    · rw [h1, hp]
    · subst hes
      rw [hcols] at hc
      cases k with
      | zero =>
        simp only [List.getElem?_cons_zero, Option.some.injEq] at hc
        subst hc
        rw [hf] at hf1; cases hf1
      | succ k => simp at hc

example : all32 false { exampleReq with cols := [⟨4, 2, 4, false⟩, ⟨18, 5, 4, false⟩] } = .err .noFunction 1 := by decide +kernel

/-! ## What is not checked -/

/-- `numpy`'s reversed view of four keys: its memory ends with its first item. -/
def reversedKeys : Req := { exampleReq with keys := seenKeys [1, 2, 0, 1] 3 }

/-- A view which takes every second of six items: the keys of its rows are 1 and 1 and 1, but 1, 2 and 1 are read. -/
theorem distant_keys_are_not_read : ((List.range 3).map fun i => [1, 2, 1, 2, 1, 2].getD (0 + 2 * i) (0 : Int)) = [1, 1, 1] ∧
    (seenKeys [1, 2, 1, 2, 1, 2] 0).take 3 = [1, 2, 1] := by decide +kernel

/-- Calls which pass the checks and access memory outside of the arrays: a list of upper bins which is too short, no column at all,
keys in the reverse order, bins above and below the result, and a negative range of a sum. -/
theorem unchecked_arguments (work : Bool) :
    all32 work { exampleReq with highs := [3] } = .undef ∧
    all32 work { exampleReq with cols := [], funcs := [], lows := [] } = .undef ∧
    all32 work reversedKeys = .undef ∧
    all32 work { exampleReq with highs := [3, 4] } = .undef ∧
    all32 work { exampleReq with lows := [-1, 0] } = .undef ∧
    all32 work { exampleReq with lows := [3, 0], highs := [1, 3] } = .undef := by
  cases work <;> decide +kernel

/-- A negative range of bins of a float32 mean: two missing bins write outside of the memory of the temporary array, three are an
exception for want of memory. -/
theorem negative_range_of_float32 (work : Bool) :
    all32 work { exampleReq with lows := [1, 2], highs := [3, 0] } = .undef ∧
    all32 work { exampleReq with lows := [1, 3], highs := [3, 0] } = .err .memory 2 := by
  cases work <;> decide +kernel

/-- Function numbers are cut to 32 bits: numbers which differ by 2 ^ 32 are the same function. -/
theorem function_numbers_are_cut (v : Int) (h0 : -2 ^ 63 ≤ v) (h1 : v + 2 ^ 32 < 2 ^ 63) : funcOf (v + 2 ^ 32) = funcOf v := by
  have a : asI64 (v + 2 ^ 32) = v + 2 ^ 32 := by rw [asI64, if_pos ⟨by omega, h1⟩]
  have b : asI64 v = v := by rw [asI64, if_pos ⟨h0, by omega⟩]
  rw [funcOf, funcOf, a, b]
  have : ((2 : Int) ^ 32) = ((2 ^ 32 : Nat) : Int) := by decide
  rw [this, Int.add_bmod_right]

example : funcOf 4294967396 = 100 := function_numbers_are_cut 100 (by decide) (by decide)

end Riptide.GroupBy.Entry
