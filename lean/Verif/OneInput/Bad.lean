import Verif.OneInput.Props
/-! C138: where `process_one_input` goes wrong. -/
namespace Riptide.OneInput
open Riptide.Unary Riptide.Binary Riptide.OneInput.Spec

/-- C138: a function without an implementation: the exception leaves the library. -/
theorem unknown_function_throws (sq : FT → Nat → Nat) {fn : Nat} (h : fn ∉ valueFns ++ testFns) (ty : Nat) (a : Lay) (read : Int → Int)
    (given : Option (Nat × Lay)) : call sq fn ty a read given = .throws := by
  simp [valueFns, testFns] at h
  have : opOf fn = none := by unfold opOf; simp [h]
  unfold call
  rw [this]

/-- C138: so do other types than numbers and texts, among them `bool` (0) and `long double` (13). -/
theorem unknown_type_throws (sq : FT → Nat → Nat) (fn : Nat) {ty : Nat} (h : ty = 0 ∨ (12 < ty ∧ ty ≠ 18 ∧ ty ≠ 19)) (a : Lay) (read : Int → Int)
    (given : Option (Nat × Lay)) : call sq fn ty a read given = .throws := by
  have : tyOf ty = none := by
    unfold tyOf
    split <;> first | rfl | omega
  unfold call
  rw [this]
  cases opOf fn <;> rfl

theorem op_known {fn : Nat} (h : fn ∈ valueFns ++ testFns) : ∃ op, opOf fn = some op := by
  simp only [valueFns, testFns, List.cons_append, List.nil_append, List.mem_cons, List.not_mem_nil, or_false] at h
  rcases h with rfl | rfl | rfl | rfl | rfl | rfl | rfl | rfl | rfl | rfl | rfl | rfl <;> exact ⟨_, rfl⟩

/-- C138: a walk over texts never ends. -/
theorem text_never_ends (sq : FT → Nat → Nat) {fn ty : Nat} (hfn : fn ∈ valueFns ++ testFns) (hty : ty = 18 ∨ ty = 19) {a : Lay} (h0 : (contig a).1 = 0)
    (hn : a.len ≠ 0) (read : Int → Int) : call sq fn ty a read none = .never := by
  obtain ⟨op, hop⟩ := op_known hfn
  have : tyOf ty = some .text := by rcases hty with rfl | rfl <;> rfl
  unfold call
  simp only [hop, this, h0, and_self, if_true, kernOf, walkAll, if_pos (Nat.pos_of_ne_zero hn), settle]

/-- A store outside of the items. -/
theorem settle_bad {k : Kern} {read : Int → Int} {inner os so' : Int} {n item len : Nat} {so : Int} {out : List (Option Int) → Out} (hs : 0 < k.size)
    (hs32 : k.size ≤ 32) (hn : n ≠ 0)
    (hout : ∃ b : Nat, b < k.size ∧ inItems so item len (((n - 1 : Nat) : Int) * inner * so' + b) = false) :
    settle (walkAll (some k) read inner os so' n) k.size item len so out = .bad := by
  unfold walkAll
  cases hw : walk k read inner os so' n n 0 with
  | none => simp [settle, hw]
  | some ws =>
    obtain ⟨v, hv⟩ := walk_last k hs hs32 read inner os so' n n 0 ws (by omega) (by omega) hw
    obtain ⟨b, hb, hi⟩ := hout
    simp only [settle, hw]
    rw [if_neg]
    intro h
    rw [List.all_eq_true] at h
    have hm : (((n - 1 : Nat) : Int) * inner * so' + b, v, b) ∈ cells k.size ws := by
      rw [mem_cells]
      refine ⟨hb, ?_⟩
      have : ((n - 1 : Nat) : Int) * inner * so' + b - b = ((n - 1 : Nat) : Int) * inner * so' := by omega
      rw [this]; exact hv
    have := h _ hm
    simp only [hi] at this
    exact absurd this (by decide)

/-- The kernel of a known function for a type of numbers. -/
theorem kern_known (sq : FT → Nat → Nat) {ty : Nat} (hty : Number ty) (op : Op) :
    ∃ t k, tyOf ty = some t ∧ kernOf sq op t = some k ∧ 0 < k.size ∧ k.size ≤ 32 ∧ k.size = bytesOf ty := by
  obtain ⟨h1, h2⟩ := hty
  have hI : ∀ t, tyOf ty = some (.int t) → 0 < t.bits / 8 → t.bits / 8 ≤ 32 → t.bits / 8 = bytesOf ty →
      ∃ t k, tyOf ty = some t ∧ kernOf sq op t = some k ∧ 0 < k.size ∧ k.size ≤ 32 ∧ k.size = bytesOf ty := fun t a b c d =>
    ⟨_, kernI sq t op, a, rfl, by rw [kernI_size]; exact b, by rw [kernI_size]; exact c, by rw [kernI_size]; exact d⟩
  have hF : ∀ f, tyOf ty = some (.flt f) → 0 < (1 + f.eb + f.mb) / 8 → (1 + f.eb + f.mb) / 8 ≤ 32 → (1 + f.eb + f.mb) / 8 = bytesOf ty →
      ∃ t k, tyOf ty = some t ∧ kernOf sq op t = some k ∧ 0 < k.size ∧ k.size ≤ 32 ∧ k.size = bytesOf ty := fun t a b c d =>
    ⟨_, kernF sq t op, a, rfl, by rw [kernF_size]; exact b, by rw [kernF_size]; exact c, by rw [kernF_size]; exact d⟩
  have : ty = 1 ∨ ty = 2 ∨ ty = 3 ∨ ty = 4 ∨ ty = 5 ∨ ty = 6 ∨ ty = 7 ∨ ty = 8 ∨ ty = 9 ∨ ty = 10 ∨ ty = 11 ∨ ty = 12 := by omega
  rcases this with rfl | rfl | rfl | rfl | rfl | rfl | rfl | rfl | rfl | rfl | rfl | rfl
  · exact hI _ rfl (by decide) (by decide) rfl
  · exact hI _ rfl (by decide) (by decide) rfl
  · exact hI _ rfl (by decide) (by decide) rfl
  · exact hI _ rfl (by decide) (by decide) rfl
  · exact hI _ rfl (by decide) (by decide) rfl
  · exact hI _ rfl (by decide) (by decide) rfl
  · exact hI _ rfl (by decide) (by decide) rfl
  · exact hI _ rfl (by decide) (by decide) rfl
  · exact hI _ rfl (by decide) (by decide) rfl
  · exact hI _ rfl (by decide) (by decide) rfl
  · exact hF _ rfl (by decide) (by decide) rfl
  · exact hF _ rfl (by decide) (by decide) rfl

theorem value_known {fn : Nat} (hfn : fn ∈ valueFns) : ∃ op, opOf fn = some op ∧ op.value = true := by
  obtain ⟨op, hop⟩ := op_known (List.mem_append_left testFns hfn)
  refine ⟨op, hop, ?_⟩
  simp only [valueFns, List.mem_cons, List.not_mem_nil, or_false] at hfn
  rcases hfn with rfl | rfl | rfl | rfl | rfl | rfl | rfl | rfl <;> (simp [opOf] at hop; subst hop; rfl)

/-- C138: the tests store masks as wide as the items into an array of bytes: for items of more than one byte behind its end. -/
theorem tests_outside (sq : FT → Nat → Nat) {fn ty : Nat} (hfn : fn ∈ testFns) (hty : Number ty)
    (hb : bytesOf ty ≠ 1) {a : Lay} (hsz : a.item = bytesOf ty) (hc : contig a = (0, (a.item : Int))) (hn : a.len ≠ 0) (read : Int → Int) :
    call sq fn ty a read none = .bad := by
  obtain ⟨op, hop⟩ := op_known (List.mem_append_right valueFns hfn)
  have hv : op.value = false := by
    simp only [testFns, List.mem_cons, List.not_mem_nil, or_false] at hfn
    rcases hfn with rfl | rfl | rfl | rfl <;> (simp [opOf] at hop; subst hop; rfl)
  obtain ⟨t, k, h1, h2, h3, h4, h5⟩ := kern_known sq hty op
  unfold call
  simp only [hop, h1, h2, hc, hv, and_self, if_true, kernSize, Bool.false_eq_true, if_false]
  refine settle_bad h3 h4 hn ⟨k.size - 1, by omega, ?_⟩
  rw [Bool.eq_false_iff]
  intro h
  obtain ⟨i, hi, h6, h7⟩ := inItems_iff.1 h
  have h8 : ((a.len - 1 : Nat) : Int) * 1 * a.item ≥ ((a.len - 1 : Nat) : Int) := by
    rw [Int.mul_one]
    calc ((a.len - 1 : Nat) : Int) * a.item ≥ ((a.len - 1 : Nat) : Int) * 1 := Int.mul_le_mul_of_nonneg_left (by omega) (by omega)
      _ = _ := by omega
  omega

/-- C138: the tests of numbers of one byte say `False` for all of them: that they are neither finite nor not finite. -/
theorem tests_false (sq : FT → Nat → Nat) {fn ty : Nat} (hfn : fn ∈ testFns) (hty : ty = 1 ∨ ty = 2) {a : Lay} (hsz : a.item = 1)
    (hc : contig a = (0, (a.item : Int))) (read : Int → Int) : call sq fn ty a read none = .array ((List.range a.len).map fun _ => some 0) := by
  obtain ⟨op, hop⟩ := op_known (List.mem_append_right valueFns hfn)
  obtain ⟨t, ht, hk, hb⟩ : ∃ t : IT, tyOf ty = some (.int t) ∧ kernI sq t op = ⟨1, none, fun _ => some 0⟩ ∧ op.value = false := by
    simp only [testFns, List.mem_cons, List.not_mem_nil, or_false] at hfn
    rcases hty with rfl | rfl
    · refine ⟨.i8, rfl, ?_⟩
      rcases hfn with rfl | rfl | rfl | rfl <;> (simp [opOf] at hop; subst hop; exact ⟨rfl, rfl⟩)
    · refine ⟨.u8, rfl, ?_⟩
      rcases hfn with rfl | rfl | rfl | rfl <;> (simp [opOf] at hop; subst hop; exact ⟨rfl, rfl⟩)
  have hw := walk_contig ⟨1, none, fun _ => some 0⟩ (by decide) (by decide) read a.len (fun _ => 0) (fun i _ => rfl) a.len 0 (by omega) (.inl ⟨0, rfl⟩)
  rw [Nat.sub_zero, ← List.range_eq_range'] at hw
  unfold call
  simp only [hop, ht, kernOf, hk, hc, hb, hsz, and_self, if_true, kernSize, Bool.false_eq_true, if_false, walkAll]
  simp only at hw
  rw [hw]
  exact settle_full (s := 1) (by decide) (fun _ => 0) .array

/-- C138: the output is walked by the distance of the input: more than an item, or backwards, it leaves the new array. -/
theorem stride_outside (sq : FT → Nat → Nat) {fn ty : Nat} (hfn : fn ∈ valueFns) (hty : Number ty)
    {a : Lay} (hsz : a.item = bytesOf ty) (h0 : (contig a).1 = 0) (hst : (contig a).2 < 0 ∨ (a.item : Int) < (contig a).2) (hn : 2 ≤ a.len)
    (read : Int → Int) : call sq fn ty a read none = .bad := by
  obtain ⟨op, hop, hv⟩ := value_known hfn
  obtain ⟨t, k, h1, h2, h3, h4, h5⟩ := kern_known sq hty op
  unfold call
  simp only [hop, h1, h2, h0, hv, and_self, if_true, kernSize]
  generalize (contig a).2 = st at *
  refine settle_bad h3 h4 (by omega) ⟨if st < 0 then 0 else k.size - 1, by split <;> omega, ?_⟩
  rw [Bool.eq_false_iff]
  intro h
  obtain ⟨i, hi, h6, h7⟩ := inItems_iff.1 h
  rw [Int.mul_one] at h6 h7
  rcases hst with hst | hst
  · have h8 : ((a.len - 1 : Nat) : Int) * st ≤ 1 * st := Int.mul_le_mul_of_nonpos_right (by omega) (by omega)
    have h9 : (0 : Int) ≤ (i : Int) * a.item := Int.mul_nonneg (by omega) (by omega)
    rw [if_pos hst] at h6
    omega
  · have h8 : ((a.len - 1 : Nat) : Int) * (a.item + 1) ≤ ((a.len - 1 : Nat) : Int) * st := Int.mul_le_mul_of_nonneg_left (by omega) (by omega)
    have h9 : (i : Int) * a.item ≤ ((a.len - 1 : Nat) : Int) * a.item := Int.mul_le_mul_of_nonneg_right (by omega) (by omega)
    rw [Int.mul_add, Int.mul_one] at h8
    rw [if_neg (by omega)] at h7
    generalize (i : Int) * a.item = q1 at *
    generalize ((a.len - 1 : Nat) : Int) * a.item = q2 at *
    generalize ((a.len - 1 : Nat) : Int) * st = q3 at *
    omega

/-- C138: with an output given, or an input which is not walked by one distance, no array is returned. -/
theorem second_returns_nothing (sq : FT → Nat → Nat) (fn ty : Nat) (a : Lay) (read : Int → Int) (given : Option (Nat × Lay))
    (h : given ≠ none ∨ (contig a).1 ≠ 0) (items : List (Option Int)) : call sq fn ty a read given ≠ .array items := by
  have hset : ∀ (w : Walk) (size item len : Nat) (so : Int) (f : List (Option Int) → List (Option Int)),
      settle w size item len so (fun l => .nothing (f l)) ≠ .array items := by
    intro w size item len so f
    unfold settle
    split
    · simp
    · simp
    · split <;> simp
  have hsec : ∀ (k : Option Kern) (op : Op), second k op ty a read given ≠ .array items := by
    intro k op
    unfold second
    cases given with
    | none =>
      simp only
      generalize newOut a (if op.value = true then a.item else 1) = o
      by_cases h1 : (contig o).1 = 0
      · rw [if_pos h1]; exact hset _ _ _ _ _ (fun _ => [])
      · rw [if_neg h1]; simp
    | some g =>
      obtain ⟨gt, o⟩ := g
      simp only
      generalize (if op.value = true then ty else 0) = w
      by_cases h0 : gt ≠ w ∨ a.len ≠ o.len
      · rw [if_pos h0]; simp
      · rw [if_neg h0]
        by_cases h1 : (contig o).1 = 0
        · rw [if_pos h1]; exact hset _ _ _ _ _ id
        · rw [if_neg h1]; simp
  unfold call
  cases opOf fn with
  | none => simp
  | some op =>
    cases tyOf ty with
    | none => simp
    | some t =>
      simp only
      rw [if_neg (by rintro ⟨h1, h2⟩; rcases h with h | h <;> contradiction)]
      exact hsec _ _

/-- C138: a given output of one dimension is filled if all items of both arrays are side by side (and `None` is returned). The full statement is
about all shapes and distances; see `given_two_dims` and `given_strided`. -/
theorem given_output_partial {sq : FT → Nat → Nat} {fn ty : Nat} (hfn : fn ∈ valueFns) (hty : Number ty) {a o : Lay} {read : Int → Int}
    (hsz : a.item = bytesOf ty) (hso : o.item = bytesOf ty) (hd : a.dims.length = 1) (hc : contig a = (0, (a.item : Int)))
    (hco : contig o = (0, (o.item : Int))) (hlen : o.len = a.len) {ys : List (Option Int)} (hnew : call sq fn ty a read none = .array ys) :
    call sq fn ty a read (some (ty, o)) = .nothing ys := by
  obtain ⟨op, hop, hval⟩ := value_known hfn
  obtain ⟨t, k, hty, hk, -, -, h5⟩ := kern_known sq hty op
  rw [← h5] at hsz hso
  unfold call at hnew ⊢
  simp only [hop, hty, hk, hc, hval, and_self, if_true, kernSize, reduceCtorEq, and_false, if_false, second, ne_eq, not_true, hlen, or_self, hco,
    walkGiven, hd, hsz, hso] at hnew ⊢
  have h1 : ((1 : Nat) : Int) = 1 := rfl
  rw [h1]
  revert hnew
  unfold settle
  split
  · simp
  · simp
  · split
    · simp
    · simp

/-- C138: a given output of the wanted type for an input of two or more dimensions: written far behind its end. -/
theorem given_two_dims (sq : FT → Nat → Nat) {fn ty : Nat} (hfn : fn ∈ valueFns) (hty : Number ty)
    {a o : Lay} (hso : o.item = bytesOf ty) (h0 : (contig a).1 = 0) (hco : contig o = (0, (o.item : Int)))
    (hd : 2 ≤ a.dims.length) (hlen : o.len = a.len) (hn : 2 ≤ a.len) (read : Int → Int) : call sq fn ty a read (some (ty, o)) = .bad := by
  obtain ⟨op, hop, hv⟩ := value_known hfn
  obtain ⟨t, k, h1, h2, h3, h4, h5⟩ := kern_known sq hty op
  unfold call
  simp only [hop, h1, h2, hv, if_true, kernSize, reduceCtorEq, and_false, if_false, second, ne_eq, not_true, hlen, or_self, hco, walkGiven, h0]
  refine settle_bad h3 h4 (by omega) ⟨0, by omega, ?_⟩
  rw [Bool.eq_false_iff]
  intro h
  obtain ⟨i, hi, h6, h7⟩ := inItems_iff.1 h
  have h8 : (a.len : Int) ≤ ((a.len - 1 : Nat) : Int) * (a.dims.length : Int) := by
    have : ((a.len - 1 : Nat) : Int) * 2 ≤ ((a.len - 1 : Nat) : Int) * (a.dims.length : Int) := Int.mul_le_mul_of_nonneg_left (by omega) (by omega)
    omega
  have h9 : (a.len : Int) * o.item ≤ ((a.len - 1 : Nat) : Int) * (a.dims.length : Int) * o.item := Int.mul_le_mul_of_nonneg_right h8 (by omega)
  have h10 : ((i + 1 : Nat) : Int) * o.item ≤ (a.len : Int) * o.item := Int.mul_le_mul_of_nonneg_right (by omega) (by omega)
  push_cast at h10
  rw [Int.add_mul, Int.one_mul] at h10
  generalize ((a.len - 1 : Nat) : Int) * (a.dims.length : Int) * o.item = q1 at *
  generalize (a.len : Int) * o.item = q2 at *
  generalize (i : Int) * o.item = q3 at *
  omega

/-- C138: columns apart from each other (`direction` -1) and an output given: written behind its end. -/
theorem columns_outside (sq : FT → Nat → Nat) {fn ty : Nat} (hfn : fn ∈ valueFns) (hty : Number ty)
    {a o : Lay} (hso : o.item = bytesOf ty) (h0 : (contig a).1 = -1) (hco : contig o = (0, (o.item : Int)))
    {r c : Nat} (hd : a.dims = [r, c]) (hc : 2 ≤ c) (hlen : o.len = a.len) (read : Int → Int) :
    call sq fn ty a read (some (ty, o)) = .bad := by
  obtain ⟨op, hop, hv⟩ := value_known hfn
  obtain ⟨t, k, h1, h2, h3, h4, h5⟩ := kern_known sq hty op
  have hl : a.len = r * c := by simp [Lay.len, hd, prod]
  have hn1 : ¬ ((-1 : Int) = 0) := by decide
  have hn2 : ¬ ((-1 : Int) = 1) := by decide
  have d0 : dim a 0 = r := by simp [dim, hd]
  have d1 : dim a 1 = c := by simp [dim, hd]
  have d2 : a.dims.length - 1 = 1 := by simp [hd]
  unfold call
  simp only [hop, h1, h2, hv, if_true, kernSize, reduceCtorEq, and_false, if_false, second, ne_eq, not_true, hlen, or_self, hco, walkGiven, h0, hn1, hn2,
    d2, d0, d1]
  refine settle_bad h3 h4 (by omega) ⟨0, by omega, ?_⟩
  rw [Bool.eq_false_iff]
  intro h
  obtain ⟨i, hi, h6, h7⟩ := inItems_iff.1 h
  have h8 : (a.len : Int) ≤ ((c - 1 : Nat) : Int) * ((r : Int) * (c : Int)) := by
    have : (1 : Int) * ((r : Int) * (c : Int)) ≤ ((c - 1 : Nat) : Int) * ((r : Int) * (c : Int)) :=
      Int.mul_le_mul_of_nonneg_right (by omega) (by exact_mod_cast Nat.zero_le (r * c))
    rw [hl]; push_cast; omega
  have h9 : (a.len : Int) * o.item ≤ ((c - 1 : Nat) : Int) * ((r : Int) * (c : Int)) * o.item := Int.mul_le_mul_of_nonneg_right h8 (by omega)
  have h10 : ((i + 1 : Nat) : Int) * o.item ≤ (a.len : Int) * o.item := Int.mul_le_mul_of_nonneg_right (by omega) (by omega)
  push_cast at h10
  rw [Int.add_mul, Int.one_mul] at h10
  generalize ((c - 1 : Nat) : Int) * ((r : Int) * (c : Int)) * o.item = q1 at *
  generalize (a.len : Int) * o.item = q2 at *
  generalize (i : Int) * o.item = q3 at *
  omega

/-- C138: rows apart from each other (`direction` 1), output given: of every row only the first item is computed. -/
theorem rows_first_only {sq : FT → Nat → Nat} {fn ty : Nat} {op : Op} {t : Ty} {k : Kern} {a o : Lay} {read : Int → Int} (hop : opOf fn = some op)
    (hval : op.value = true) (hty : tyOf ty = some t) (hk : kernOf sq op t = some k) (hs : 0 < k.size)
    (hso : o.item = k.size) (h1 : (contig a).1 = 1) (hst : str a 0 ≠ (k.size : Int)) (hco : contig o = (0, (o.item : Int)))
    {rows cols : Nat} (hrow : dim a 0 = rows) (hcol : prod (a.dims.drop 1) = cols) (hpos : 0 < cols) (hlen : a.len = rows * cols) (hleno : o.len = a.len)
    {v : Nat → Int} (hv : ∀ j : Nat, j < rows → k.scalar (read ((j : Int) * str a 0)) = some (v j)) :
    call sq fn ty a read (some (ty, o)) =
      .nothing ((List.range (rows * cols)).map fun i => if i % cols = 0 then some (v (i / cols)) else none) := by
  have hw := walk_single k read (cols : Int) (str a 0) (k.size : Int) hst rows v hv rows 0 (by omega)
  rw [Nat.sub_zero, ← List.range_eq_range'] at hw
  have h1' : ¬ ((1 : Int) = 0) := by decide
  unfold call
  simp only [hop, hty, hk, hval, if_true, kernSize, reduceCtorEq, and_false, if_false, second, ne_eq, not_true, hleno, hlen, or_self, hco, walkGiven,
    h1, h1', hso, hrow, hcol, walkAll, hw, settle]
  have he : ((List.range rows).map fun (i : Nat) => ((i : Int) * (cols : Int) * (k.size : Int), v i)) =
      (List.range rows).map fun (j : Nat) => (((j * cols : Nat) : Int) * (k.size : Int), v j) := by
    apply List.map_congr_left
    intro j _
    push_cast
    rfl
  rw [he, if_pos]
  · congr 1
    apply List.map_congr_left
    intro i hi
    rw [List.mem_range] at hi
    rw [itemAt_spread hs hpos]
    have : i / cols < rows := (Nat.div_lt_iff_lt_mul hpos).2 hi
    simp [this]
  · rw [List.all_eq_true]
    rintro ⟨p, v', b⟩ hc
    obtain ⟨hb, hm⟩ := mem_cells.1 hc
    rw [List.mem_map] at hm
    obtain ⟨j, hj, hje⟩ := hm
    rw [List.mem_range] at hj
    simp only [Prod.mk.injEq] at hje
    refine inItems_iff.2 ⟨j * cols, Nat.mul_lt_mul_of_pos_right hj hpos, ?_, ?_⟩ <;> simp only <;> omega

end Riptide.OneInput
