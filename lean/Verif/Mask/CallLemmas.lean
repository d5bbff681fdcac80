import Verif.Mask.Call
import Verif.Mask.CallSpec
import Verif.Unary.StridedProps
/-! Where the items of an array are, and which stride is found for it. -/
namespace Riptide.Mask.Call
open Riptide.Binary Riptide.Unary Riptide.Work Riptide.Mask Riptide.Mask.Call.Spec

theorem inC_length : ∀ (dims : List Nat) (ss : List Int), ss.length = dims.length → (inC dims ss).length = prod dims
  | [], [], _ => rfl
  | d :: ds, s :: ss, h => by
    have ih := inC_length ds ss (by simpa using h)
    rw [inC, prod, List.length_flatMap]
    simp only [List.length_map, ih, List.map_const', List.sum_replicate_nat, List.length_range]
  | [], _ :: _, h => by simp at h
  | _ :: _, [], h => by simp at h

theorem flatMap_get {α β : Type} (f : α → List β) (n : Nat) : ∀ (l : List α) (i j : Nat) (x : α), (∀ y ∈ l, (f y).length = n) → l[i]? = some x → j < n →
    (l.flatMap f)[i * n + j]? = (f x)[j]?
  | [], i, j, x, _, h, _ => by simp at h
  | y :: l, 0, j, x, hl, h, hj => by
    have : y = x := by simpa using h
    subst this
    rw [List.flatMap_cons, Nat.zero_mul, Nat.zero_add, List.getElem?_append_left]
    rw [hl y (List.mem_cons_self ..)]; exact hj
  | y :: l, i + 1, j, x, hl, h, hj => by
    rw [List.flatMap_cons, List.getElem?_append_right]
    · rw [hl y (List.mem_cons_self ..)]
      have : (i + 1) * n + j - n = i * n + j := by rw [Nat.add_mul]; omega
      rw [this]
      exact flatMap_get f n l i j x (fun z hz => hl z (List.mem_cons_of_mem _ hz)) (by simpa using h) hj
    · rw [hl y (List.mem_cons_self ..), Nat.add_mul]; omega

/-- The item at the index `idx` has the number `cPos` in C order. -/
theorem inC_get : ∀ (idx dims : List Nat) (ss : List Int), ss.length = dims.length → InBounds idx dims →
    (inC dims ss)[cPos idx dims]? = some (offs idx ss)
  | [], [], [], _, _ => by simp [inC, cPos, offs]
  | i :: is, d :: ds, s :: ss, h, hb => by
    have hl : ss.length = ds.length := by simpa using h
    have ih := inC_get is ds ss hl hb.2
    rw [inC, cPos, offs, flatMap_get _ (prod ds) _ i (cPos is ds) i (by simp [inC_length ds ss hl]) (by simp [hb.1]) (cPos_lt _ _ hb.2)]
    rw [List.getElem?_map, ih]; rfl
  | [], _ :: _, _, _, hb => hb.elim
  | _ :: _, [], _, _, hb => hb.elim
  | [], [], _ :: _, h, _ => by simp at h
  | _ :: _, _ :: _, [], h, _ => by simp at h

theorem inF_length : ∀ (dims : List Nat) (ss : List Int), ss.length = dims.length → (inF dims ss).length = prod dims
  | [], [], _ => rfl
  | d :: ds, s :: ss, h => by
    have ih := inF_length ds ss (by simpa using h)
    rw [inF, prod, List.length_flatMap]
    simp only [List.length_map, ih, List.map_const', List.sum_replicate_nat, List.length_range, Nat.mul_comm]
  | [], _ :: _, h => by simp at h
  | _ :: _, [], h => by simp at h

/-- The item at the index `idx` has the number `fPos` in Fortran order. -/
theorem inF_get : ∀ (idx dims : List Nat) (ss : List Int), ss.length = dims.length → InBounds idx dims →
    (inF dims ss)[fPos idx dims]? = some (offs idx ss)
  | [], [], [], _, _ => by simp [inF, fPos, offs]
  | i :: is, d :: ds, s :: ss, h, hb => by
    have hl : ss.length = ds.length := by simpa using h
    have ih := inF_get is ds ss hl hb.2
    have e : fPos (i :: is) (d :: ds) = fPos is ds * d + i := by rw [fPos, Nat.mul_comm, Nat.add_comm]
    rw [inF, e, offs, flatMap_get _ d _ (fPos is ds) i _ (by simp) ih hb.1]
    simp [hb.1]
  | [], _ :: _, _, _, hb => hb.elim
  | _ :: _, [], _, _, hb => hb.elim
  | [], [], _ :: _, h, _ => by simp at h
  | _ :: _, _ :: _, [], h, _ => by simp at h

theorem flatMap_nil_right {α β : Type} : ∀ l : List α, (l.flatMap fun _ => ([] : List β)) = []
  | [] => rfl
  | _ :: l => by rw [List.flatMap_cons, flatMap_nil_right l]; rfl

theorem flatMap_append_perm {α β : Type} (f g : α → List β) : ∀ l : List α, (l.flatMap fun x => f x ++ g x).Perm (l.flatMap f ++ l.flatMap g)
  | [] => .refl _
  | x :: l => by
    rw [List.flatMap_cons, List.flatMap_cons, List.flatMap_cons]
    have := flatMap_append_perm f g l
    refine (List.Perm.append_left (f x ++ g x) this).trans ?_
    rw [List.append_assoc, List.append_assoc]
    apply List.Perm.append_left
    rw [← List.append_assoc, ← List.append_assoc]
    exact List.Perm.append_right _ List.perm_append_comm

theorem flatMap_single {α β : Type} (f : α → β) : ∀ l : List α, (l.flatMap fun y => [f y]) = l.map f
  | [] => rfl
  | x :: l => by rw [List.flatMap_cons, List.map_cons, flatMap_single f l]; rfl

theorem flatMap_swap {α β γ : Type} (f : α → β → γ) : ∀ (l : List α) (k : List β),
    (l.flatMap fun x => k.map fun y => f x y).Perm (k.flatMap fun y => l.map fun x => f x y)
  | [], k => by simp [flatMap_nil_right]
  | x :: l, k => by
    rw [List.flatMap_cons]
    have ih := flatMap_swap f l k
    refine (List.Perm.append_left _ ih).trans ?_
    have := (flatMap_append_perm (fun y => [f x y]) (fun y => l.map fun x => f x y) k).symm
    rw [flatMap_single] at this
    exact this

theorem flatMap_perm_left {α β : Type} (f : α → List β) {l k : List α} (h : l.Perm k) : (l.flatMap f).Perm (k.flatMap f) := by
  induction h with
  | nil => exact .refl _
  | cons x _ ih => rw [List.flatMap_cons, List.flatMap_cons]; exact List.Perm.append_left _ ih
  | swap x y l =>
    simp only [List.flatMap_cons]
    rw [← List.append_assoc, ← List.append_assoc]
    exact List.Perm.append_right _ List.perm_append_comm
  | trans _ _ h1 h2 => exact h1.trans h2

/-- Both orders list the same places. -/
theorem inF_perm : ∀ (dims : List Nat) (ss : List Int), (inF dims ss).Perm (inC dims ss)
  | [], _ => .refl _
  | _ :: _, [] => .refl _
  | d :: ds, s :: ss => by
    rw [inF, inC]
    exact (flatMap_perm_left _ (inF_perm ds ss)).trans (flatMap_swap (fun o (i : Nat) => (i : Int) * s + o) _ _)

/-- An index which is 1 in the dimension `k` and 0 elsewhere. -/
def unit : List Nat → Nat → List Nat
  | [], _ => []
  | _ :: ds, 0 => 1 :: ds.map fun _ => 0
  | _ :: ds, k + 1 => 0 :: unit ds k

theorem zero_in : ∀ dims : List Nat, prod dims ≠ 0 → InBounds (dims.map fun _ => 0) dims
  | [], _ => trivial
  | d :: ds, h => by
    rw [prod] at h
    refine ⟨?_, zero_in ds (fun h0 => h (by rw [h0, Nat.mul_zero]))⟩
    rcases Nat.eq_zero_or_pos d with h0 | h0
    · exact absurd (by rw [h0, Nat.zero_mul]) h
    · exact h0

theorem zero_c : ∀ dims : List Nat, cPos (dims.map fun _ => 0) dims = 0
  | [] => rfl
  | _ :: ds => by rw [List.map_cons, cPos, zero_c ds]; simp
theorem zero_f : ∀ dims : List Nat, fPos (dims.map fun _ => 0) dims = 0
  | [] => rfl
  | _ :: ds => by rw [List.map_cons, fPos, zero_f ds]; simp
theorem zero_offs : ∀ (dims : List Nat) (ss : List Int), offs (dims.map fun _ => 0) ss = 0
  | [], ss => by cases ss <;> rfl
  | _ :: ds, [] => rfl
  | _ :: ds, s :: ss => by rw [List.map_cons, offs, zero_offs ds]; simp

theorem unit_in : ∀ (dims : List Nat) (k : Nat), prod dims ≠ 0 → 1 < dims.getD k 0 → InBounds (unit dims k) dims
  | [], _, _, h => by simp at h
  | d :: ds, 0, h, h1 => ⟨by simpa using h1, zero_in ds (fun h0 => h (by rw [prod, h0, Nat.mul_zero]))⟩
  | d :: ds, k + 1, h, h1 => by
    have h2 : prod ds ≠ 0 := fun h0 => h (by rw [prod, h0, Nat.mul_zero])
    refine ⟨?_, unit_in ds k h2 (by simpa using h1)⟩
    rcases Nat.eq_zero_or_pos d with h0 | h0
    · exact absurd (by rw [prod, h0, Nat.zero_mul]) h
    · exact h0

theorem unit_c : ∀ (dims : List Nat) (k : Nat), k < dims.length → cPos (unit dims k) dims = prod (dims.drop (k + 1))
  | [], _, h => by simp at h
  | d :: ds, 0, _ => by rw [unit, cPos, zero_c]; simp
  | d :: ds, k + 1, h => by rw [unit, cPos, unit_c ds k (by simpa using h)]; simp

theorem unit_f : ∀ (dims : List Nat) (k : Nat), k < dims.length → fPos (unit dims k) dims = prod (dims.take k)
  | [], _, h => by simp at h
  | d :: ds, 0, _ => by rw [unit, fPos, zero_f]; simp [prod]
  | d :: ds, k + 1, h => by rw [unit, fPos, unit_f ds k (by simpa using h), List.take_succ_cons, prod]; simp

theorem unit_offs : ∀ (dims : List Nat) (ss : List Int) (k : Nat), k < dims.length → offs (unit dims k) ss = ss.getD k 0
  | [], _, _, h => by simp at h
  | d :: ds, [], 0, _ => rfl
  | d :: ds, [], k + 1, _ => by rw [unit, offs]; simp; intros; contradiction
  | d :: ds, s :: ss, 0, _ => by rw [unit, offs, zero_offs]; simp
  | d :: ds, s :: ss, k + 1, h => by rw [unit, offs, unit_offs ds ss k (by simpa using h)]; simp

theorem getD_length {dims : List Nat} {k : Nat} (h : 1 < dims.getD k 0) : k < dims.length := by
  rcases Nat.lt_or_ge k dims.length with h1 | h1
  · exact h1
  · simp [List.getD, List.getElem?_eq_none h1] at h

/-- The strides of an array whose items in C order are evenly spaced. -/
theorem even_c {a : Lay} {s : Int} (hw : a.strides.length = a.dims.length) (hl : a.len ≠ 0) (h : Even s (inC a.dims a.strides)) {k : Nat}
    (hk : 1 < dim a k) : str a k = s * prod (a.dims.drop (k + 1)) := by
  have hk' := getD_length hk
  have hb := unit_in a.dims k hl hk
  have g := inC_get _ _ _ hw hb
  rw [h _ (by rw [inC_length _ _ hw]; exact cPos_lt _ _ hb), unit_c _ _ hk', unit_offs _ _ _ hk'] at g
  have := Option.some.inj g
  unfold str
  rw [← this, Int.mul_comm]

/-- The strides of an array whose items in Fortran order are evenly spaced. -/
theorem even_f {a : Lay} {s : Int} (hw : a.strides.length = a.dims.length) (hl : a.len ≠ 0) (h : Even s (inF a.dims a.strides)) {k : Nat}
    (hk : 1 < dim a k) : str a k = s * prod (a.dims.take k) := by
  have hk' := getD_length hk
  have hb := unit_in a.dims k hl hk
  have g := inF_get _ _ _ hw hb
  rw [h _ (by rw [inF_length _ _ hw]; exact fPos_lt _ _ hb), unit_f _ _ hk', unit_offs _ _ _ hk'] at g
  have := Option.some.inj g
  unfold str
  rw [← this, Int.mul_comm]

theorem headD_dim (a : Lay) : a.dims.headD 0 = dim a 0 := by
  unfold dim; cases a.dims <;> rfl
theorem getLastD_dim (a : Lay) : a.dims.getLastD 0 = dim a (a.dims.length - 1) := by
  unfold dim
  rw [List.getLastD_eq_getLast?, List.getLast?_eq_getElem?, List.getD]

theorem natAbs_mul_le (s : Int) {p : Nat} (h : 0 < p) : s.natAbs ≤ (s * p).natAbs := by
  rw [Int.natAbs_mul]
  exact Nat.le_mul_of_pos_right _ (by simpa using h)

theorem natAbs_mul_eq {s : Int} {p : Nat} (h : 0 < p) (hle : (s * p).natAbs ≤ s.natAbs) : s * p = s := by
  rcases Nat.lt_or_ge 1 p with h1 | h1
  · have : s = 0 := by
      rw [Int.natAbs_mul, Int.natAbs_natCast] at hle
      rcases Nat.eq_zero_or_pos s.natAbs with h2 | h2
      · omega
      · have := (Nat.mul_lt_mul_left h2).2 h1
        omega
    simp [this]
  · have : p = 1 := by omega
    simp [this]

theorem head_cases {a : Lay} {s : Int} (he : Ends a s) : (1 < dim a 0 ∧ headStride a = str a 0) ∨ headStride a = s := by
  unfold headStride
  rcases he with he | ⟨he, _⟩
  · split
    · exact .inl ⟨(by rename_i h; exact h.2), rfl⟩
    · exact .inr he.symm
  · rw [headD_dim] at he
    have := getD_length he
    rw [if_pos ⟨this, he⟩]
    exact .inl ⟨he, rfl⟩

theorem last_cases {a : Lay} {s : Int} (he : Ends a s) : (1 < dim a (a.dims.length - 1) ∧ lastStride a = str a (a.dims.length - 1)) ∨ lastStride a = s := by
  unfold lastStride
  rcases he with he | ⟨_, he⟩
  · split
    · exact .inl ⟨(by assumption), rfl⟩
    · exact .inr he.symm
  · rw [getLastD_dim] at he
    rw [if_pos he]
    exact .inl ⟨he, rfl⟩

theorem drop_last (dims : List Nat) : dims.drop (dims.length - 1 + 1) = [] := by
  apply List.drop_eq_nil_of_le; omega

theorem contig_fst (a : Lay) : contig a = (if a.dims.length ≤ 1 then (0, headStride a)
  else if lastStride a = headStride a then (0, headStride a)
  else if (lastStride a).natAbs < (headStride a).natAbs then (((backChain a (a.dims.length - 1) (lastStride a) : Nat) : Int), lastStride a)
  else (-((fwdChain a (a.dims.length - 1) (headStride a) : Nat) : Int), headStride a) : Int × Int) := rfl

/-- The last stride of items evenly spaced in C order. -/
theorem last_c {a : Lay} {s : Int} (hw : a.strides.length = a.dims.length) (hl : a.len ≠ 0) (h : Even s (inC a.dims a.strides)) (he : Ends a s) :
    lastStride a = s := by
  rcases last_cases he with ⟨h1, h2⟩ | h2
  · rw [h2, even_c hw hl h h1, drop_last]; simp [prod]
  · exact h2

theorem head_f {a : Lay} {s : Int} (hw : a.strides.length = a.dims.length) (hl : a.len ≠ 0) (h : Even s (inF a.dims a.strides)) (he : Ends a s) :
    headStride a = s := by
  rcases head_cases he with ⟨h1, h2⟩ | h2
  · rw [h2, even_f hw hl h h1]; simp [prod]
  · exact h2

theorem head_c {a : Lay} {s : Int} (hw : a.strides.length = a.dims.length) (hl : a.len ≠ 0) (h : Even s (inC a.dims a.strides)) (he : Ends a s) :
    ∃ p : Nat, 0 < p ∧ headStride a = s * p := by
  rcases head_cases he with ⟨h1, h2⟩ | h2
  · exact ⟨prod (a.dims.drop 1), prod_drop_pos hl 1, by rw [h2, even_c hw hl h h1]⟩
  · exact ⟨1, by decide, by simp [h2]⟩

theorem last_f {a : Lay} {s : Int} (hw : a.strides.length = a.dims.length) (hl : a.len ≠ 0) (h : Even s (inF a.dims a.strides)) (he : Ends a s) :
    ∃ p : Nat, 0 < p ∧ lastStride a = s * p := by
  rcases last_cases he with ⟨h1, h2⟩ | h2
  · exact ⟨prod (a.dims.take (a.dims.length - 1)), prod_take_pos hl _, by rw [h2, even_f hw hl h h1]⟩
  · exact ⟨1, by decide, by simp [h2]⟩

/-- In one dimension. -/
theorem head_one {a : Lay} {s : Int} (hw : a.strides.length = a.dims.length) (hl : 1 < a.len) (hn : a.dims.length ≤ 1)
    (h : Even s (inC a.dims a.strides)) : headStride a = s := by
  have h1 : 1 < dim a 0 := by
    unfold Lay.len dim at *
    match hd : a.dims with
    | [] => rw [hd] at hl; simp [prod] at hl
    | [d] => rw [hd] at hl; simp [prod] at hl; simpa using hl
    | _ :: _ :: _ => rw [hd] at hn; simp at hn
  have hk := getD_length h1
  unfold headStride
  rw [if_pos ⟨hk, h1⟩, even_c hw (by omega) h h1, List.drop_eq_nil_of_le (by omega)]
  simp [prod]

theorem one_order {a : Lay} (hn : a.dims.length ≤ 1) : inF a.dims a.strides = inC a.dims a.strides := by
  match hd : a.dims, hs : a.strides with
  | [], _ => simp [inF, inC]
  | [d], [] => simp [inF, inC]
  | [d], s :: _ =>
    simp only [inF, inC, List.flatMap_cons, List.flatMap_nil, List.append_nil, List.map_cons, List.map_nil]
    induction List.range d with
    | nil => rfl
    | cons x l ih => rw [List.flatMap_cons, List.map_cons, ih]; rfl
  | _ :: _ :: _, _ => rw [hd] at hn; simp at hn

/-- The stride that is found for an array with at least two items, evenly spaced in one of the orders. -/
theorem step_even {a : Lay} {s : Int} (hw : a.strides.length = a.dims.length) (hl : 1 < a.len)
    (h : Even s (inC a.dims a.strides) ∨ Even s (inF a.dims a.strides)) (he : a.dims.length ≤ 1 ∨ Ends a s) : step a = s := by
  unfold step
  rw [contig_fst]
  by_cases hn : a.dims.length ≤ 1
  · rw [if_pos hn]
    rw [one_order hn, or_self] at h
    exact head_one hw hl hn h
  rw [if_neg hn]
  have he := he.resolve_left hn
  rcases h with h | h
  · have h1 := last_c hw (by omega) h he
    obtain ⟨p, hp, h2⟩ := head_c hw (by omega) h he
    split
    · rename_i e; simp only; omega
    · split
      · exact h1
      · rename_i e1 e2
        simp only
        rw [h2]
        rw [h1, h2] at e2
        exact natAbs_mul_eq hp (by omega)
  · have h1 := head_f hw (by omega) h he
    obtain ⟨p, hp, h2⟩ := last_f hw (by omega) h he
    split
    · exact h1
    · split
      · rename_i e1 e2
        rw [h1, h2] at e2
        have := natAbs_mul_le s hp
        omega
      · exact h1

theorem full_dim {a : Lay} (h : Full a) {k : Nat} (hk : k < a.dims.length) : 1 < dim a k := by
  have : dim a k = a.dims[k] := by simp [dim, List.getD, hk]
  rw [this]; exact h _ (List.getElem_mem hk)

theorem full_ends {a : Lay} (h : Full a) (hn : ¬ a.dims.length ≤ 1) (s : Int) : Ends a s :=
  .inr ⟨by rw [headD_dim]; exact full_dim h (by omega), by rw [getLastD_dim]; exact full_dim h (by omega)⟩

/-- Such arrays are taken. -/
theorem taken_even {a : Lay} {s : Int} (hw : a.strides.length = a.dims.length) (hl : a.len ≠ 0)
    (h : Even s (inC a.dims a.strides) ∨ Even s (inF a.dims a.strides)) (hf : a.dims.length ≤ 1 ∨ Full a) : (contig a).1 = 0 := by
  rw [contig_fst]
  by_cases hn : a.dims.length ≤ 1
  · rw [if_pos hn]
  rw [if_neg hn]
  have hf := hf.resolve_left hn
  have he := full_ends hf hn s
  by_cases h0 : lastStride a = headStride a
  · rw [if_pos h0]
  rw [if_neg h0]
  rcases h with h | h
  · have h1 := last_c hw hl h he
    obtain ⟨p, hp, h2⟩ := head_c hw hl h he
    have hlt : (lastStride a).natAbs < (headStride a).natAbs := by
      rw [h1, h2] at h0 ⊢
      rcases Nat.lt_or_ge s.natAbs (s * p).natAbs with h3 | h3
      · exact h3
      · exact absurd (natAbs_mul_eq hp h3).symm h0
    rw [if_pos hlt]
    have hs := (backChain_spec a s (a.dims.length - 1) (lastStride a) (by omega) (by rw [drop_last, h1]; simp [prod])).2
    have hle := backChain_le a (a.dims.length - 1) (lastStride a)
    simp only
    rcases Nat.eq_zero_or_pos (backChain a (a.dims.length - 1) (lastStride a)) with h4 | h4
    · rw [h4]; rfl
    · exfalso
      apply hs (by omega)
      rw [even_c hw hl h (full_dim hf (by omega)), Nat.sub_add_cancel h4]
  · have h1 := head_f hw hl h he
    obtain ⟨p, hp, h2⟩ := last_f hw hl h he
    have hlt : ¬ (lastStride a).natAbs < (headStride a).natAbs := by
      rw [h1, h2]
      have := natAbs_mul_le s hp
      omega
    rw [if_neg hlt]
    have hs := (fwdChain_spec a s (a.dims.length - 1) (headStride a) (by omega) (by rw [Nat.sub_self, h1]; simp [prod])).2
    simp only
    rcases Nat.eq_zero_or_pos (fwdChain a (a.dims.length - 1) (headStride a)) with h4 | h4
    · rw [h4]; rfl
    · exfalso
      apply hs.2 (by omega)
      have := hs.1
      rw [even_f hw hl h (full_dim hf (by omega))]

/-- Contiguous arrays are evenly spaced. -/
theorem contiguous_even_c {a : Lay} (hw : a.strides.length = a.dims.length) (h : a.cContig = true) : Even a.item (inC a.dims a.strides) := by
  intro k hk
  rw [inC_length _ _ hw] at hk
  obtain ⟨idx, hb, rfl⟩ := cPos_surj a.dims k hk
  rw [inC_get _ _ _ hw hb, offs_cContig a h idx hb]

theorem contiguous_even_f {a : Lay} (hw : a.strides.length = a.dims.length) (h : a.fContig = true) : Even a.item (inF a.dims a.strides) := by
  intro k hk
  rw [inF_length _ _ hw] at hk
  obtain ⟨idx, hb, rfl⟩ := fPos_surj a.dims k hk
  rw [inF_get _ _ _ hw hb, offs_fContig a h idx hb]

theorem even_eq {s : Int} {l : List Int} {n : Nat} (h : Even s l) (hn : l.length = n) : l = (List.range n).map fun (k : Nat) => (k : Int) * s := by
  apply List.ext_getElem?
  intro k
  rcases Nat.lt_or_ge k n with hk | hk
  · rw [h k (by omega)]; simp [hk]
  · rw [List.getElem?_eq_none (by omega), List.getElem?_eq_none (by simp; omega)]

/-- What is read with the stride that is found, if the places `l` are evenly spaced. -/
theorem read_even {α : Type} {a : Lay} {s : Int} {l : List Int} (f : Int → α) (hs : 1 < a.len → step a = s) (h : Even s l) (hn : l.length = a.len) :
    ((List.range a.len).map fun (k : Nat) => f ((k : Int) * step a)) = l.map f := by
  rw [even_eq h hn, List.map_map]
  apply List.map_congr_left
  intro k hk
  have hk := List.mem_range.mp hk
  simp only [Function.comp]
  rcases Nat.lt_or_ge 1 a.len with h1 | h1
  · rw [hs h1]
  · have : k = 0 := by omega
    subst this; simp

end Riptide.Mask.Call
