import Verif.Mask.CallLemmas
/-! What the calls on masks answer (C140). -/
namespace Riptide.Mask.Call
open Riptide.Binary Riptide.Unary Riptide.Work Riptide.Mask Riptide.Mask.Call.Spec

theorem flags_view {m : Mem} {a : Lay} {s : Int} {l : List Int} (hs : 1 < a.len → step a = s) (h : Even s l) (hn : l.length = a.len) :
    view m (step a) a.len = flags m l := read_even (fun o => decide (m o ≠ 0#8)) hs h hn

theorem flags_perm {m : Mem} {l k : List Int} (h : l.Perm k) : Mask.Spec.numTrue (flags m l) = Mask.Spec.numTrue (flags m k) := by
  unfold Mask.Spec.numTrue flags
  exact (h.map _).countP_eq _

/-- C140 (partial: guarded). `BooleanSum` of a mask of any shape, whose items are evenly spaced in C order or in Fortran order, and whose first and
last dimensions have more than one item or whose items are packed, is the number of its items which are True, under every schedule of the workers.
What is missing: other masks, for which the call is wrong (`rows_sum_wrong`, `single_row_sum_wrong`, `hidden_rows_sum_wrong`). -/
theorem sum_partial (a : Lay) (m : Mem) (s : Int) (hw : a.strides.length = a.dims.length)
    (h : Even s (inC a.dims a.strides) ∨ Even s (inF a.dims a.strides)) (he : a.dims.length ≤ 1 ∨ Ends a s)
    {workers : Nat} {nt : Bool} {par : Option (List Nat)} (hp : ChunkSched workers a.len nt par) :
    sumCall ⟨true, a⟩ m par = .ok (Mask.Spec.numTrue (flags m (inC a.dims a.strides))) := by
  unfold sumCall
  rw [if_neg (by simp)]
  simp only
  rw [parallel_count_true_exact m a.len (step a) hp]
  simp only
  have hs : 1 < a.len → step a = s := fun hl => step_even hw hl h he
  rcases h with h | h
  · rw [flags_view hs h (inC_length _ _ hw)]
  · rw [flags_view hs h (inF_length _ _ hw), flags_perm (inF_perm _ _)]

/-- C140. `BooleanSum` of a contiguous mask, in either order and of any shape, is the number of its items which are True. -/
theorem sum_contiguous_partial (a : Lay) (m : Mem) (hw : a.strides.length = a.dims.length) (hc : a.cContig = true ∨ a.fContig = true)
    {workers : Nat} {nt : Bool} {par : Option (List Nat)} (hp : ChunkSched workers a.len nt par) :
    sumCall ⟨true, a⟩ m par = .ok (Mask.Spec.numTrue (flags m (inC a.dims a.strides))) :=
  sum_partial a m a.item hw (hc.imp (contiguous_even_c hw) (contiguous_even_f hw)) (.inr (.inl rfl)) hp

/-- Three rows of two flags in Fortran order. -/
example : (Lay.mk [3, 2] [1, 3] 1).fContig = true ∧
    sumCall ⟨true, ⟨[3, 2], [1, 3], 1⟩⟩ (fun o => if o = 1 ∨ o = 3 then 1#8 else 0#8) none = .ok 2 := by decide +kernel
/-- Every second flag of four, backwards. -/
example : Even (-2) (inC [4] [-2]) ∧ sumCall ⟨true, ⟨[4], [-2], 1⟩⟩ (fun o => if o = -2 ∨ o = -3 then 1#8 else 0#8) none = .ok 1 :=
  ⟨fun k hk => by
    have : k < 4 := hk
    rcases (by omega : k = 0 ∨ k = 1 ∨ k = 2 ∨ k = 3) with h | h | h | h <;> subst h <;> decide, by decide +kernel⟩

/-! ## `BooleanIndex` -/

theorem store_exact {α : Type} (vals : Int → α) {len item : Nat} {sv : Int} {total : Nat} {copies : List Copy} {l : List (Option α)}
    (h : execCopies vals len item sv total copies = some l) (hb : ∀ c ∈ copies, c.1 + (item : Int) ≤ (total * item : Nat)) :
    store vals len item sv item total copies = .ok l := by
  unfold store
  rw [if_neg, h]
  rw [List.any_eq_true]
  rintro ⟨c, hc, hd⟩
  have := of_decide_eq_true hd
  have := hb c hc
  omega

/-- The copies stay within the result. -/
theorem copies_inside (m : Mem) (len : Nat) (sb sv : Int) {item : Nat}
    (hguard : sb = 1 → item = 1 ∨ item = 2 ∨ item = 4 ∨ item = 8 ∨ sv = item)
    {workers : Nat} {nt : Bool} {par1 par2 : Option (List Nat)} (h1 : ChunkSched workers len nt par1) (h2 : ChunkSched workers len nt par2)
    {total : Nat} {copies : List Copy} (h : booleanIndex m len sb item sv par1 par2 = some (total, copies)) :
    ∀ c ∈ copies, c.1 + (item : Int) ≤ (total * item : Nat) := by
  have hinc : sb = 1 → tailInc item sv = item := by
    intro h
    unfold tailInc
    split
    · rfl
    · have := hguard h
      rename_i hn
      omega
  obtain ⟨c', hc, hp⟩ := booleanIndex_perm m len sb item sv h1 h2 hinc
  rw [hc] at h
  have hh := Option.some.inj h
  obtain ⟨rfl, rfl⟩ := Prod.mk.inj hh
  intro c hcm
  have := hp.mem_iff.1 hcm
  simp only [rowCopies, List.mem_map, List.mem_filter, List.mem_range] at this
  obtain ⟨r, ⟨hr, ht⟩, rfl⟩ := this
  have hlt : rank m sb r + 1 ≤ trueIn m sb 0 len := by
    have e : trueIn m sb 0 len = trueIn m sb 0 r + trueIn m sb r (len - r) := by
      have := trueIn_add m sb 0 r (len - r)
      rw [Nat.zero_add, Nat.add_sub_cancel' (by omega)] at this
      exact this
    have e2 := trueIn_add m sb r 1 (len - r - 1)
    rw [Nat.add_sub_cancel' (by omega)] at e2
    have e3 : trueIn m sb r 1 = 1 := by simp [trueIn, List.range', ht]
    unfold rank
    omega
  have := Nat.mul_le_mul_right item hlt
  rw [Nat.add_mul] at this
  simp only
  push_cast
  push_cast at this
  omega

/-- The array is taken, and its items are at the places `l`, evenly spaced. -/
theorem walked {a : Lay} {s : Int} (hw : a.strides.length = a.dims.length) (h : Even s (inC a.dims a.strides) ∨ Even s (inF a.dims a.strides))
    (hf : a.dims.length ≤ 1 ∨ Full a ∨ a.cContig = true) (hs : a.cContig = true → s = a.item) : refuses a = false ∧ (1 < a.len → step a = s) := by
  have he : a.dims.length ≤ 1 ∨ Ends a s := by
    rcases Nat.lt_or_ge 1 a.dims.length with hn | hn
    · rcases hf with h1 | h1 | h1
      · exact .inl h1
      · exact .inr (full_ends h1 (by omega) s)
      · exact .inr (.inl (hs h1))
    · exact .inl hn
  refine ⟨?_, fun hl => step_even hw hl h he⟩
  unfold refuses
  by_cases hc : a.cContig = true
  · simp [hc]
  · have hl : a.len ≠ 0 := fun h0 => hc (by simp [Lay.cContig, h0])
    have := taken_even hw hl h (by rcases hf with h1 | h1 | h1 <;> simp_all)
    simp [this]

theorem stride_of_contig {a : Lay} {s : Int} (hw : a.strides.length = a.dims.length) (h : Even s (inC a.dims a.strides)) (hc : a.cContig = true)
    (hl : 1 < a.len) : s = a.item := by
  have h2 := contiguous_even_c hw hc
  have e := inC_length _ _ hw
  have g := h 1 (by rw [e]; exact hl)
  rw [h2 1 (by rw [e]; exact hl)] at g
  have := Option.some.inj g
  omega

/-- The result of `BooleanIndex`, once the walks over both arrays are known. -/
theorem index_walk {α : Type} (k : Kind) (a : Lay) (vals : Int → α) (f : Lay) (m : Mem) {lv lf : List Int}
    (hk : k = .text ∨ k = .plain) (hi : 0 < a.item) (hlen : f.len = a.len)
    (hra : refuses a = false) (hrf : refuses f = false)
    (hv : ((List.range a.len).map fun (r : Nat) => vals ((r : Int) * step a)) = lv.map vals)
    (hm : view m (step f) a.len = flags m lf)
    (hguard : step f = 1 → a.item = 1 ∨ a.item = 2 ∨ a.item = 4 ∨ a.item = 8 ∨ step a = a.item)
    {workers : Nat} {nt : Bool} {par1 par2 : Option (List Nat)} (h1 : ChunkSched workers a.len nt par1) (h2 : ChunkSched workers a.len nt par2) :
    indexCall k a vals ⟨true, f⟩ m par1 par2 = .ok ((Mask.Spec.select (lv.map vals) (flags m lf)).map some) := by
  unfold indexCall
  rw [if_neg (by simp), if_neg (by simp [hra]), if_neg (by simp [hrf]), if_neg (by simp [hlen])]
  have hg : step f = 1 → (a.item : Int) = 1 ∨ (a.item : Int) = 2 ∨ (a.item : Int) = 4 ∨ (a.item : Int) = 8 ∨ step a = (a.item : Int) := by
    intro h; have := hguard h; omega
  obtain ⟨copies, hc, hx⟩ := boolean_index_exact_partial m vals a.len (step f) a.item (step a) (by omega) hg h1 h2
  have ho : outItem k a.item = some a.item := by
    rcases hk with rfl | rfl
    · simp only [outItem]; rw [if_neg (by omega)]
    · rfl
  rw [hc]
  simp only [ho]
  rw [← hv, ← hm]
  apply store_exact vals hx
  exact copies_inside m a.len (step f) (step a) hguard h1 h2 hc

theorem sched_small {workers len : Nat} {nt : Bool} {par : Option (List Nat)} (h : ChunkSched workers len nt par) (hl : len ≤ 1) : par = none := by
  cases h with
  | direct _ => rfl
  | pool calls h1 _ => exact absurd (.inl (by unfold big chunk; omega)) h1

/-- Nothing is indexed. -/
theorem index_zero {α : Type} (k : Kind) (a : Lay) (vals : Int → α) (f : Lay) (m : Mem) (hk : k = .text ∨ k = .plain) (hlen : f.len = a.len)
    (hl : a.len = 0) : indexCall k a vals ⟨true, f⟩ m none none = .ok [] := by
  have ra : refuses a = false := by simp [refuses, Lay.cContig, hl]
  have rf : refuses f = false := by simp [refuses, Lay.cContig, hlen, hl]
  unfold indexCall
  rw [if_neg (by simp), if_neg (by simp [ra]), if_neg (by simp [rf]), if_neg (by simp [hlen]), hl]
  have hb : ∀ sb item sv : Int, booleanIndex m 0 sb item sv none none = some (0, []) := by
    intro sb item sv
    have hc := count_true_exact (m.shift (((0 : Nat) : Int) * sb)) 0 sb
    have hz : Mask.Spec.numTrue (view (m.shift (((0 : Nat) : Int) * sb)) sb 0) = 0 := rfl
    rw [hz] at hc
    unfold booleanIndex booleanCount countCallback
    rw [hc]
    rfl
  rw [hb]
  rcases hk with rfl | rfl <;> rfl

/-- An array with one item is walked with the size of an item. -/
theorem step_single {a : Lay} (hl : a.len = 1) : step a = a.item := by
  have hd : ∀ k, ¬ 1 < dim a k := by
    intro k hk
    have hk' := getD_length hk
    have e := prod_split a.dims k
    have h1 : prod (a.dims.drop k) = dim a k * prod (a.dims.drop (k + 1)) := by
      rw [List.drop_eq_getElem_cons hk', prod]
      simp [dim, List.getD, hk']
    have hl : prod a.dims = 1 := hl
    rw [hl, h1] at e
    have h2 := Nat.eq_one_of_mul_eq_one_left e.symm
    have := Nat.eq_one_of_mul_eq_one_right h2
    omega
  have e1 : headStride a = a.item := by unfold headStride; rw [if_neg (fun h => hd 0 h.2)]
  have e2 : lastStride a = a.item := by unfold lastStride; rw [if_neg (hd _)]
  unfold step
  rw [contig_fst, e1, e2]
  simp

theorem refuses_single {a : Lay} (hw : a.strides.length = a.dims.length) (hl : a.len = 1) : refuses a = false := by
  have : a.cContig = true := by
    have hd : ∀ d ∈ a.dims, d = 1 := by
      intro d hd
      obtain ⟨k, hk, rfl⟩ := List.getElem_of_mem hd
      have e := prod_split a.dims k
      rw [List.drop_eq_getElem_cons hk, prod] at e
      have hl : prod a.dims = 1 := hl
      rw [hl] at e
      exact Nat.eq_one_of_mul_eq_one_right (Nat.eq_one_of_mul_eq_one_left e.symm)
    unfold Lay.cContig
    have : ∀ (dims : List Nat) (s t : List Int), s.length = dims.length → t.length = dims.length → (∀ d ∈ dims, d = 1) → sameStrides dims s t = true := by
      intro dims
      induction dims with
      | nil => intro s t h1 h2 _; simp at h1 h2; subst h1; subst h2; rfl
      | cons d ds ih =>
        intro s t h1 h2 h3
        match s, t with
        | s :: ss, t :: ts =>
          rw [sameStrides, ih ss ts (by simpa using h1) (by simpa using h2) (fun x hx => h3 x (List.mem_cons_of_mem _ hx)), h3 d (List.mem_cons_self ..)]
          simp
        | [], _ => simp at h1
        | _ :: _, [] => simp at h2
    rw [this _ _ _ hw (cStrides_length _ _) hd]; simp
  simp [refuses, this]

/-- The arrays which `BooleanIndex` handles: at most one dimension, or no dimension with a single item, or contiguous. -/
def Fit (a : Lay) : Prop := a.dims.length ≤ 1 ∨ Full a ∨ a.cContig = true

theorem walked_c {a : Lay} {s : Int} (hw : a.strides.length = a.dims.length) (h : Even s (inC a.dims a.strides)) (hf : Fit a) :
    refuses a = false ∧ (1 < a.len → step a = s) := by
  by_cases hc : a.cContig = true ∧ ¬ 1 < a.len
  · refine ⟨by simp [refuses, hc.1], fun hl => absurd hl hc.2⟩
  · refine walked hw (.inl h) hf (fun h1 => stride_of_contig hw h h1 ?_)
    exact Decidable.not_not.mp (fun h2 => hc ⟨h1, h2⟩)

/-- C140 (partial: guarded). `BooleanIndex` of values and a mask of the same number of items, both evenly spaced in C order: the items at which the
mask is True, in C order, for strings and for all types but objects and records, under every schedule of both passes. The guard on the size of
items is that of `boolean_index_exact_partial`. What is missing: arrays in Fortran order (`index_memory_order_partial`), other layouts, most of which
are refused (`rows_refused`), and records (`records_undefined`). -/
theorem index_partial {α : Type} (k : Kind) (a : Lay) (vals : Int → α) (f : Lay) (m : Mem) (sv sb : Int)
    (hk : k = .text ∨ k = .plain) (hi : 0 < a.item) (hlen : f.len = a.len)
    (hwa : a.strides.length = a.dims.length) (hwf : f.strides.length = f.dims.length)
    (hea : Even sv (inC a.dims a.strides)) (hef : Even sb (inC f.dims f.strides)) (hfa : Fit a) (hff : Fit f)
    (hguard : sb = 1 → a.item = 1 ∨ a.item = 2 ∨ a.item = 4 ∨ a.item = 8 ∨ sv = a.item)
    {workers : Nat} {nt : Bool} {par1 par2 : Option (List Nat)}
    (h1 : ChunkSched workers a.len nt par1) (h2 : ChunkSched workers a.len nt par2) :
    indexCall k a vals ⟨true, f⟩ m par1 par2 =
      .ok ((Mask.Spec.select ((inC a.dims a.strides).map vals) (flags m (inC f.dims f.strides))).map some) := by
  obtain ⟨ra, sa⟩ := walked_c hwa hea hfa
  obtain ⟨rf, sf⟩ := walked_c hwf hef hff
  rcases Nat.eq_zero_or_pos a.len with h0 | h0
  · have e1 := sched_small h1 (by omega)
    have e2 := sched_small h2 (by omega)
    subst e1; subst e2
    have : inC a.dims a.strides = [] := List.eq_nil_of_length_eq_zero (by rw [inC_length _ _ hwa]; exact h0)
    rw [index_zero k a vals f m hk hlen h0, this]
    rfl
  refine index_walk k a vals f m hk hi hlen ra rf (read_even vals sa hea (inC_length _ _ hwa)) ?_ ?_ h1 h2
  · rw [← hlen]; exact flags_view sf hef (inC_length _ _ hwf)
  · rcases Nat.lt_or_ge 1 a.len with hone | hone
    · rw [sf (by omega), sa hone]; exact hguard
    · exact fun _ => .inr (.inr (.inr (.inr (step_single (by omega)))))

/-- The values are every second column of three rows (rows of four, 8 bytes each), the mask is its own. -/
example : indexCall .plain ⟨[3, 2], [32, 16], 8⟩ (fun o => o / 8) ⟨true, ⟨[3, 2], [2, 1], 1⟩⟩ (fun o => if o % 2 = 1 then 1#8 else 0#8) none none =
    .ok [some 2, some 6, some 10] := by decide +kernel
example : Fit ⟨[3, 2], [32, 16], 8⟩ ∧ Even 16 (inC [3, 2] [32, 16]) :=
  ⟨.inr (.inl (by simp [Full])), fun k hk => by
    have : k < 6 := hk
    rcases (by omega : k = 0 ∨ k = 1 ∨ k = 2 ∨ k = 3 ∨ k = 4 ∨ k = 5) with h | h | h | h | h | h <;> subst h <;> decide⟩

/-- C140. Contiguous values and a contiguous mask, in C order and of any shapes with the same number of items, and any item size. -/
theorem index_contiguous_partial {α : Type} (k : Kind) (a : Lay) (vals : Int → α) (f : Lay) (m : Mem)
    (hk : k = .text ∨ k = .plain) (hi : 0 < a.item) (hlen : f.len = a.len)
    (hwa : a.strides.length = a.dims.length) (hwf : f.strides.length = f.dims.length) (hca : a.cContig = true) (hcf : f.cContig = true)
    {workers : Nat} {nt : Bool} {par1 par2 : Option (List Nat)}
    (h1 : ChunkSched workers a.len nt par1) (h2 : ChunkSched workers a.len nt par2) :
    indexCall k a vals ⟨true, f⟩ m par1 par2 =
      .ok ((Mask.Spec.select ((inC a.dims a.strides).map vals) (flags m (inC f.dims f.strides))).map some) :=
  index_partial k a vals f m a.item f.item hk hi hlen hwa hwf (contiguous_even_c hwa hca) (contiguous_even_c hwf hcf) (.inr (.inr hca)) (.inr (.inr hcf))
    (fun _ => .inr (.inr (.inr (.inr rfl)))) h1 h2

/-- C140. Values and mask in Fortran order: the mask is applied item by item, but the result is in Fortran order, the order of the memory, and not
in the order of numpy (`fortran_order_wrong`). -/
theorem index_memory_order_partial {α : Type} (k : Kind) (a : Lay) (vals : Int → α) (f : Lay) (m : Mem) (sv sb : Int)
    (hk : k = .text ∨ k = .plain) (hi : 0 < a.item) (hlen : f.len = a.len)
    (hwa : a.strides.length = a.dims.length) (hwf : f.strides.length = f.dims.length)
    (hea : Even sv (inF a.dims a.strides)) (hef : Even sb (inF f.dims f.strides)) (hfa : Full a) (hff : Full f)
    (hna : 1 < a.dims.length) (hnf : 1 < f.dims.length)
    (hguard : sb = 1 → a.item = 1 ∨ a.item = 2 ∨ a.item = 4 ∨ a.item = 8 ∨ sv = a.item)
    {workers : Nat} {nt : Bool} {par1 par2 : Option (List Nat)}
    (h1 : ChunkSched workers a.len nt par1) (h2 : ChunkSched workers a.len nt par2) :
    indexCall k a vals ⟨true, f⟩ m par1 par2 =
      .ok ((Mask.Spec.select ((inF a.dims a.strides).map vals) (flags m (inF f.dims f.strides))).map some) := by
  have hone : 1 < a.len := by
    have h3 : ∀ l : List Nat, 0 < l.length → (∀ d ∈ l, 1 < d) → 1 < prod l := by
      intro l
      induction l with
      | nil => intro h; simp at h
      | cons d l ih =>
        intro _ h
        have hd := h d (List.mem_cons_self ..)
        rw [prod]
        rcases Nat.eq_zero_or_pos l.length with h0 | h0
        · rw [List.eq_nil_of_length_eq_zero h0, prod]; omega
        · have := ih h0 (fun x hx => h x (List.mem_cons_of_mem _ hx))
          have := Nat.mul_lt_mul'' hd this
          omega
    exact h3 _ (by omega) hfa
  have sa : step a = sv := step_even hwa hone (.inr hea) (.inr (full_ends hfa (by omega) sv))
  have sf : step f = sb := step_even hwf (by omega) (.inr hef) (.inr (full_ends hff (by omega) sb))
  have ra : refuses a = false := by simp [refuses, taken_even hwa (by omega) (.inr hea) (.inr hfa)]
  have rf : refuses f = false := by simp [refuses, taken_even hwf (by omega) (.inr hef) (.inr hff)]
  refine index_walk k a vals f m hk hi hlen ra rf (read_even vals (fun _ => sa) hea (inF_length _ _ hwa)) ?_ ?_ h1 h2
  · rw [← hlen]; exact flags_view (fun _ => sf) hef (inF_length _ _ hwf)
  · rw [sf, sa]; exact hguard

/-- The hypotheses are met by two arrays in Fortran order. -/
example : Full ⟨[2, 2], [8, 16], 8⟩ ∧ indexCall .plain ⟨[2, 2], [8, 16], 8⟩ (fun o => o / 8) ⟨true, ⟨[2, 2], [1, 2], 1⟩⟩
    (fun o => if o = 0 then 0#8 else 1#8) none none = .ok [some 1, some 2, some 3] := ⟨by simp [Full], by decide +kernel⟩

/-! ## What is refused -/

/-- C140. A mask which is no array of booleans is refused by all three calls. -/
theorem type_refused {α : Type} (k : Kind) (a : Lay) (vals : Int → α) (f : Lay) (m : Mem) (both : Both) (par1 par2 : Option (List Nat)) :
    sumCall ⟨false, f⟩ m par1 = .error .notBool ∧ indexCall k a vals ⟨false, f⟩ m par1 par2 = .error .notBool ∧
    fancyCall ⟨false, f⟩ m both par1 par2 = .error .notBool := ⟨rfl, rfl, rfl⟩

/-- C140. Different numbers of items are never indexed. -/
theorem lengths_refused {α : Type} (k : Kind) (a : Lay) (vals : Int → α) (f : Flags) (m : Mem) (par1 par2 : Option (List Nat))
    (h : f.lay.len ≠ a.len) : ∃ e, indexCall k a vals f m par1 par2 = .error e := by
  unfold indexCall
  split
  · exact ⟨_, rfl⟩
  split
  · exact ⟨_, rfl⟩
  split
  · exact ⟨_, rfl⟩
  exact ⟨.lengths, rfl⟩

/-- Five values and four flags. -/
example : indexCall .plain ⟨[5], [8], 8⟩ id ⟨true, ⟨[4], [1], 1⟩⟩ (fun _ => 1#8) none none = .error .lengths := by decide +kernel

/-- C140. Values which are Python objects are refused, as if memory had run out, even if no flag is True. -/
theorem objects_refused {α : Type} (a : Lay) (vals : Int → α) (f : Lay) (m : Mem) (hi : 0 < a.item)
    (hguard : step f = 1 → a.item = 1 ∨ a.item = 2 ∨ a.item = 4 ∨ a.item = 8 ∨ step a = a.item)
    {workers : Nat} {nt : Bool} {par1 par2 : Option (List Nat)} (h1 : ChunkSched workers a.len nt par1) (h2 : ChunkSched workers a.len nt par2) :
    ∃ e, indexCall .object a vals ⟨true, f⟩ m par1 par2 = .error e := by
  unfold indexCall
  rw [if_neg (by simp)]
  split
  · exact ⟨_, rfl⟩
  split
  · exact ⟨_, rfl⟩
  split
  · exact ⟨_, rfl⟩
  obtain ⟨copies, hc, _⟩ := boolean_index_exact_partial m vals a.len (step f) a.item (step a) (by omega) (by intro h; have := hguard h; omega) h1 h2
  rw [hc]
  exact ⟨.memory, rfl⟩

/-- Three objects. -/
example : indexCall .object ⟨[3], [8], 8⟩ id ⟨true, ⟨[3], [1], 1⟩⟩ (fun _ => 0#8) none none = .error .memory := by decide +kernel

/-- C140. Values in rows of `w` items at distances `p` larger than `w` items (columns of a larger array) are refused. -/
theorem rows_refused {α : Type} (k : Kind) (h w p item : Nat) (vals : Int → α) (f : Lay) (m : Mem) (par1 par2 : Option (List Nat))
    (hh : 1 < h) (hw : 1 < w) (hp : w * item < p) (hi : 0 < item) :
    indexCall k ⟨[h, w], [(p : Int), (item : Int)], item⟩ vals ⟨true, f⟩ m par1 par2 = .error .valueLayout := by
  have hlt : item < p := by
    have := Nat.mul_le_mul_right item (Nat.le_of_lt hw)
    omega
  have e1 : headStride ⟨[h, w], [(p : Int), (item : Int)], item⟩ = p := by simp [headStride, dim, str, hh]
  have e2 : lastStride ⟨[h, w], [(p : Int), (item : Int)], item⟩ = item := by simp [lastStride, str]
  have hc : (contig ⟨[h, w], [(p : Int), (item : Int)], item⟩).1 = 1 := by
    rw [contig_fst, if_neg (by simp), e1, e2, if_neg (by omega), if_pos (by omega)]
    have : (p : Int) ≠ (item : Int) * (w : Int) := by
      have : ((w * item : Nat) : Int) < p := by exact_mod_cast hp
      push_cast at this
      rw [Int.mul_comm]; omega
    simp [backChain, str, dim, this]
  have hn : Lay.cContig ⟨[h, w], [(p : Int), (item : Int)], item⟩ = false := by
    have h0 : ¬ (h * w = 0) := Nat.mul_ne_zero (by omega) (by omega)
    have : ¬ (p : Int) = (w : Int) * (item : Int) := by
      have : ((w * item : Nat) : Int) < p := by exact_mod_cast hp
      push_cast at this
      omega
    have hh' : h ≠ 1 := by omega
    simp [Lay.cContig, Lay.len, prod, cStrides, sameStrides, this, hh']
    omega
  have hr : refuses ⟨[h, w], [(p : Int), (item : Int)], item⟩ = true := by simp [refuses, hc, hn]
  unfold indexCall
  rw [if_neg (by simp), if_pos hr]

/-- Two of three columns. -/
example : indexCall .plain ⟨[2, 2], [24, 8], 8⟩ id ⟨true, ⟨[2, 2], [2, 1], 1⟩⟩ (fun _ => 1#8) none none = .error .valueLayout := by decide +kernel

/-! ## `BooleanToFancy` -/

/-- With at most one item the stride does not matter. -/
theorem fancy_small (m : Mem) {len : Nat} (hl : len ≤ 1) (s : Int) (both : Bool) :
    booleanToFancy m len s both none none = booleanToFancy m len 1 both none none := by
  have h1 := count_true_exact (m.shift (((0 : Nat) : Int) * s)) len s
  have h2 := count_true_exact (m.shift (((0 : Nat) : Int) * 1)) len 1
  have hv : view (m.shift (((0 : Nat) : Int) * s)) s len = view (m.shift (((0 : Nat) : Int) * 1)) 1 len := by
    rcases (by omega : len = 0 ∨ len = 1) with h | h <;> subst h
    · rfl
    · simp [view, Mem.shift]
  have hc : booleanCount m len s none = booleanCount m len 1 none := by
    unfold booleanCount countCallback
    rw [h1, h2, hv]
  unfold booleanToFancy
  simp only [hc]

/-- The result of `BooleanToFancy`, once it is known that the bytes of the mask are its items, at the places `l`. -/
theorem fancy_walk (f : Lay) (m : Mem) (both : Both) {l : List Int} (hl : l.length = f.len) (he : Even 1 l) (hs : 1 < f.len → step f = 1)
    {workers : Nat} {nt : Bool} {par1 par2 : Option (List Nat)} (h1 : ChunkSched workers f.len nt par1) (h2 : ChunkSched workers f.len nt par2) :
    fancyCall ⟨true, f⟩ m both par1 par2 =
      .ok ⟨if f.len < 2000000000 then 32 else 64,
        ((Mask.Spec.trueRows (flags m l) ++ if both = .true then Mask.Spec.falseRows (flags m l) else []).map some),
        if both = .true then some (Mask.Spec.numTrue (flags m l)) else none⟩ := by
  have hv : view m 1 f.len = flags m l := by
    rw [even_eq he hl]
    simp [flags, view, Function.comp_def]
  have hb : booleanToFancy m f.len (step f) both.on par1 par2 = booleanToFancy m f.len 1 both.on par1 par2 := by
    rcases Nat.lt_or_ge 1 f.len with h | h
    · rw [hs h]
    · have e1 := sched_small h1 h
      have e2 := sched_small h2 h
      subst e1; subst e2
      exact fancy_small m h _ _
  obtain ⟨⟨w1, e1, p1⟩, ⟨w2, e2, p2⟩⟩ := boolean_to_fancy_exact_partial m f.len h1 h2
  unfold fancyCall
  rw [if_neg (by simp)]
  simp only
  rw [hb]
  rw [hv] at e1 p1 e2 p2
  cases both
  · simp [Both.on, e1, p1, fancyBits]
  · simp [Both.on, e2, p2, fancyBits]
  · simp [Both.on, e1, p1, fancyBits]

/-- C140 (partial: guarded). `BooleanToFancy` of a mask of any shape which is packed in C order: the numbers, in that order, of the items which are
True; with `both=True` followed by those of the items which are False, and the number of True. The indices are 32-bit numbers below two thousand
million items. What is missing: other masks (`sliced_fancy_undefined`, `fortran_fancy_wrong`, `rows_fancy_wrong`). -/
theorem fancy_partial (f : Lay) (m : Mem) (both : Both) (hw : f.strides.length = f.dims.length) (hc : f.cContig = true) (hi : f.item = 1)
    {workers : Nat} {nt : Bool} {par1 par2 : Option (List Nat)} (h1 : ChunkSched workers f.len nt par1) (h2 : ChunkSched workers f.len nt par2) :
    fancyCall ⟨true, f⟩ m both par1 par2 =
      .ok ⟨if f.len < 2000000000 then 32 else 64,
        ((Mask.Spec.trueRows (flags m (inC f.dims f.strides)) ++
          if both = .true then Mask.Spec.falseRows (flags m (inC f.dims f.strides)) else []).map some),
        if both = .true then some (Mask.Spec.numTrue (flags m (inC f.dims f.strides))) else none⟩ := by
  have he := contiguous_even_c hw hc
  have hi' : (f.item : Int) = 1 := by omega
  rw [hi'] at he
  exact fancy_walk f m both (inC_length _ _ hw) he (fun hl => step_even hw hl (.inl he) (.inr (.inl hi'.symm))) h1 h2

/-- C140. `BooleanToFancy` of a mask which is packed in Fortran order: the numbers of the True items in Fortran order, the order of the memory. -/
theorem fancy_memory_order_partial (f : Lay) (m : Mem) (both : Both) (hw : f.strides.length = f.dims.length) (hc : f.fContig = true) (hi : f.item = 1)
    {workers : Nat} {nt : Bool} {par1 par2 : Option (List Nat)} (h1 : ChunkSched workers f.len nt par1) (h2 : ChunkSched workers f.len nt par2) :
    fancyCall ⟨true, f⟩ m both par1 par2 =
      .ok ⟨if f.len < 2000000000 then 32 else 64,
        ((Mask.Spec.trueRows (flags m (inF f.dims f.strides)) ++
          if both = .true then Mask.Spec.falseRows (flags m (inF f.dims f.strides)) else []).map some),
        if both = .true then some (Mask.Spec.numTrue (flags m (inF f.dims f.strides))) else none⟩ := by
  have he := contiguous_even_f hw hc
  have hi' : (f.item : Int) = 1 := by omega
  rw [hi'] at he
  exact fancy_walk f m both (inF_length _ _ hw) he (fun hl => step_even hw hl (.inr he) (.inr (.inl hi'.symm))) h1 h2

/-- Two rows of two flags; the keyword must be `True` itself. -/
example : fancyCall ⟨true, ⟨[2, 2], [2, 1], 1⟩⟩ (fun o => if o = 1 ∨ o = 2 then 1#8 else 0#8) .true none none =
      .ok ⟨32, [some 1, some 2, some 0, some 3], some 2⟩ ∧
    fancyCall ⟨true, ⟨[2, 2], [2, 1], 1⟩⟩ (fun o => if o = 1 ∨ o = 2 then 1#8 else 0#8) .other none none = .ok ⟨32, [some 1, some 2], none⟩ := by
  decide +kernel

end Riptide.Mask.Call
