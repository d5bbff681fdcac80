import Verif.Unary.Strided
import Verif.Binary.LayoutProps
/-! Which items are paired by the walk over arrays of any shape. -/
namespace Riptide.Unary
open Riptide.Binary

/-- The walk does what it should: it pairs the item at each index with the output at the same index, and nothing else. -/
def Faithful (a out : Lay) (l : List (Int × Int)) : Prop :=
  (∀ idx, InBounds idx a.dims → (offs idx a.strides, offs idx out.strides) ∈ l) ∧
  ∀ p ∈ l, ∃ idx, InBounds idx a.dims ∧ p = (offs idx a.strides, offs idx out.strides)

theorem mem_straight {len : Nat} {si so x y : Int} : (x, y) ∈ straight len si so ↔ ∃ k : Nat, k < len ∧ x = k * si ∧ y = k * so := by
  unfold straight
  simp only [List.mem_map, List.mem_range, Prod.mk.injEq]
  exact ⟨fun ⟨k, h, a, b⟩ => ⟨k, h, a.symm, b.symm⟩, fun ⟨k, h, a, b⟩ => ⟨k, h, a.symm, b.symm⟩⟩

theorem mem_nested {outer inner : Nat} {os si so x y : Int} : (x, y) ∈ nested outer inner os si so ↔
    ∃ j i : Nat, j < outer ∧ i < inner ∧ x = j * os + i * si ∧ y = ((j : Int) * inner + i) * so := by
  unfold nested
  simp only [List.mem_flatMap, List.mem_map, List.mem_range, Prod.mk.injEq]
  exact ⟨fun ⟨j, hj, i, hi, a, b⟩ => ⟨j, i, hj, hi, a.symm, b.symm⟩, fun ⟨j, i, hj, hi, a, b⟩ => ⟨j, hj, i, hi, a.symm, b.symm⟩⟩

/-- Every number below the length is the number of an index in C order. -/
theorem cPos_surj : ∀ (dims : List Nat) (k : Nat), k < prod dims → ∃ idx, InBounds idx dims ∧ cPos idx dims = k
  | [], k, h => ⟨[], trivial, by simp [prod] at h; simp [cPos, h]⟩
  | d :: ds, k, h => by
    rw [prod] at h
    have hp : 0 < prod ds := by
      rcases Nat.eq_zero_or_pos (prod ds) with h0 | h0
      · rw [h0] at h; omega
      · exact h0
    obtain ⟨idx, h1, h2⟩ := cPos_surj ds (k % prod ds) (Nat.mod_lt _ hp)
    refine ⟨k / prod ds :: idx, ⟨(Nat.div_lt_iff_lt_mul hp).mpr h, h1⟩, ?_⟩
    rw [cPos, h2, Nat.mul_comm]
    exact Nat.div_add_mod _ _

/-- The same in Fortran order. -/
theorem fPos_surj : ∀ (dims : List Nat) (k : Nat), k < prod dims → ∃ idx, InBounds idx dims ∧ fPos idx dims = k
  | [], k, h => ⟨[], trivial, by simp [prod] at h; simp [fPos, h]⟩
  | d :: ds, k, h => by
    rw [prod] at h
    have hd : 0 < d := by
      rcases Nat.eq_zero_or_pos d with h0 | h0
      · rw [h0] at h; omega
      · exact h0
    obtain ⟨idx, h1, h2⟩ := fPos_surj ds (k / d) ((Nat.div_lt_iff_lt_mul hd).mpr (by rw [Nat.mul_comm]; exact h))
    refine ⟨k % d :: idx, ⟨Nat.mod_lt _ hd, h1⟩, ?_⟩
    rw [fPos, h2]
    exact Nat.mod_add_div _ _

theorem faithful_straight_c {a out : Lay} {si so : Int} (h1 : ∀ idx, InBounds idx a.dims → offs idx a.strides = (cPos idx a.dims : Int) * si)
    (h2 : ∀ idx, InBounds idx a.dims → offs idx out.strides = (cPos idx a.dims : Int) * so) : Faithful a out (straight a.len si so) := by
  constructor
  · intro idx hb
    exact mem_straight.mpr ⟨cPos idx a.dims, cPos_lt _ _ hb, h1 idx hb, h2 idx hb⟩
  · rintro ⟨x, y⟩ hp
    obtain ⟨k, hk, rfl, rfl⟩ := mem_straight.mp hp
    obtain ⟨idx, hb, rfl⟩ := cPos_surj a.dims k hk
    exact ⟨idx, hb, by rw [h1 idx hb, h2 idx hb]⟩

theorem faithful_straight_f {a out : Lay} {si so : Int} (h1 : ∀ idx, InBounds idx a.dims → offs idx a.strides = (fPos idx a.dims : Int) * si)
    (h2 : ∀ idx, InBounds idx a.dims → offs idx out.strides = (fPos idx a.dims : Int) * so) : Faithful a out (straight a.len si so) := by
  constructor
  · intro idx hb
    exact mem_straight.mpr ⟨fPos idx a.dims, fPos_lt _ _ hb, h1 idx hb, h2 idx hb⟩
  · rintro ⟨x, y⟩ hp
    obtain ⟨k, hk, rfl, rfl⟩ := mem_straight.mp hp
    obtain ⟨idx, hb, rfl⟩ := fPos_surj a.dims k hk
    exact ⟨idx, hb, by rw [h1 idx hb, h2 idx hb]⟩

/-- Strides which are those of C order from a distance of the last dimension on, where a dimension has more than one item. -/
theorem offs_chain_c (last : Int) : ∀ (idx dims : List Nat) (ss : List Int), InBounds idx dims → ss.length = dims.length →
    (∀ k, k < dims.length → dims.getD k 0 = 1 ∨ ss.getD k 0 = last * prod (dims.drop (k + 1))) → offs idx ss = (cPos idx dims : Int) * last
  | [], [], [], _, _, _ => by simp [offs, cPos]
  | i :: is, d :: ds, s :: ss, hb, hl, h => by
    have ih := offs_chain_c last is ds ss hb.2 (by simpa using hl) (fun k hk => by
      have := h (k + 1) (by simp; omega)
      simpa using this)
    rw [offs, cPos, ih]
    have h0 := h 0 (by simp)
    simp only [List.getD_cons_zero, List.drop_succ_cons, List.drop_zero] at h0
    push_cast
    rcases h0 with h0 | h0
    · have : i = 0 := by have := hb.1; omega
      subst this; simp
    · rw [h0]; grind
  | [], [], _ :: _, _, hl, _ => by simp at hl
  | _ :: _, _ :: _, [], _, hl, _ => by simp at hl
  | [], _ :: _, _, hb, _, _ => hb.elim
  | _ :: _, [], _, hb, _, _ => hb.elim

theorem backChain_le (a : Lay) : ∀ (k : Nat) (cur : Int), backChain a k cur ≤ k
  | 0, _ => Nat.le_refl _
  | k + 1, cur => by
    rw [backChain]
    split
    · exact Nat.le_refl _
    · have := backChain_le a k (cur * dim a (k + 1)); omega

/-- The dimensions over which the loop for row-major arrays passed have the strides of C order. -/
theorem backChain_spec (a : Lay) (last : Int) : ∀ (k : Nat) (cur : Int), k < a.dims.length → cur = last * prod (a.dims.drop (k + 1)) →
    (∀ j, backChain a k cur ≤ j → j < k → str a j = last * prod (a.dims.drop (j + 1))) ∧
    (backChain a k cur ≠ 0 → str a (backChain a k cur - 1) ≠ last * prod (a.dims.drop (backChain a k cur)))
  | 0, _, _, _ => ⟨fun j _ hj => absurd hj (by omega), fun h => absurd rfl h⟩
  | k + 1, cur, hk, hc => by
    have hd : (prod (a.dims.drop (k + 1)) : Int) = (dim a (k + 1) : Int) * prod (a.dims.drop (k + 2)) := by
      have : a.dims.drop (k + 1) = dim a (k + 1) :: a.dims.drop (k + 2) := by
        rw [List.drop_eq_getElem_cons hk]
        simp [dim, List.getD, hk]
      rw [this, prod]
      push_cast; rfl
    have hc' : cur * dim a (k + 1) = last * prod (a.dims.drop (k + 1)) := by
      rw [hd, hc]; grind
    have hun : backChain a (k + 1) cur = if str a k ≠ cur * dim a (k + 1) then k + 1 else backChain a k (cur * dim a (k + 1)) := rfl
    by_cases h : str a k ≠ cur * dim a (k + 1)
    · rw [if_pos h] at hun
      rw [hun]
      refine ⟨fun j h1 h2 => absurd h1 (by omega), fun _ => ?_⟩
      rw [← hc']
      simpa using h
    · rw [if_neg h] at hun
      rw [hun]
      obtain ⟨ih1, ih2⟩ := backChain_spec a last k _ (by omega) hc'
      refine ⟨fun j h1 h2 => ?_, ih2⟩
      rcases Nat.lt_or_ge j k with h3 | h3
      · exact ih1 j h1 h3
      · have : j = k := by omega
        subst this
        rw [← hc']
        exact Decidable.not_not.mp h

theorem same_get : ∀ (dims : List Nat) (s t : List Int), sameStrides dims s t = true →
    s.length = dims.length ∧ ∀ k : Nat, k < dims.length → dims.getD k 0 = 1 ∨ s.getD k 0 = t.getD k 0
  | [], [], [], _ => ⟨rfl, fun k hk => absurd hk (by simp)⟩
  | d :: ds, s :: ss, t :: ts, h => by
    rw [sameStrides, Bool.and_eq_true] at h
    obtain ⟨h1, h2⟩ := same_get ds ss ts h.2
    refine ⟨by simp [h1], fun k hk => ?_⟩
    cases k with
    | zero => simpa using h.1
    | succ k => simpa using h2 k (by simpa using hk)
  | [], [], _ :: _, h => by simp [sameStrides] at h
  | [], _ :: _, _, h => by simp [sameStrides] at h
  | _ :: _, [], _, h => by simp [sameStrides] at h
  | _ :: _, _ :: _, [], h => by simp [sameStrides] at h

theorem cStrides_get (item : Nat) : ∀ (dims : List Nat) (k : Nat), k < dims.length →
    (cStrides item dims).getD k 0 = ((prod (dims.drop (k + 1)) * item : Nat) : Int)
  | _ :: _, 0, _ => by simp [cStrides]
  | _ :: ds, k + 1, h => by
    have := cStrides_get item ds k (by simpa using h)
    simpa [cStrides] using this

theorem fStrides_get : ∀ (item : Nat) (dims : List Nat) (k : Nat), k < dims.length →
    (fStrides item dims).getD k 0 = ((item * prod (dims.take k) : Nat) : Int)
  | _, _ :: _, 0, _ => by simp [fStrides, prod]
  | item, d :: ds, k + 1, h => by
    have := fStrides_get (item * d) ds k (by simpa using h)
    rw [fStrides, List.getD_cons_succ, this, List.take_succ_cons, prod, Nat.mul_assoc]

theorem prod_append : ∀ l m : List Nat, prod (l ++ m) = prod l * prod m
  | [], m => by simp [prod]
  | d :: l, m => by rw [List.cons_append, prod, prod_append l m, prod, Nat.mul_assoc]

theorem prod_split (dims : List Nat) (k : Nat) : prod dims = prod (dims.take k) * prod (dims.drop k) := by
  rw [← prod_append, List.take_append_drop]

theorem prod_drop_pos {dims : List Nat} (h : prod dims ≠ 0) (k : Nat) : 0 < prod (dims.drop k) := by
  rw [prod_split dims k] at h
  exact Nat.pos_of_ne_zero (fun h0 => h (by rw [h0, Nat.mul_zero]))

theorem prod_take_pos {dims : List Nat} (h : prod dims ≠ 0) (k : Nat) : 0 < prod (dims.take k) := by
  rw [prod_split dims k] at h
  exact Nat.pos_of_ne_zero (fun h0 => h (by rw [h0, Nat.zero_mul]))

theorem dim_pos {a : Lay} (h : a.len ≠ 0) {k : Nat} (hk : k < a.dims.length) : 0 < dim a k := by
  have h1 := prod_drop_pos h k
  rw [List.drop_eq_getElem_cons hk, prod] at h1
  have : dim a k = a.dims[k] := by simp [dim, List.getD, hk]
  rw [this]
  exact Nat.pos_of_mul_pos_right h1

theorem c_get {a : Lay} (h : a.cContig = true) (hl : a.len ≠ 0) :
    a.strides.length = a.dims.length ∧
    ∀ k : Nat, k < a.dims.length → dim a k = 1 ∨ str a k = ((prod (a.dims.drop (k + 1)) * a.item : Nat) : Int) := by
  unfold Lay.cContig at h
  rw [decide_eq_false hl, Bool.false_or] at h
  obtain ⟨h1, h2⟩ := same_get _ _ _ h
  refine ⟨h1, fun k hk => ?_⟩
  rw [← cStrides_get a.item a.dims k hk]
  exact h2 k hk

theorem f_get {a : Lay} (h : a.fContig = true) (hl : a.len ≠ 0) :
    a.strides.length = a.dims.length ∧
    ∀ k : Nat, k < a.dims.length → dim a k = 1 ∨ str a k = ((a.item * prod (a.dims.take k) : Nat) : Int) := by
  unfold Lay.fContig at h
  rw [decide_eq_false hl, Bool.false_or] at h
  obtain ⟨h1, h2⟩ := same_get _ _ _ h
  refine ⟨h1, fun k hk => ?_⟩
  rw [← fStrides_get a.item a.dims k hk]
  exact h2 k hk

/-- What is found about a C-contiguous array. -/
theorem contig_c {a : Lay} (h : a.cContig = true) (hl : a.len ≠ 0) (hi : 0 < a.item) :
    (contig a).1 ≠ 1 ∧ (contig a).1 ≠ -1 ∧ ((contig a).1 = 0 → (contig a).2 = a.item) := by
  obtain ⟨h1, h2⟩ := c_get h hl
  have hhead : headStride a = a.item ∨ (1 < dim a 0 ∧ headStride a = ((prod (a.dims.drop 1) * a.item : Nat) : Int)) := by
    unfold headStride
    split
    · rename_i hc
      rcases h2 0 hc.1 with h3 | h3
      · omega
      · exact .inr ⟨hc.2, h3⟩
    · exact .inl rfl
  have hhd : 0 < a.dims.length → 1 < dim a 0 → headStride a = str a 0 := fun x y => by unfold headStride; rw [if_pos ⟨x, y⟩]
  unfold contig
  split
  · rename_i hn
    refine ⟨by simp, by simp, fun _ => ?_⟩
    rcases hhead with h3 | ⟨_, h3⟩
    · exact h3
    · rw [List.drop_eq_nil_of_le hn, prod, Nat.one_mul] at h3; exact h3
  · rename_i hn
    have hlast : lastStride a = a.item := by
      unfold lastStride
      split
      · rename_i hc
        rcases h2 (a.dims.length - 1) (by omega) with h3 | h3
        · omega
        · rw [h3, List.drop_eq_nil_of_le (by omega), prod, Nat.one_mul]
      · rfl
    rw [hlast]
    have hge : (a.item : Int) ≤ headStride a := by
      rcases hhead with h3 | ⟨_, h3⟩
      · omega
      · rw [h3]
        have := Nat.mul_le_mul_right a.item (prod_drop_pos hl 1)
        omega
    split
    · rename_i he
      exact ⟨by simp, by simp, fun _ => he.symm⟩
    · rename_i he
      split
      · refine ⟨fun hb => ?_, by omega, fun _ => rfl⟩
        have hb : backChain a (a.dims.length - 1) a.item = 1 := by
          have hb' : ((backChain a (a.dims.length - 1) a.item : Nat) : Int) = 1 := hb
          omega
        have hs := (backChain_spec a a.item (a.dims.length - 1) a.item (by omega)
          (by rw [List.drop_eq_nil_of_le (by omega), prod]; simp)).2 (by omega)
        rw [hb] at hs
        apply hs
        rcases hhead with h3 | ⟨h4, h3⟩
        · exact absurd h3.symm he
        · rw [hhd (by omega) h4] at h3
          rw [h3]
          push_cast
          exact Int.mul_comm _ _
      · omega

theorem drop_one_len {a : Lay} (hn : ¬ a.dims.length ≤ 1) : a.dims.length - 1 < a.dims.length := by omega

/-- The dimensions over which the loop for column-major arrays passed have the strides of Fortran order. -/
theorem fwdChain_spec (a : Lay) (first : Int) : ∀ (r : Nat) (cur : Int), r < a.dims.length →
    cur = first * prod (a.dims.take (a.dims.length - 1 - r)) →
    (∀ j, a.dims.length - 1 - r < j → j + fwdChain a r cur < a.dims.length → str a j = first * prod (a.dims.take j)) ∧
    fwdChain a r cur ≤ r ∧
    (fwdChain a r cur ≠ 0 → str a (a.dims.length - fwdChain a r cur) ≠ first * prod (a.dims.take (a.dims.length - fwdChain a r cur)))
  | 0, _, _, _ => ⟨fun j h1 h2 => absurd h2 (by omega), Nat.le_refl _, fun h => absurd rfl h⟩
  | r + 1, cur, hr, hc => by
    have hk : a.dims.length - 1 - (r + 1) < a.dims.length := by omega
    have he : a.dims.length - 1 - (r + 1) + 1 = a.dims.length - 1 - r := by omega
    have hd : (prod (a.dims.take (a.dims.length - 1 - r)) : Int) =
        prod (a.dims.take (a.dims.length - 1 - (r + 1))) * (dim a (a.dims.length - 1 - (r + 1)) : Int) := by
      rw [← he, List.take_succ_eq_append_getElem hk, prod_append, prod, prod]
      have : dim a (a.dims.length - 1 - (r + 1)) = a.dims[a.dims.length - 1 - (r + 1)] := by simp [dim, List.getD, hk]
      rw [this]
      push_cast; simp
    have hc' : cur * dim a (a.dims.length - 1 - (r + 1)) = first * prod (a.dims.take (a.dims.length - 1 - r)) := by
      rw [hd, hc]; grind
    have hun : fwdChain a (r + 1) cur = if str a (a.dims.length - 1 - (r + 1) + 1) ≠ cur * dim a (a.dims.length - 1 - (r + 1)) then r + 1
      else fwdChain a r (cur * dim a (a.dims.length - 1 - (r + 1))) := rfl
    rw [he] at hun
    by_cases h : str a (a.dims.length - 1 - r) ≠ cur * dim a (a.dims.length - 1 - (r + 1))
    · rw [if_pos h] at hun
      rw [hun]
      refine ⟨fun j h1 h2 => absurd h1 (by omega), Nat.le_refl _, fun _ => ?_⟩
      rw [hc'] at h
      have e : a.dims.length - (r + 1) = a.dims.length - 1 - r := by omega
      rw [e]
      exact h
    · rw [if_neg h] at hun
      rw [hun]
      obtain ⟨ih1, ih2, ih3⟩ := fwdChain_spec a first r _ (by omega) hc'
      refine ⟨fun j h1 h2 => ?_, by omega, ih3⟩
      rcases Nat.lt_or_ge (a.dims.length - 1 - r) j with h3 | h3
      · exact ih1 j h3 h2
      · have : j = a.dims.length - 1 - r := by omega
        subst this
        rw [← hc']
        exact Decidable.not_not.mp h

/-- What is found about a Fortran-contiguous array. -/
theorem contig_f {a : Lay} (h : a.fContig = true) (hl : a.len ≠ 0) (hi : 0 < a.item) :
    (contig a).1 ≠ 1 ∧ (contig a).1 ≠ -1 ∧ ((contig a).1 = 0 → (contig a).2 = a.item) := by
  obtain ⟨h1, h2⟩ := f_get h hl
  have hhead : headStride a = a.item := by
    unfold headStride
    split
    · rename_i hc
      rcases h2 0 hc.1 with h3 | h3
      · omega
      · rw [h3]; simp [prod]
    · rfl
  unfold contig
  rw [hhead]
  split
  · exact ⟨by simp, by simp, fun _ => rfl⟩
  · rename_i hn
    have hlast : lastStride a = a.item ∨ (lastStride a = str a (a.dims.length - 1) ∧
        str a (a.dims.length - 1) = ((a.item * prod (a.dims.take (a.dims.length - 1)) : Nat) : Int)) := by
      unfold lastStride
      split
      · rename_i hc
        rcases h2 (a.dims.length - 1) (by omega) with h3 | h3
        · omega
        · exact .inr ⟨rfl, h3⟩
      · exact .inl rfl
    have hge : (a.item : Int) ≤ lastStride a := by
      rcases hlast with h3 | ⟨h4, h3⟩
      · omega
      · rw [h4, h3]
        have := Nat.mul_le_mul_left a.item (prod_take_pos hl (a.dims.length - 1))
        omega
    split
    · exact ⟨by simp, by simp, fun _ => rfl⟩
    · rename_i he
      split
      · omega
      · refine ⟨by simp only; omega, fun hb => ?_, fun _ => rfl⟩
        have hb : fwdChain a (a.dims.length - 1) a.item = 1 := by
          have hb' : -((fwdChain a (a.dims.length - 1) a.item : Nat) : Int) = -1 := hb
          omega
        have hs := (fwdChain_spec a a.item (a.dims.length - 1) a.item (by omega)
          (by rw [Nat.sub_self, List.take_zero, prod]; simp)).2.2 (by omega)
        rw [hb] at hs
        apply hs
        rcases hlast with h3 | ⟨_, h3⟩
        · exact absurd h3 he
        · rw [h3]; push_cast; rfl

/-- Two arrays of the same shape which are both contiguous in C order, or both in Fortran order: the walk is right, in any number of
dimensions, unless it is left to numpy. -/
theorem plan_contiguous {a out : Lay} (hd : out.dims = a.dims) (hl : a.len ≠ 0) (hi : 0 < a.item) (ho : 0 < out.item)
    (hc : (a.cContig = true ∧ out.cContig = true) ∨ (a.fContig = true ∧ out.fContig = true)) {l : List (Int × Int)} (hp : plan a out = some l) :
    Faithful a out l := by
  have hlo : out.len ≠ 0 := by unfold Lay.len at *; rw [hd]; exact hl
  have hfact : ((contig a).1 ≠ 1 ∧ (contig a).1 ≠ -1 ∧ ((contig a).1 = 0 → (contig a).2 = a.item)) ∧
      ((contig out).1 = 0 → (contig out).2 = out.item) := by
    rcases hc with ⟨h1, h2⟩ | ⟨h1, h2⟩
    · exact ⟨contig_c h1 hl hi, (contig_c h2 hlo ho).2.2⟩
    · exact ⟨contig_f h1 hl hi, (contig_f h2 hlo ho).2.2⟩
  obtain ⟨⟨g1, g2, g3⟩, g4⟩ := hfact
  have hun : plan a out = if (contig a).1 = 0 ∧ (contig out).1 = 0 then some (straight a.len (contig a).2 (contig out).2)
      else if (contig a).1 = 1 ∧ (contig out).1 = 0 then some (nested (dim a 0) (prod (a.dims.drop 1)) (str a 0) (contig a).2 (contig out).2)
      else if (contig a).1 = -1 ∧ (contig out).1 = 0 then
        some (nested (dim a (a.dims.length - 1)) (prod (a.dims.take 1)) (str a (a.dims.length - 1)) (contig a).2 (contig out).2)
      else none := rfl
  rw [hun] at hp
  split at hp
  · rename_i hz
    rw [g3 hz.1, g4 hz.2] at hp
    have := Option.some.inj hp
    subst this
    rcases hc with ⟨h1, h2⟩ | ⟨h1, h2⟩
    · exact faithful_straight_c (fun idx hb => offs_cContig a h1 idx hb) (fun idx hb => by
        rw [offs_cContig out h2 idx (by rw [hd]; exact hb), hd])
    · exact faithful_straight_f (fun idx hb => offs_fContig a h1 idx hb) (fun idx hb => by
        rw [offs_fContig out h2 idx (by rw [hd]; exact hb), hd])
  · rw [if_neg (fun h => g1 h.1), if_neg (fun h => g2 h.1)] at hp
    exact absurd hp (by simp)

/-- A given output of the same shape and order. -/
theorem given_contiguous_partial {a out : Lay} (hd : out.dims = a.dims) (hl : a.len ≠ 0) (hi : 0 < a.item) (ho : 0 < out.item)
    (hc : (a.cContig = true ∧ out.cContig = true) ∨ (a.fContig = true ∧ out.fContig = true)) {l : List (Int × Int)}
    (hp : planGiven a out = some l) : Faithful a out l := by
  unfold planGiven at hp
  split at hp
  · exact plan_contiguous hd hl hi ho hc hp
  · exact absurd hp (by simp)

theorem same_refl : ∀ (dims : List Nat) (s : List Int), s.length = dims.length → sameStrides dims s s = true
  | [], [], _ => rfl
  | _ :: ds, _ :: ss, h => by rw [sameStrides, same_refl ds ss (by simpa using h)]; simp
  | [], _ :: _, h => by simp at h
  | _ :: _, [], h => by simp at h

theorem cStrides_length (item : Nat) : ∀ dims : List Nat, (cStrides item dims).length = dims.length
  | [] => rfl
  | _ :: ds => by simp [cStrides, cStrides_length item ds]

theorem fStrides_length : ∀ (item : Nat) (dims : List Nat), (fStrides item dims).length = dims.length
  | _, [] => rfl
  | item, d :: ds => by simp [fStrides, fStrides_length (item * d) ds]

theorem alloc_c (dims : List Nat) (item : Nat) : Lay.cContig ⟨dims, cStrides item dims, item⟩ = true := by
  unfold Lay.cContig
  simp only
  rw [same_refl _ _ (cStrides_length _ _)]; simp

theorem alloc_f (dims : List Nat) (item : Nat) : Lay.fContig ⟨dims, fStrides item dims, item⟩ = true := by
  unfold Lay.fContig
  simp only
  rw [same_refl _ _ (fStrides_length _ _)]; simp

theorem offs_nil (s : List Int) : offs [] s = 0 := by cases s <;> rfl

/-- A new output for an array of at most one dimension, whatever its stride, or for a contiguous array of any number of dimensions: the walk is
right, unless it is left to numpy. -/
theorem new_contiguous_partial {a : Lay} {item : Nat} (hw : a.strides.length = a.dims.length) (hl : a.len ≠ 0) (hi : 0 < a.item) (ho : 0 < item)
    (hc : a.dims.length ≤ 1 ∨ a.cContig = true ∨ a.fContig = true) {l : List (Int × Int)} (hp : planNew a item = some l) :
    Faithful a (newOut a item) l := by
  by_cases hn : a.dims.length ≤ 1
  · have hcon : contig a = (0, headStride a) := by unfold contig; rw [if_pos hn]
    unfold planNew at hp
    rw [hcon, if_pos rfl] at hp
    have := Option.some.inj hp
    subst this
    have hno : newOut a item = ⟨[a.len], [(item : Int)], item⟩ := by unfold newOut; rw [if_pos hn]
    rw [hno]
    obtain ⟨dims, strides, it⟩ := a
    match dims, strides, hw, hn with
    | [], [], _, _ =>
      refine faithful_straight_c (fun idx hb => ?_) (fun idx hb => ?_) <;>
      · cases idx with
        | nil => simp [offs, cPos]
        | cons _ _ => exact hb.elim
    | [d], [s], _, _ =>
      refine faithful_straight_c (fun idx hb => ?_) (fun idx hb => ?_)
      · match idx, hb with
        | [i], hb =>
          have hb1 : i < d := hb.1
          show offs [i] [s] = (cPos [i] [d] : Int) * headStride ⟨[d], [s], it⟩
          by_cases h : 1 < d
          · have e : headStride ⟨[d], [s], it⟩ = s := by unfold headStride; rw [if_pos ⟨by simp, h⟩]; rfl
            rw [e]; simp [offs, cPos, prod]
          · have : i = 0 := by omega
            subst this; simp [offs, cPos, prod]
      · match idx, hb with
        | [i], hb => simp [offs, cPos, prod]
  · have hcf : a.cContig = true ∨ a.fContig = true := hc.resolve_left hn
    have hno : newOut a item = if a.cContig then ⟨a.dims, cStrides item a.dims, item⟩ else ⟨a.dims, fStrides item a.dims, item⟩ := by
      unfold newOut
      rw [if_neg hn]
      cases h1 : a.cContig with
      | true => rfl
      | false =>
        rcases hcf with h2 | h2
        · rw [h1] at h2; exact absurd h2 (by simp)
        · rw [h2]; rfl
    have hboth : (a.cContig = true ∧ (newOut a item).cContig = true) ∨ (a.fContig = true ∧ (newOut a item).fContig = true) := by
      rw [hno]
      cases h1 : a.cContig with
      | true => exact .inl ⟨rfl, alloc_c _ _⟩
      | false =>
        rcases hcf with h2 | h2
        · rw [h1] at h2; exact absurd h2 (by simp)
        · exact .inr ⟨h2, alloc_f _ _⟩
    have hd : (newOut a item).dims = a.dims := by rw [hno]; split <;> rfl
    have hit : (newOut a item).item = item := by rw [hno]; split <;> rfl
    unfold planNew at hp
    split at hp
    · rename_i hz
      have := Option.some.inj hp
      subst this
      rcases hboth with ⟨h1, h2⟩ | ⟨h1, h2⟩
      · rw [(contig_c h1 hl hi).2.2 hz]
        exact faithful_straight_c (fun idx hb => offs_cContig a h1 idx hb) (fun idx hb => by
          rw [offs_cContig _ h2 idx (by rw [hd]; exact hb), hd, hit])
      · rw [(contig_f h1 hl hi).2.2 hz]
        exact faithful_straight_f (fun idx hb => offs_fContig a h1 idx hb) (fun idx hb => by
          rw [offs_fContig _ h2 idx (by rw [hd]; exact hb), hd, hit])
    · exact plan_contiguous hd hl hi (by rw [hit]; exact ho) hboth hp

end Riptide.Unary
