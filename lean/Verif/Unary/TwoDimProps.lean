import Verif.Unary.StridedProps
/-! Arrays of two dimensions with any strides, row-major arrays of any number of dimensions, and what goes wrong otherwise. -/
namespace Riptide.Unary
open Riptide.Binary

theorem plan_eq (a out : Lay) : plan a out =
    if (contig a).1 = 0 ∧ (contig out).1 = 0 then some (straight a.len (contig a).2 (contig out).2)
    else if (contig a).1 = 1 ∧ (contig out).1 = 0 then some (nested (dim a 0) (prod (a.dims.drop 1)) (str a 0) (contig a).2 (contig out).2)
    else if (contig a).1 = -1 ∧ (contig out).1 = 0 then
      some (nested (dim a (a.dims.length - 1)) (prod (a.dims.take 1)) (str a (a.dims.length - 1)) (contig a).2 (contig out).2)
    else none := rfl

/-- The last dimension is closer than the first, as it is in C order. -/
def RowMajor (a : Lay) : Prop := 1 < a.dims.length ∧ (lastStride a).natAbs < (headStride a).natAbs

/-- A row-major array of any number of dimensions, with gaps or running backwards, and an output in C order: the walk is right, unless it is left to
numpy. -/
theorem row_major_partial {a out : Lay} (hw : a.strides.length = a.dims.length) (hd : out.dims = a.dims) (hl : a.len ≠ 0) (ho : 0 < out.item)
    (hr : RowMajor a) (hc : out.cContig = true) {l : List (Int × Int)} (hp : plan a out = some l) : Faithful a out l := by
  obtain ⟨hn, hlt⟩ := hr
  have hlo : out.len ≠ 0 := by unfold Lay.len at *; rw [hd]; exact hl
  have hcon : contig a = ((backChain a (a.dims.length - 1) (lastStride a) : Int), lastStride a) := by
    unfold contig
    rw [if_neg (by omega), if_neg (fun h => by rw [h] at hlt; omega), if_pos hlt]
  have hstep := (contig_c hc hlo ho).2.2
  have hspec := (backChain_spec a (lastStride a) (a.dims.length - 1) (lastStride a) (by omega)
    (by rw [List.drop_eq_nil_of_le (by omega), prod]; simp)).1
  have hlastk : dim a (a.dims.length - 1) = 1 ∨ str a (a.dims.length - 1) = lastStride a := by
    have := dim_pos hl (show a.dims.length - 1 < a.dims.length by omega)
    unfold lastStride
    split
    · exact .inr rfl
    · left; omega
  rw [plan_eq, hcon] at hp
  split at hp
  · rename_i hz
    have hz1 : backChain a (a.dims.length - 1) (lastStride a) = 0 := by
      have := hz.1; simp only at this; omega
    rw [hstep hz.2] at hp
    have := Option.some.inj hp
    subst this
    refine faithful_straight_c (fun idx hb => ?_) (fun idx hb => ?_)
    · refine offs_chain_c _ idx a.dims a.strides hb hw (fun k hk => ?_)
      rcases Nat.lt_or_ge k (a.dims.length - 1) with h1 | h1
      · exact .inr (hspec k (by omega) h1)
      · have : k = a.dims.length - 1 := by omega
        subst this
        rcases hlastk with h2 | h2
        · exact .inl h2
        · right
          rw [List.drop_eq_nil_of_le (by omega), prod]
          simpa [str] using h2
    · rw [offs_cContig out hc idx (by rw [hd]; exact hb), hd]
  · split at hp
    · rename_i hz
      have hz1 : backChain a (a.dims.length - 1) (lastStride a) = 1 := by
        have := hz.1; simp only at this; omega
      rw [hstep hz.2] at hp
      have := Option.some.inj hp
      subst this
      have hin : ∀ (i : Nat) (is : List Nat), InBounds (i :: is) a.dims → offs (i :: is) a.strides =
          (i : Int) * str a 0 + (cPos is (a.dims.drop 1) : Int) * lastStride a := by
        intro i is hb
        have hs0 : a.strides = str a 0 :: a.strides.drop 1 := by
          cases hs : a.strides with
          | nil => rw [hs] at hw; simp at hw; omega
          | cons s ss => simp [str, hs]
        have hd0 : a.dims = dim a 0 :: a.dims.drop 1 := by
          cases hs : a.dims with
          | nil => rw [hs] at hn; simp at hn
          | cons s ss => simp [dim, hs]
        rw [hs0, offs]
        congr 1
        rw [hd0] at hb
        refine offs_chain_c _ is (a.dims.drop 1) (a.strides.drop 1) hb.2 (by simp [hw]) (fun k hk => ?_)
        have hk' : k + 1 < a.dims.length := by simp at hk; omega
        have e1 : (a.dims.drop 1).getD k 0 = dim a (k + 1) := by simp [dim, List.getD]
        have e2 : (a.strides.drop 1).getD k 0 = str a (k + 1) := by simp [str, List.getD]
        have e3 : (a.dims.drop 1).drop (k + 1) = a.dims.drop (k + 1 + 1) := by rw [List.drop_drop]; congr 1; omega
        rw [e1, e2, e3]
        rcases Nat.lt_or_ge (k + 1) (a.dims.length - 1) with h1 | h1
        · exact .inr (hspec (k + 1) (by omega) h1)
        · have he : k + 1 = a.dims.length - 1 := by omega
          rw [he]
          rcases hlastk with h2 | h2
          · exact .inl h2
          · right
            rw [List.drop_eq_nil_of_le (by omega), prod]
            simpa using h2
      have hout : ∀ (i : Nat) (is : List Nat), InBounds (i :: is) a.dims → offs (i :: is) out.strides =
          ((i : Int) * (prod (a.dims.drop 1) : Int) + (cPos is (a.dims.drop 1) : Int)) * out.item := by
        intro i is hb
        rw [offs_cContig out hc _ (by rw [hd]; exact hb), hd]
        have hd0 : a.dims = dim a 0 :: a.dims.drop 1 := by
          cases hs : a.dims with
          | nil => rw [hs] at hn; simp at hn
          | cons s ss => simp [dim, hs]
        rw [show cPos (i :: is) a.dims = i * prod (a.dims.drop 1) + cPos is (a.dims.drop 1) by rw [hd0]; rfl]
        push_cast; rfl
      have hd0 : a.dims = dim a 0 :: a.dims.drop 1 := by
        cases hs : a.dims with
        | nil => rw [hs] at hn; simp at hn
        | cons s ss => simp [dim, hs]
      constructor
      · intro idx hb
        match idx, hb with
        | [], hb => rw [hd0] at hb; exact hb.elim
        | i :: is, hb =>
          have hb' : InBounds (i :: is) (dim a 0 :: a.dims.drop 1) := by rw [← hd0]; exact hb
          exact mem_nested.mpr ⟨i, cPos is (a.dims.drop 1), hb'.1, cPos_lt _ _ hb'.2, hin i is hb, hout i is hb⟩
      · rintro ⟨x, y⟩ hm
        obtain ⟨j, i, hj, hi, rfl, rfl⟩ := mem_nested.mp hm
        obtain ⟨is, hb, rfl⟩ := cPos_surj _ i hi
        have hb' : InBounds (j :: is) a.dims := by rw [hd0]; exact ⟨hj, hb⟩
        exact ⟨j :: is, hb', by rw [hin j is hb', hout j is hb']⟩
    · split at hp
      · rename_i hz
        have := hz.1; simp only at this; omega
      · exact absurd hp (by simp)

theorem inBounds2 {m n : Nat} {idx : List Nat} : InBounds idx [m, n] ↔ ∃ i j, idx = [i, j] ∧ i < m ∧ j < n := by
  constructor
  · intro h
    match idx, h with
    | [i, j], h => exact ⟨i, j, rfl, h.1, h.2.1⟩
    | [_], h => exact h.2.elim
    | _ :: _ :: _ :: _, h => exact h.2.2.elim
  · rintro ⟨i, j, rfl, h1, h2⟩
    exact ⟨h1, h2, trivial⟩

theorem offs2 (i j : Nat) (s0 s1 : Int) : offs [i, j] [s0, s1] = i * s0 + j * s1 := by simp [offs]

theorem faithful2 {m n it o : Nat} {s0 s1 t0 t1 : Int} {d : List Nat} {l : List (Int × Int)} :
    Faithful ⟨[m, n], [s0, s1], it⟩ ⟨d, [t0, t1], o⟩ l ↔
      (∀ i j : Nat, i < m → j < n → ((i : Int) * s0 + (j : Int) * s1, (i : Int) * t0 + (j : Int) * t1) ∈ l) ∧
      ∀ x y : Int, (x, y) ∈ l → ∃ i j : Nat, i < m ∧ j < n ∧ x = (i : Int) * s0 + (j : Int) * s1 ∧ y = (i : Int) * t0 + (j : Int) * t1 := by
  constructor
  · rintro ⟨h1, h2⟩
    refine ⟨fun i j hi hj => ?_, fun x y hxy => ?_⟩
    · have := h1 [i, j] (inBounds2.mpr ⟨i, j, rfl, hi, hj⟩)
      simpa only [offs2] using this
    · obtain ⟨idx, hb, he⟩ := h2 _ hxy
      obtain ⟨i, j, rfl, hi, hj⟩ := inBounds2.mp hb
      simp only [offs2, Prod.mk.injEq] at he
      exact ⟨i, j, hi, hj, he.1, he.2⟩
  · rintro ⟨h1, h2⟩
    refine ⟨fun idx hb => ?_, ?_⟩
    · obtain ⟨i, j, rfl, hi, hj⟩ := inBounds2.mp hb
      have := h1 i j hi hj
      simpa only [offs2] using this
    · rintro ⟨x, y⟩ hxy
      obtain ⟨i, j, hi, hj, hx, hy⟩ := h2 x y hxy
      exact ⟨[i, j], inBounds2.mpr ⟨i, j, rfl, hi, hj⟩, by rw [offs2, offs2, hx, hy]⟩

theorem head2 (m n it : Nat) (s0 s1 : Int) : headStride ⟨[m, n], [s0, s1], it⟩ = if 1 < m then s0 else it := by
  unfold headStride dim str
  simp

theorem last2 (m n it : Nat) (s0 s1 : Int) : lastStride ⟨[m, n], [s0, s1], it⟩ = if 1 < n then s1 else it := by
  unfold lastStride dim str
  simp

/-- What is found about an array of two dimensions. -/
theorem contig2 (m n it : Nat) (s0 s1 : Int) {h t : Int} (hh : (if 1 < m then s0 else (it : Int)) = h) (ht : (if 1 < n then s1 else (it : Int)) = t) :
    contig ⟨[m, n], [s0, s1], it⟩ =
      if t = h then (0, h) else if t.natAbs < h.natAbs then (if s0 = t * n then 0 else 1, t) else (if s1 = h * m then 0 else -1, h) := by
  have e1 := head2 m n it s0 s1
  have e2 := last2 m n it s0 s1
  rw [hh] at e1
  rw [ht] at e2
  unfold contig
  rw [e1, e2]
  have b : backChain ⟨[m, n], [s0, s1], it⟩ 1 t = if s0 ≠ t * n then 1 else 0 := rfl
  have c : fwdChain ⟨[m, n], [s0, s1], it⟩ 1 h = if s1 ≠ h * m then 1 else 0 := rfl
  have hl : (⟨[m, n], [s0, s1], it⟩ : Lay).dims.length = 2 := rfl
  rw [hl, if_neg (by decide)]
  show (if t = h then _ else if _ then (((backChain ⟨[m, n], [s0, s1], it⟩ 1 t : Nat) : Int), t) else (-((fwdChain ⟨[m, n], [s0, s1], it⟩ 1 h : Nat) : Int), h)) = _
  rw [b, c]
  by_cases hb : s0 = t * n <;> by_cases hc : s1 = h * m <;> simp [hb, hc]

theorem same2 (m n : Nat) (s0 s1 t0 t1 : Int) : sameStrides [m, n] [s0, s1] [t0, t1] = true ↔ (m = 1 ∨ s0 = t0) ∧ (n = 1 ∨ s1 = t1) := by
  simp [sameStrides]

theorem cContig2 {m n it : Nat} {s0 s1 : Int} (hm : 0 < m) (hn : 0 < n) :
    (⟨[m, n], [s0, s1], it⟩ : Lay).cContig = true ↔ (m = 1 ∨ s0 = n * it) ∧ (n = 1 ∨ s1 = it) := by
  unfold Lay.cContig Lay.len
  have : prod [m, n] ≠ 0 := by show m * (n * 1) ≠ 0; rw [Nat.mul_one]; exact Nat.ne_of_gt (Nat.mul_pos hm hn)
  simp only
  rw [decide_eq_false this, Bool.false_or]
  simp [cStrides, prod, same2]

theorem fContig2 {m n it : Nat} {s0 s1 : Int} (hm : 0 < m) (hn : 0 < n) :
    (⟨[m, n], [s0, s1], it⟩ : Lay).fContig = true ↔ (m = 1 ∨ s0 = it) ∧ (n = 1 ∨ s1 = it * m) := by
  unfold Lay.fContig Lay.len
  have : prod [m, n] ≠ 0 := by show m * (n * 1) ≠ 0; rw [Nat.mul_one]; exact Nat.ne_of_gt (Nat.mul_pos hm hn)
  simp only
  rw [decide_eq_false this, Bool.false_or]
  simp [fStrides, same2]

theorem keep2 (m n it item : Nat) (s0 s1 : Int) : keepStrides ⟨[m, n], [s0, s1], it⟩ item =
    if s0.natAbs < s1.natAbs then [(item : Int), (m * item : Nat)] else [((n * item : Nat) : Int), (item : Int)] := by
  have e : sortedDims ⟨[m, n], [s0, s1], it⟩ = if s0.natAbs < s1.natAbs then [1, 0] else [0, 1] := rfl
  unfold keepStrides
  rw [e]
  split <;> simp [List.range_succ, List.dropWhile, prod, dim]

/-- The strides of a new output: C order or Fortran order. -/
theorem newOut2 {m n it item : Nat} {s0 s1 : Int} (hm : 0 < m) (hn : 0 < n) (hi : 0 < it) :
    ∃ t0 t1 : Int, newOut ⟨[m, n], [s0, s1], it⟩ item = ⟨[m, n], [t0, t1], item⟩ ∧
      ((t0 = n * item ∧ t1 = item) ∨ (t0 = item ∧ t1 = m * item)) ∧
      (1 < m → 1 < n → (if s0.natAbs < s1.natAbs then t0 = item ∧ t1 = m * item else t0 = n * item ∧ t1 = item)) := by
  have hc := cContig2 (it := it) (s0 := s0) (s1 := s1) hm hn
  have hf := fContig2 (it := it) (s0 := s0) (s1 := s1) hm hn
  have hun : newOut ⟨[m, n], [s0, s1], it⟩ item = ⟨[m, n], if (⟨[m, n], [s0, s1], it⟩ : Lay).cContig then cStrides item [m, n]
    else if (⟨[m, n], [s0, s1], it⟩ : Lay).fContig then fStrides item [m, n] else keepStrides ⟨[m, n], [s0, s1], it⟩ item, item⟩ := rfl
  have ec : cStrides item [m, n] = [(n * item : Int), (item : Int)] := by simp [cStrides, prod]
  have ef : fStrides item [m, n] = [(item : Int), (m * item : Int)] := by simp [fStrides, Int.mul_comm]
  rw [hun]
  by_cases h1 : (⟨[m, n], [s0, s1], it⟩ : Lay).cContig = true
  · rw [if_pos h1, ec]
    refine ⟨_, _, rfl, .inl ⟨rfl, rfl⟩, fun a b => ?_⟩
    obtain ⟨g1, g2⟩ := hc.mp h1
    have g1 : s0 = n * it := by rcases g1 with g1 | g1; omega; exact g1
    have g2 : s1 = it := by rcases g2 with g2 | g2; omega; exact g2
    have : it ≤ n * it := Nat.le_mul_of_pos_left _ hn
    have e : s0 = ((n * it : Nat) : Int) := by rw [g1]; push_cast; rfl
    rw [if_neg (by omega)]
    exact ⟨rfl, rfl⟩
  · rw [if_neg h1]
    by_cases h2 : (⟨[m, n], [s0, s1], it⟩ : Lay).fContig = true
    · rw [if_pos h2, ef]
      refine ⟨_, _, rfl, .inr ⟨rfl, rfl⟩, fun a b => ?_⟩
      obtain ⟨g1, g2⟩ := hf.mp h2
      have g1 : s0 = it := by rcases g1 with g1 | g1; omega; exact g1
      have g2 : s1 = it * m := by rcases g2 with g2 | g2; omega; exact g2
      have : it * 2 ≤ it * m := Nat.mul_le_mul_left _ a
      have e : s1 = ((it * m : Nat) : Int) := by rw [g2]; push_cast; rfl
      rw [if_pos (by omega)]
      exact ⟨rfl, rfl⟩
    · rw [if_neg h2, keep2]
      by_cases h3 : s0.natAbs < s1.natAbs
      · rw [if_pos h3]
        refine ⟨_, _, rfl, .inr ⟨rfl, by push_cast; rfl⟩, fun _ _ => ?_⟩
        rw [if_pos h3]
        exact ⟨rfl, by push_cast; rfl⟩
      · rw [if_neg h3]
        refine ⟨_, _, rfl, .inl ⟨by push_cast; rfl, rfl⟩, fun _ _ => ?_⟩
        rw [if_neg h3]
        exact ⟨by push_cast; rfl, rfl⟩

/-- The output of two dimensions counts as contiguous. -/
theorem contig_out2 {m n item : Nat} {t0 t1 : Int} (hm : 0 < m) (hn : 0 < n) (ho : 0 < item)
    (ht : (t0 = n * item ∧ t1 = item) ∨ (t0 = item ∧ t1 = m * item)) : contig ⟨[m, n], [t0, t1], item⟩ = (0, (item : Int)) := by
  have e1 : ((n * item : Nat) : Int) = n * item := by push_cast; rfl
  have e2 : ((m * item : Nat) : Int) = m * item := by push_cast; rfl
  have l1 : 1 < n → item * 2 ≤ n * item := fun h => by rw [Nat.mul_comm n]; exact Nat.mul_le_mul_left _ h
  have l2 : 1 < m → item * 2 ≤ m * item := fun h => by rw [Nat.mul_comm m]; exact Nat.mul_le_mul_left _ h
  rw [contig2 m n item t0 t1 rfl rfl]
  rcases ht with ⟨rfl, rfl⟩ | ⟨rfl, rfl⟩
  · rw [show (if 1 < n then (item : Int) else item) = item by split <;> rfl]
    by_cases h1 : 1 < m
    · rw [if_pos h1]
      by_cases h2 : 1 < n
      · have := l1 h2
        rw [if_neg (by omega), if_pos (by omega), if_pos (Int.mul_comm _ _)]
      · have : n = 1 := by omega
        subst this
        rw [if_pos (by simp)]; simp
    · rw [if_neg h1, if_pos rfl]
  · rw [show (if 1 < m then (item : Int) else item) = item by split <;> rfl]
    by_cases h2 : 1 < n
    · rw [if_pos h2]
      by_cases h1 : 1 < m
      · have := l2 h1
        rw [if_neg (by omega), if_neg (by omega), if_pos (Int.mul_comm _ _)]
      · have : m = 1 := by omega
        subst this
        rw [if_pos (by simp)]
    · rw [if_neg h2, if_pos rfl]

/-- The walk over an array of two dimensions in its three forms. -/
theorem planNew2 {m n it item : Nat} {s0 s1 : Int} (hm : 0 < m) (hn : 0 < n) (hi : 0 < it) (ho : 0 < item) {h t : Int}
    (hh : (if 1 < m then s0 else (it : Int)) = h) (ht : (if 1 < n then s1 else (it : Int)) = t) :
    planNew ⟨[m, n], [s0, s1], it⟩ item = some (
      if t = h then straight (m * n) h item
      else if t.natAbs < h.natAbs then (if s0 = t * n then straight (m * n) t item else nested m n s0 t item)
      else (if s1 = h * m then straight (m * n) h item else nested n m s1 h item)) := by
  obtain ⟨t0, t1, e, hor, _⟩ := newOut2 (it := it) (item := item) (s0 := s0) (s1 := s1) hm hn hi
  have hco := contig_out2 hm hn ho hor
  have hc := contig2 m n it s0 s1 hh ht
  have hlen : (⟨[m, n], [s0, s1], it⟩ : Lay).len = m * n := by simp [Lay.len, prod]
  unfold planNew
  rw [plan_eq, e, hco, hc, hlen]
  by_cases h1 : t = h
  · rw [if_pos h1, if_pos h1]; rfl
  · rw [if_neg h1, if_neg h1]
    by_cases h2 : t.natAbs < h.natAbs
    · rw [if_pos h2, if_pos h2]
      by_cases h3 : s0 = t * n
      · rw [if_pos h3, if_pos h3]; rfl
      · rw [if_neg h3, if_neg h3]
        simp [dim, str, prod]
    · rw [if_neg h2, if_neg h2]
      by_cases h3 : s1 = h * m
      · rw [if_pos h3, if_pos h3]; rfl
      · rw [if_neg h3, if_neg h3]
        simp [dim, str, prod]

/-- An array of two dimensions whose first has one item. -/
theorem row_one {n it item o : Nat} {s0 s1 t0 t1 si : Int} {d : List Nat} (hsi : 1 < n → si = s1) (ht : t1 = item) {l : List (Int × Int)}
    (hl : ∀ x y : Int, (x, y) ∈ l ↔ ∃ k : Nat, k < n ∧ x = k * si ∧ y = k * item) :
    Faithful ⟨[1, n], [s0, s1], it⟩ ⟨d, [t0, t1], o⟩ l := by
  have key : ∀ k : Nat, k < n → (k : Int) * si = k * s1 := by
    intro k hk
    by_cases h : 1 < n
    · rw [hsi h]
    · have : k = 0 := by omega
      subst this; simp
  refine faithful2.mpr ⟨fun i j hi' hj => ?_, fun x y hxy => ?_⟩
  · have : i = 0 := by omega
    subst this
    exact (hl _ _).mpr ⟨j, hj, by rw [key j hj]; simp, by rw [ht]; simp⟩
  · obtain ⟨k, hk, rfl, rfl⟩ := (hl _ _).mp hxy
    exact ⟨0, k, by omega, hk, by rw [key k hk]; simp, by rw [ht]; simp⟩

/-- An array of two dimensions whose second has one item. -/
theorem col_one {m it item o : Nat} {s0 s1 t0 t1 si : Int} {d : List Nat} (hsi : 1 < m → si = s0) (ht : t0 = item) {l : List (Int × Int)}
    (hl : ∀ x y : Int, (x, y) ∈ l ↔ ∃ k : Nat, k < m ∧ x = k * si ∧ y = k * item) :
    Faithful ⟨[m, 1], [s0, s1], it⟩ ⟨d, [t0, t1], o⟩ l := by
  have key : ∀ k : Nat, k < m → (k : Int) * si = k * s0 := by
    intro k hk
    by_cases h : 1 < m
    · rw [hsi h]
    · have : k = 0 := by omega
      subst this; simp
  refine faithful2.mpr ⟨fun i j hi' hj => ?_, fun x y hxy => ?_⟩
  · have : j = 0 := by omega
    subst this
    exact (hl _ _).mpr ⟨i, hi', by rw [key i hi']; simp, by rw [ht]; simp⟩
  · obtain ⟨k, hk, rfl, rfl⟩ := (hl _ _).mp hxy
    exact ⟨k, 0, hk, by omega, by rw [key k hk]; simp, by rw [ht]; simp⟩

theorem nested_one_outer {n : Nat} {os si so x y : Int} : (x, y) ∈ nested 1 n os si so ↔ ∃ k : Nat, k < n ∧ x = k * si ∧ y = k * so := by
  rw [mem_nested]
  constructor
  · rintro ⟨j, i, hj, hi, rfl, rfl⟩
    have : j = 0 := by omega
    subst this
    exact ⟨i, hi, by simp, by simp⟩
  · rintro ⟨k, hk, rfl, rfl⟩
    exact ⟨0, k, by omega, hk, by simp, by simp⟩

theorem nested_one_inner {m : Nat} {os si so x y : Int} : (x, y) ∈ nested m 1 os si so ↔ ∃ k : Nat, k < m ∧ x = k * os ∧ y = k * so := by
  rw [mem_nested]
  constructor
  · rintro ⟨j, i, hj, hi, rfl, rfl⟩
    have : i = 0 := by omega
    subst this
    exact ⟨j, hj, by simp, by simp⟩
  · rintro ⟨k, hk, rfl, rfl⟩
    exact ⟨k, 0, hk, by omega, by simp, by simp⟩

/-- C93/C101: an array of two dimensions with any strides: the walk is right unless both dimensions have more than one item and the same distance,
forwards or backwards, as overlapping windows have. -/
theorem two_dim_iff {m n it item : Nat} (s0 s1 : Int) (hm : 0 < m) (hn : 0 < n) (hi : 0 < it) (ho : 0 < item) :
    ∃ l, planNew ⟨[m, n], [s0, s1], it⟩ item = some l ∧
      (Faithful ⟨[m, n], [s0, s1], it⟩ (newOut ⟨[m, n], [s0, s1], it⟩ item) l ↔ ¬ (1 < m ∧ 1 < n ∧ s0.natAbs = s1.natAbs ∧ s0 ≠ 0)) := by
  obtain ⟨t0, t1, e, hor, hboth⟩ := newOut2 (it := it) (item := item) (s0 := s0) (s1 := s1) hm hn hi
  refine ⟨_, planNew2 hm hn hi ho rfl rfl, ?_⟩
  rw [e]
  by_cases hm1 : 1 < m
  · by_cases hn1 : 1 < n
    · rw [if_pos hm1, if_pos hn1]
      have hb := hboth hm1 hn1
      by_cases hbad : s0.natAbs = s1.natAbs ∧ s0 ≠ 0
      · -- overlapping windows
        refine ⟨fun hF => ?_, fun hF => absurd ⟨hm1, hn1, hbad⟩ hF⟩
        exfalso
        rw [if_neg (by omega)] at hb
        obtain ⟨rfl, rfl⟩ := hb
        obtain ⟨h1, _⟩ := faithful2.mp hF
        by_cases hs : s1 = s0
        · rw [if_pos hs] at h1
          have := h1 1 0 hm1 (by omega)
          obtain ⟨k, hk, hx, hy⟩ := mem_straight.mp this
          have hy' : (n : Int) * item = k * item := by simpa using hy
          have hnk : (n : Int) = k := Int.eq_of_mul_eq_mul_right (by omega) hy'
          have hx' : s0 = k * s0 := by simpa using hx
          rw [← hnk] at hx'
          have : (1 : Int) * s0 = n * s0 := by omega
          have := Int.eq_of_mul_eq_mul_right hbad.2 this
          omega
        · have hs' : s1 = -s0 := by omega
          rw [if_neg hs, if_neg (by omega)] at h1
          have hch : ¬ s1 = s0 * m := by
            intro hc
            have h3 : (-1 : Int) * s0 = m * s0 := by
              rw [Int.mul_comm (m : Int), ← hc, hs']; omega
            have := Int.eq_of_mul_eq_mul_right hbad.2 h3
            omega
          rw [if_neg hch] at h1
          have := h1 0 1 (by omega) hn1
          obtain ⟨j, i, hj, hi', hx, hy⟩ := mem_nested.mp this
          have hy' : (1 : Int) * item = ((j : Int) * m + i) * item := by simpa using hy
          have h3 : (1 : Int) = (j : Int) * m + i := Int.eq_of_mul_eq_mul_right (by omega) hy'
          have hj0 : j = 0 := by
            rcases Nat.eq_zero_or_pos j with h | h
            · exact h
            · have h4 : (m : Int) ≤ (j : Int) * m := by
                have : 1 * (m : Int) ≤ (j : Int) * m := Int.mul_le_mul_of_nonneg_right (by omega) (by omega)
                omega
              omega
          subst hj0
          have : i = 1 := by omega
          subst this
          simp at hx
          exact hs hx
      · refine ⟨fun _ h => hbad h.2.2, fun _ => ?_⟩
        by_cases hs : s1 = s0
        · -- every item at the same place
          have h0 : s0 = 0 := Decidable.byContradiction fun h => hbad ⟨by rw [hs], h⟩
          subst h0
          subst hs
          rw [if_pos rfl]
          rw [if_neg (by omega)] at hb
          obtain ⟨rfl, rfl⟩ := hb
          have := faithful_straight_c (a := ⟨[m, n], [0, 0], it⟩) (out := ⟨[m, n], [(n * item : Int), (item : Int)], item⟩) (si := 0) (so := item)
            (fun idx hb => by
              obtain ⟨i, j, rfl, hi, hj⟩ := inBounds2.mp hb
              rw [offs2]; simp)
            (fun idx hb => by
              obtain ⟨i, j, rfl, hi, hj⟩ := inBounds2.mp hb
              rw [offs2]; simp [cPos, prod]; grind)
          have hlen : (⟨[m, n], [0, 0], it⟩ : Lay).len = m * n := by simp [Lay.len, prod]
          rw [hlen] at this
          exact this
        · rw [if_neg hs]
          by_cases hlt : s1.natAbs < s0.natAbs
          · rw [if_pos hlt]
            rw [if_neg (by omega)] at hb
            obtain ⟨rfl, rfl⟩ := hb
            by_cases hc : s0 = s1 * n
            · rw [if_pos hc]
              have := faithful_straight_c (a := ⟨[m, n], [s0, s1], it⟩) (out := ⟨[m, n], [(n * item : Int), (item : Int)], item⟩) (si := s1)
                (so := item)
                (fun idx hb => by
                  obtain ⟨i, j, rfl, hi, hj⟩ := inBounds2.mp hb
                  rw [offs2, hc]; simp [cPos, prod]; grind)
                (fun idx hb => by
                  obtain ⟨i, j, rfl, hi, hj⟩ := inBounds2.mp hb
                  rw [offs2]; simp [cPos, prod]; grind)
              have hlen : (⟨[m, n], [s0, s1], it⟩ : Lay).len = m * n := by simp [Lay.len, prod]
              rw [hlen] at this
              exact this
            · rw [if_neg hc]
              refine faithful2.mpr ⟨fun i j hi hj => mem_nested.mpr ⟨i, j, hi, hj, rfl, by grind⟩, fun x y hxy => ?_⟩
              obtain ⟨j, i, hj, hi, rfl, rfl⟩ := mem_nested.mp hxy
              exact ⟨j, i, hj, hi, rfl, by grind⟩
          · rw [if_neg hlt]
            have hlt' : s0.natAbs < s1.natAbs := by
              rcases Nat.lt_or_ge s0.natAbs s1.natAbs with h | h
              · exact h
              · exfalso
                have : s0.natAbs = s1.natAbs := by omega
                exact hbad ⟨this, by omega⟩
            rw [if_pos hlt'] at hb
            obtain ⟨rfl, rfl⟩ := hb
            by_cases hc : s1 = s0 * m
            · rw [if_pos hc]
              have := faithful_straight_f (a := ⟨[m, n], [s0, s1], it⟩) (out := ⟨[m, n], [(item : Int), (m * item : Int)], item⟩) (si := s0)
                (so := item)
                (fun idx hb => by
                  obtain ⟨i, j, rfl, hi, hj⟩ := inBounds2.mp hb
                  rw [offs2, hc]; simp [fPos]; grind)
                (fun idx hb => by
                  obtain ⟨i, j, rfl, hi, hj⟩ := inBounds2.mp hb
                  rw [offs2]; simp [fPos]; grind)
              have hlen : (⟨[m, n], [s0, s1], it⟩ : Lay).len = m * n := by simp [Lay.len, prod]
              rw [hlen] at this
              exact this
            · rw [if_neg hc]
              refine faithful2.mpr ⟨fun i j hi hj => mem_nested.mpr ⟨j, i, hj, hi, by grind, by grind⟩, fun x y hxy => ?_⟩
              obtain ⟨j, i, hj, hi, rfl, rfl⟩ := mem_nested.mp hxy
              exact ⟨i, j, hi, hj, by grind, by grind⟩
    · have : n = 1 := by omega
      subst this
      have ht0 : t0 = item := by rcases hor with ⟨h, _⟩ | ⟨h, _⟩; rw [h]; simp; exact h
      refine ⟨fun _ h => absurd h.2.1 (by omega), fun _ => ?_⟩
      rw [if_pos hm1, if_neg hn1, Nat.mul_one]
      split
      · exact col_one (fun _ => rfl) ht0 (fun x y => mem_straight)
      · split
        · split
          · rename_i h1 _ h2
            exact absurd (by rw [h2]; simp) h1
          · exact col_one (fun _ => rfl) ht0 (fun x y => nested_one_inner)
        · split
          · exact col_one (fun _ => rfl) ht0 (fun x y => mem_straight)
          · exact col_one (fun _ => rfl) ht0 (fun x y => nested_one_outer)
  · have : m = 1 := by omega
    subst this
    have ht1 : t1 = item := by rcases hor with ⟨_, h⟩ | ⟨_, h⟩; exact h; rw [h]; simp
    refine ⟨fun _ h => absurd h.1 (by omega), fun _ => ?_⟩
    rw [if_neg hm1, Nat.one_mul]
    have hsi : 1 < n → (if 1 < n then s1 else (it : Int)) = s1 := fun h => if_pos h
    have hsn : ¬ 1 < n → (if 1 < n then s1 else (it : Int)) = it := fun h => if_neg h
    generalize (if 1 < n then s1 else (it : Int)) = t at *
    split
    · rename_i heq
      exact row_one (fun h => by rw [← heq]; exact hsi h) ht1 (fun x y => mem_straight)
    · split
      · split
        · exact row_one hsi ht1 (fun x y => mem_straight)
        · exact row_one hsi ht1 (fun x y => nested_one_outer)
      · split
        · rename_i h1 _ h2
          by_cases h3 : 1 < n
          · exact absurd (by rw [hsi h3, h2]; simp) h1
          · exact absurd (hsn h3) h1
        · exact row_one (fun _ => rfl) ht1 (fun x y => nested_one_inner)

/-- A pair is wrong for a whole class of walks: what should be paired with the output at the index is not what is. -/
theorem not_faithful {a out : Lay} {l : List (Int × Int)} (idx : List Nat) (hb : InBounds idx a.dims)
    (h : (offs idx a.strides, offs idx out.strides) ∉ l) : ¬ Faithful a out l := fun hF => h (hF.1 idx hb)

/-- The unguarded statement is false for new outputs: overlapping windows of an array; a slice of the columns under a leading dimension of one item; and a
column-major array of three dimensions with a gap, of which only the first column of each block is written. -/
theorem new_wrong :
    (∃ l, planNew ⟨[3, 4], [8, 8], 8⟩ 8 = some l ∧ ¬ Faithful ⟨[3, 4], [8, 8], 8⟩ (newOut ⟨[3, 4], [8, 8], 8⟩ 8) l ∧ (88, 88) ∈ l) ∧
    (∃ l, planNew ⟨[1, 3, 4], [192, 64, 8], 8⟩ 8 = some l ∧ ¬ Faithful ⟨[1, 3, 4], [192, 64, 8], 8⟩ (newOut ⟨[1, 3, 4], [192, 64, 8], 8⟩ 8) l) ∧
    (∃ l, planNew ⟨[3, 4, 2], [8, 24, 192], 8⟩ 8 = some l ∧ ¬ Faithful ⟨[3, 4, 2], [8, 24, 192], 8⟩ (newOut ⟨[3, 4, 2], [8, 24, 192], 8⟩ 8) l ∧
      l.length = 6) := by
  refine ⟨⟨_, rfl, not_faithful [1, 0] ⟨by decide, by decide, trivial⟩ (by decide +kernel), by decide +kernel⟩,
    ⟨_, rfl, not_faithful [0, 1, 0] ⟨by decide, by decide, by decide, trivial⟩ (by decide +kernel)⟩,
    ⟨_, rfl, not_faithful [0, 1, 0] ⟨by decide, by decide, by decide, trivial⟩ (by decide +kernel), by decide +kernel⟩⟩

/-- The unguarded statement is false for given outputs: an array in C order with an output in Fortran order is copied item by item in the order of the
memory, and an output of another shape with as many items is accepted. -/
theorem given_wrong :
    (∃ l, planGiven ⟨[2, 3], [24, 8], 8⟩ ⟨[2, 3], [8, 16], 8⟩ = some l ∧ ¬ Faithful ⟨[2, 3], [24, 8], 8⟩ ⟨[2, 3], [8, 16], 8⟩ l) ∧
    (planGiven ⟨[2, 3], [24, 8], 8⟩ ⟨[3, 2], [16, 8], 8⟩).isSome = true := by
  refine ⟨⟨_, rfl, not_faithful [1, 0] ⟨by decide, by decide, trivial⟩ (by decide +kernel)⟩, by decide +kernel⟩

/-- Sliding windows over the first dimension of an array of two dimensions are read beyond its end: the array has 5 rows of 40 bytes, and the walk
reads at 40·44 bytes. -/
theorem windows_wrong : planNew ⟨[3, 5, 3], [40, 8, 40], 8⟩ 8 = some (straight 45 40 8) ∧ ((40 : Int) * 44, (8 : Int) * 44) ∈ straight 45 40 8 ∧
    (∀ idx, InBounds idx [3, 5, 3] → offs idx [40, 8, 40] < 5 * 40) := by
  refine ⟨by decide +kernel, mem_straight.mpr ⟨44, by decide, by decide, by decide⟩, ?_⟩
  intro idx hb
  match idx, hb with
  | [i, j, k], hb =>
    have h1 : i < 3 := hb.1
    have h2 : j < 5 := hb.2.1
    have h3 : k < 3 := hb.2.2.1
    simp only [offs]
    omega

/-- The hypotheses can be met: a matrix with gaps between its rows, walked row by row. -/
example : planNew ⟨[2, 3], [64, 8], 8⟩ 4 = some (nested 2 3 64 8 4) ∧
    Faithful ⟨[2, 3], [64, 8], 8⟩ (newOut ⟨[2, 3], [64, 8], 8⟩ 4) (nested 2 3 64 8 4) := by
  obtain ⟨l, h1, h2⟩ := two_dim_iff (m := 2) (n := 3) (it := 8) (item := 4) 64 8 (by decide) (by decide) (by decide) (by decide)
  have e : planNew ⟨[2, 3], [64, 8], 8⟩ 4 = some (nested 2 3 64 8 4) := by decide +kernel
  have : l = nested 2 3 64 8 4 := Option.some.inj (h1.symm.trans e)
  subst this
  exact ⟨e, h2.mpr (by decide)⟩

example : RowMajor ⟨[2, 3, 4], [-256, 64, 16], 8⟩ ∧
    Faithful ⟨[2, 3, 4], [-256, 64, 16], 8⟩ ⟨[2, 3, 4], [96, 32, 8], 8⟩ (nested 2 12 (-256) 16 8) :=
  ⟨⟨by decide, by decide⟩, row_major_partial (a := ⟨[2, 3, 4], [-256, 64, 16], 8⟩) (out := ⟨[2, 3, 4], [96, 32, 8], 8⟩) rfl rfl (by decide) (by decide) ⟨by decide, by decide⟩ (by decide)
    (by decide +kernel)⟩

example : Faithful ⟨[3, 4, 2], [8, 24, 96], 8⟩ (newOut ⟨[3, 4, 2], [8, 24, 96], 8⟩ 1) (straight 24 8 1) :=
  new_contiguous_partial rfl (by decide) (by decide) (by decide) (.inr (.inr (by decide))) (by decide +kernel)

example : Faithful ⟨[5], [-16], 8⟩ (newOut ⟨[5], [-16], 8⟩ 8) (straight 5 (-16) 8) :=
  new_contiguous_partial rfl (by decide) (by decide) (by decide) (.inl (by decide)) (by decide +kernel)

example : Faithful ⟨[2, 3], [24, 8], 8⟩ ⟨[2, 3], [12, 4], 4⟩ (straight 6 8 4) :=
  given_contiguous_partial (a := ⟨[2, 3], [24, 8], 8⟩) (out := ⟨[2, 3], [12, 4], 4⟩) rfl (by decide) (by decide) (by decide) (.inl ⟨by decide, by decide⟩) (by decide +kernel)

end Riptide.Unary
