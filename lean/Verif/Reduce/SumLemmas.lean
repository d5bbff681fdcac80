import Verif.Reduce.Sum
import Verif.Reduce.Lemmas
import Verif.Convert.Lemmas
import Verif.Convert.Props
/-! Helper lemmas for sums. -/
namespace Riptide.Reduce
open Riptide.Work

theorem rnd_exact {n : Int} (h : n.natAbs < 2 ^ 53) : rnd n = n :=
  Convert.trunc_exact _ (Convert.ofInt_exact .f64 Convert.good_f64 h)

theorem rAdd_exact {a b : Int} (h : (a + b).natAbs < 2 ^ 53) : rAdd a b = a + b := rnd_exact h

/-- Sum of absolute values. -/
def absSum : List Int → Nat
  | [] => 0
  | x :: xs => x.natAbs + absSum xs

/-- Sum. -/
def isum : List Int → Int
  | [] => 0
  | x :: xs => x + isum xs

theorem absSum_append (a b : List Int) : absSum (a ++ b) = absSum a + absSum b := by
  induction a with
  | nil => simp [absSum]
  | cons x xs ih => simp only [List.cons_append, absSum, ih]; omega

theorem isum_append (a b : List Int) : isum (a ++ b) = isum a + isum b := by
  induction a with
  | nil => simp [isum]
  | cons x xs ih => simp only [List.cons_append, isum, ih]; omega

theorem isum_abs (a : List Int) : (isum a).natAbs ≤ absSum a := by
  induction a with
  | nil => simp [isum]
  | cons x xs ih => simp only [isum, absSum]; omega

theorem absSum_perm {a b : List Int} (h : a.Perm b) : absSum a = absSum b := by
  induction h with
  | nil => rfl
  | cons x _ ih => simp [absSum, ih]
  | swap x y l => simp only [absSum]; omega
  | trans _ _ h1 h2 => rw [h1, h2]

theorem isum_perm {a b : List Int} (h : a.Perm b) : isum a = isum b := by
  induction h with
  | nil => rfl
  | cons x _ ih => simp [isum, ih]
  | swap x y l => simp only [isum]; omega
  | trans _ _ h1 h2 => rw [h1, h2]

/-- An addition on `α` that is exact on numbers below the bound. -/
structure ExactAdd {α : Type} (num : Int → α) (add : α → α → α) : Prop where
  exact : ∀ a b : Int, (a + b).natAbs < 2 ^ 53 → add (num a) (num b) = num (a + b)

theorem foldl_exact {α : Type} {num : Int → α} {add} (h : ExactAdd num add) :
    ∀ (l : List Int) (r : Int), r.natAbs + absSum l < 2 ^ 53 →
    (l.map num).foldl add (num r) = num (r + isum l)
  | [], r, _ => by simp [isum]
  | x :: xs, r, hb => by
    simp only [absSum] at hb
    rw [List.map_cons, List.foldl_cons, h.exact r x (by omega), foldl_exact h xs (r + x) (by omega)]
    congr 1; simp only [isum]; omega

theorem zipWith_exact {α : Type} {num : Int → α} {add} (h : ExactAdd num add) :
    ∀ (a b : List Int), a.length = b.length → absSum a + absSum b < 2 ^ 53 →
    ∃ c, List.zipWith add (a.map num) (b.map num) = c.map num ∧ c.length = a.length ∧
      isum c = isum a + isum b ∧ absSum c ≤ absSum a + absSum b
  | [], [], _, _ => ⟨[], rfl, rfl, rfl, by simp [absSum]⟩
  | x :: xs, y :: ys, hl, hb => by
    simp only [absSum] at hb
    obtain ⟨c, e, hc, hs, ha⟩ := zipWith_exact h xs ys (by simpa using hl) (by omega)
    refine ⟨(x + y) :: c, ?_, by simp [hc], ?_, ?_⟩
    · simp only [List.map_cons, List.zipWith_cons_cons, e]
      rw [h.exact x y (by omega)]
    · simp only [isum, hs]; omega
    · simp only [absSum]; omega

theorem vecLoop_exact {α : Type} {num : Int → α} {add} (h : ExactAdd num add) (n : Nat)
    (hn : 0 < n) : ∀ (k : Nat) (acc l : List Int), l.length ≤ k → acc.length = n →
    absSum acc + absSum l < 2 ^ 53 →
    ∃ acc' rest, vecLoop add n (acc.map num) (l.map num) = (acc'.map num, rest.map num) ∧
      acc'.length = n ∧ isum acc' + isum rest = isum acc + isum l ∧
      absSum acc' + absSum rest ≤ absSum acc + absSum l := by
  intro k
  induction k with
  | zero =>
    intro acc l hl ha hb
    refine ⟨acc, l, ?_, ha, rfl, Nat.le_refl _⟩
    rw [vecLoop, dif_neg (by rw [List.length_map]; omega)]
  | succ k ih =>
    intro acc l hl ha hb
    by_cases hle : n ≤ l.length
    · have h1 := absSum_append (l.take n) (l.drop n)
      have h2 := isum_append (l.take n) (l.drop n)
      rw [List.take_append_drop] at h1 h2
      obtain ⟨c, e, hc, hs, hab⟩ := zipWith_exact h acc (l.take n)
        (by rw [List.length_take]; omega) (by omega)
      obtain ⟨acc', rest, e', hl', hs', hab'⟩ := ih c (l.drop n)
        (by rw [List.length_drop]; omega) (by omega) (by omega)
      refine ⟨acc', rest, ?_, hl', by omega, by omega⟩
      rw [vecLoop, dif_pos ⟨hn, by rw [List.length_map]; exact hle⟩, ← List.map_take, ← List.map_drop,
        e, e']
    · refine ⟨acc, l, ?_, ha, rfl, Nat.le_refl _⟩
      rw [vecLoop, dif_neg (by rw [List.length_map]; omega)]

theorem reg_map {α β : Type} (f : α → β) (w : Nat) (acc : List α) (r : Nat) :
    reg w (acc.map f) r = (reg w acc r).map f := by
  unfold reg; rw [← List.map_drop, ← List.map_take]

theorem zip2_exact {α : Type} {num : Int → α} {add} (h : ExactAdd num add) (w : Nat)
    (a b c d : List Int) (la : a.length = w) (lb : b.length = w) (lc : c.length = w)
    (ld : d.length = w) (hb : absSum (a ++ b ++ (c ++ d)) < 2 ^ 53) :
    ∃ e, List.zipWith add (List.zipWith add (a.map num) (b.map num))
        (List.zipWith add (c.map num) (d.map num)) = e.map num ∧ e.length = w ∧
      isum e = isum (a ++ b ++ (c ++ d)) ∧ absSum e ≤ absSum (a ++ b ++ (c ++ d)) := by
  simp only [absSum_append, isum_append] at hb ⊢
  obtain ⟨c1, e1, k1, s1, b1⟩ := zipWith_exact h a b (by omega) (by omega)
  obtain ⟨c2, e2, k2, s2, b2⟩ := zipWith_exact h c d (by omega) (by omega)
  obtain ⟨c3, e3, k3, s3, b3⟩ := zipWith_exact h c1 c2 (by omega) (by omega)
  rw [e1, e2, e3]
  exact ⟨c3, rfl, by omega, by omega, by omega⟩

theorem windDown_exact {α : Type} {num : Int → α} {add} (h : ExactAdd num add) (w : Nat)
    (acc : List Int) (hl : acc.length = 8 * w) (hb : absSum acc < 2 ^ 53) :
    ∃ c, windDown add w (acc.map num) = c.map num ∧ c.length = w ∧ isum c = isum acc ∧
      absSum c ≤ absSum acc := by
  have hr := reg_length w acc hl
  have ra := regs_append w acc hl
  have ea := absSum_append (reg w acc 0 ++ reg w acc 1 ++ (reg w acc 2 ++ reg w acc 3))
    (reg w acc 4 ++ reg w acc 5 ++ (reg w acc 6 ++ reg w acc 7))
  have es := isum_append (reg w acc 0 ++ reg w acc 1 ++ (reg w acc 2 ++ reg w acc 3))
    (reg w acc 4 ++ reg w acc 5 ++ (reg w acc 6 ++ reg w acc 7))
  rw [ra] at ea es
  obtain ⟨c1, e1, k1, s1, b1⟩ := zip2_exact h w _ _ _ _ (hr 0 (by omega)) (hr 1 (by omega))
    (hr 2 (by omega)) (hr 3 (by omega)) (by omega)
  obtain ⟨c2, e2, k2, s2, b2⟩ := zip2_exact h w _ _ _ _ (hr 4 (by omega)) (hr 5 (by omega))
    (hr 6 (by omega)) (hr 7 (by omega)) (by omega)
  unfold windDown
  simp only [reg_map]
  rw [e1, e2]
  obtain ⟨c7, e7, k7, s7, b7⟩ := zipWith_exact h c1 c2 (by omega) (by omega)
  rw [e7]
  exact ⟨c7, rfl, by omega, by omega, by omega⟩

theorem isum_replicate (n : Nat) : isum (List.replicate n 0) = 0 := by
  induction n with
  | zero => rfl
  | succ n ih => simp [List.replicate_succ, isum, ih]

theorem absSum_replicate (n : Nat) : absSum (List.replicate n 0) = 0 := by
  induction n with
  | zero => rfl
  | succ n ih => simp [List.replicate_succ, absSum, ih]

theorem vecSum_exact {α : Type} {num : Int → α} {add} (h : ExactAdd num add) (l : List Int)
    (hb : absSum l < 2 ^ 53) : vecSum (num 0) add (l.map num) = num (isum l) := by
  unfold vecSum
  split
  · obtain ⟨acc', rest, e, hl, hs, ha⟩ := vecLoop_exact h 32 (by omega) l.length
      (List.replicate 32 0) l (Nat.le_refl _) (by simp) (by rw [absSum_replicate]; omega)
    rw [isum_replicate] at hs
    rw [absSum_replicate] at ha
    obtain ⟨c, ec, hc, sc, bc⟩ := windDown_exact h 4 acc' hl (by omega)
    rw [List.map_replicate] at e
    simp only [e, ec]
    match c, hc with
    | t0 :: ts, hc =>
      simp only [List.map_cons]
      simp only [absSum] at bc
      have ht := isum_abs ts
      simp only [isum] at sc
      have hr := isum_abs rest
      rw [foldl_exact h ts t0 (by omega), foldl_exact h rest _ (by omega)]
      congr 1; omega
  · rw [foldl_exact h l 0 (by simpa using hb)]; congr 1; omega

theorem exact_rAdd : ExactAdd (fun n => n) rAdd := ⟨fun _ _ h => rAdd_exact h⟩
theorem exact_addD : ExactAdd some addD := ⟨fun _ _ h => by simp [addD, rAdd_exact h]⟩

/-! ### NaN propagation through vector sums -/

theorem addD_none_left (b : Dbl) : addD none b = none := rfl
theorem addD_none_right (a : Dbl) : addD a none = none := by cases a <;> rfl

theorem foldl_addD_none : ∀ (l : List Dbl) (r : Dbl), (r = none ∨ none ∈ l) → l.foldl addD r = none
  | [], r, h => by simpa using h
  | x :: xs, r, h => by
    rw [List.foldl_cons]
    apply foldl_addD_none
    rcases h with rfl | h
    · exact .inl rfl
    · rcases List.mem_cons.1 h with rfl | h
      · exact .inl (addD_none_right r)
      · exact .inr h

theorem zipWith_none : ∀ (a b : List Dbl), a.length = b.length → (none ∈ a ∨ none ∈ b) →
    none ∈ List.zipWith addD a b
  | [], [], _, h => by simp at h
  | x :: xs, y :: ys, hl, h => by
    simp only [List.zipWith_cons_cons, List.mem_cons]
    by_cases hx : x = none
    · subst hx; exact .inl rfl
    · by_cases hy : y = none
      · subst hy; exact .inl (addD_none_right x).symm
      · refine .inr (zipWith_none xs ys (by simpa using hl) ?_)
        rcases h with h | h
        · rcases List.mem_cons.1 h with h | h
          · exact absurd h.symm hx
          · exact .inl h
        · rcases List.mem_cons.1 h with h | h
          · exact absurd h.symm hy
          · exact .inr h

theorem vecLoop_none (n : Nat) (acc l : List Dbl) (hl : acc.length = n) (h : none ∈ acc ∨ none ∈ l) :
    (vecLoop addD n acc l).1.length = n ∧
    (none ∈ (vecLoop addD n acc l).1 ∨ none ∈ (vecLoop addD n acc l).2) := by
  fun_induction vecLoop addD n acc l with
  | case1 acc l hn ih =>
    apply ih
    · rw [List.length_zipWith, List.length_take]; omega
    · rcases h with h | h
      · exact .inl (zipWith_none _ _ (by rw [List.length_take]; omega) (.inl h))
      · rw [← List.take_append_drop n l, List.mem_append] at h
        rcases h with h | h
        · exact .inl (zipWith_none _ _ (by rw [List.length_take]; omega) (.inr h))
        · exact .inr h
  | case2 acc l hn => exact ⟨hl, h⟩

theorem windDown_none (w : Nat) (acc : List Dbl) (hl : acc.length = 8 * w) (h : none ∈ acc) :
    none ∈ windDown addD w acc ∧ (windDown addD w acc).length = w := by
  have hr := reg_length w acc hl
  rw [← regs_append w acc hl] at h
  simp only [List.mem_append] at h
  have l0 := hr 0 (by omega); have l1 := hr 1 (by omega)
  have l2 := hr 2 (by omega); have l3 := hr 3 (by omega)
  have l4 := hr 4 (by omega); have l5 := hr 5 (by omega)
  have l6 := hr 6 (by omega); have l7 := hr 7 (by omega)
  unfold windDown
  simp only
  constructor
  · apply zipWith_none
    · simp only [List.length_zipWith]; omega
    · rcases h with h | h
      · refine .inl (zipWith_none _ _ (by simp only [List.length_zipWith]; omega) ?_)
        rcases h with h | h
        · exact .inl (zipWith_none _ _ (by omega) h)
        · exact .inr (zipWith_none _ _ (by omega) h)
      · refine .inr (zipWith_none _ _ (by simp only [List.length_zipWith]; omega) ?_)
        rcases h with h | h
        · exact .inl (zipWith_none _ _ (by omega) h)
        · exact .inr (zipWith_none _ _ (by omega) h)
  · simp only [List.length_zipWith]; omega

theorem vecSum_none (l : List Dbl) (h : none ∈ l) : vecSum (some 0) addD l = none := by
  unfold vecSum
  split
  · obtain ⟨h1, h2⟩ := vecLoop_none 32 (List.replicate 32 (some 0)) l (by simp) (.inr h)
    generalize vecLoop addD 32 (List.replicate 32 (some 0)) l = r at *
    simp only
    rcases h2 with h2 | h2
    · obtain ⟨h3, h4⟩ := windDown_none 4 r.1 h1 h2
      generalize windDown addD 4 r.1 = wd at *
      match wd, h4 with
      | t0 :: ts, _ =>
        refine foldl_addD_none _ _ (.inl (foldl_addD_none _ _ ?_))
        rcases List.mem_cons.1 h3 with h | h
        · exact .inl h.symm
        · exact .inr h
    · have h4 : (windDown addD 4 r.1).length = 4 := by
        have hr := reg_length 4 r.1 h1
        have l0 := hr 0 (by omega); have l1 := hr 1 (by omega)
        have l2 := hr 2 (by omega); have l3 := hr 3 (by omega)
        have l4 := hr 4 (by omega); have l5 := hr 5 (by omega)
        have l6 := hr 6 (by omega); have l7 := hr 7 (by omega)
        unfold windDown; simp only [List.length_zipWith]; omega
      generalize windDown addD 4 r.1 = wd at *
      match wd, h4 with
      | t0 :: ts, _ => exact foldl_addD_none _ _ (.inr h2)
  · exact foldl_addD_none _ _ (.inr h)

/-! ### Accumulators -/

/-- The valid numbers of a list. -/
def nums (V : List Dbl) : List Int := V.filterMap id

theorem nums_append (a b : List Dbl) : nums (a ++ b) = nums a ++ nums b := by
  simp [nums, List.filterMap_append]

theorem map_some_nums : ∀ V : List Dbl, none ∉ V → (nums V).map some = V
  | [], _ => rfl
  | none :: V, h => by simp at h
  | some x :: V, h => by
    have := map_some_nums V (by simp at h; exact h)
    simp only [nums, List.filterMap_cons, id, List.map_cons]
    simp only [nums] at this
    rw [this]

/-- The accumulator describes the numbers `V`; `str`: the integer result is invalid with the float
result. -/
structure SOK (str : Bool) (a : SAcc) (V : List Dbl) : Prop where
  len : a.lenOut = V.length
  bad : none ∈ V → a.res = none ∧ (str = true → a.i64 = IT.i64.inv)
  ok : none ∉ V → absSum (nums V) < 2 ^ 53 → a.res = some (isum (nums V)) ∧ a.i64 = isum (nums V)

theorem SOK.perm {str a} {V W : List Dbl} (h : SOK str a V) (hp : V.Perm W) : SOK str a W := by
  have hn : (nums V).Perm (nums W) := hp.filterMap id
  refine ⟨by rw [h.len]; exact hp.length_eq, fun hb => h.bad (hp.mem_iff.2 hb), fun hb hs => ?_⟩
  rw [← isum_perm hn]
  exact h.ok (fun hc => hb (hp.mem_iff.1 hc)) (by rw [absSum_perm hn]; exact hs)

theorem SOK.zero {str} : SOK str .zero [] := ⟨rfl, by simp, by simp [SAcc.zero, nums, isum]⟩

theorem i64_small {n : Int} (h : n.natAbs < 2 ^ 53) :
    IT.i64.InRange n ∧ n ≠ IT.i64.inv ∧ IT.i64.wrap n = n := by
  have hr : IT.i64.InRange n := by
    simp only [IT.InRange, IT.lo, IT.hi, IT.i64]; simp; omega
  refine ⟨hr, ?_, IT.wrap_of_inRange _ (by decide) hr⟩
  simp only [IT.inv, IT.lo, IT.i64]; simp; omega

theorem gatherSum_spec {str} {t c : SAcc} {V W : List Dbl} (ht : SOK str t V) (hc : SOK str c W) :
    SOK true (gatherSum t c) (V ++ W) := by
  unfold gatherSum
  simp only
  by_cases hb : none ∈ V ++ W
  · have hr : addD t.res c.res = none := by
      rcases List.mem_append.1 hb with h | h
      · rw [(ht.bad h).1]; rfl
      · rw [(hc.bad h).1]; exact addD_none_right _
    rw [if_pos hr]
    exact ⟨by simp [ht.len, hc.len], fun _ => ⟨hr, fun _ => rfl⟩, fun h => absurd hb h⟩
  · have hV : none ∉ V := fun h => hb (List.mem_append_left _ h)
    have hW : none ∉ W := fun h => hb (List.mem_append_right _ h)
    refine ⟨?_, fun h => absurd h hb, fun _ hs => ?_⟩
    · split
      · simp [ht.len, hc.len]
      · split <;> simp [ht.len, hc.len]
    · rw [nums_append, absSum_append] at hs
      rw [nums_append, isum_append]
      obtain ⟨a1, a2⟩ := ht.ok hV (by omega)
      obtain ⟨b1, b2⟩ := hc.ok hW (by omega)
      have e1 := isum_abs (nums V)
      have e2 := isum_abs (nums W)
      obtain ⟨_, i1, _⟩ := i64_small (n := isum (nums V)) (by omega)
      obtain ⟨_, i2, _⟩ := i64_small (n := isum (nums W)) (by omega)
      obtain ⟨_, i3, i4⟩ := i64_small (n := isum (nums V) + isum (nums W)) (by omega)
      have hres : addD t.res c.res = some (isum (nums V) + isum (nums W)) := by
        rw [a1, b1]; exact exact_addD.exact _ _ (by omega)
      have hi : addI t.i64 c.i64 = isum (nums V) + isum (nums W) := by
        unfold addI; rw [a2, b2, if_neg (by omega), i4]
      rw [hres, hi, if_neg (by simp), if_neg i3]
      exact ⟨rfl, rfl⟩

/-- What is needed of a block function; `g` gives the numbers an element contributes. -/
def SBlockOK {α : Type} (str : Bool) (g : α → List Dbl) (blk : SAcc → List α → SAcc) : Prop :=
  ∀ a V l, SOK str a V → SOK str (blk a l) (V ++ l.flatMap g)

theorem score_spec {α : Type} {str} {g : α → List Dbl} {blk} (hb : SBlockOK str g blk) (xs : List α) :
    ∀ (bs : List Nat) (a : SAcc) (V : List Dbl), SOK str a V →
    SOK str (bs.foldl (fun a b => blk a (blockElems xs b)) a)
      (V ++ ((bs.map (blockElems xs)).flatten).flatMap g)
  | [], a, V, h => by simpa using h
  | b :: bs, a, V, h => by
    have := score_spec hb xs bs _ _ (hb a V (blockElems xs b) h)
    simpa [List.flatMap_append] using this

theorem sgathers_spec {str} : ∀ (as : List SAcc) (Ws : List (List Dbl)) (t : SAcc) (V : List Dbl),
    as.length = Ws.length →
    (∀ (i : Nat) a W, as[i]? = some a → Ws[i]? = some W → SOK str a W) → SOK str t V →
    SOK str (as.foldl gatherSum t) (V ++ Ws.flatten)
  | [], [], t, V, _, _, h => by simpa using h
  | a :: as, W :: Ws, t, V, hl, hi, h => by
    have h1 := gatherSum_spec h (hi 0 a W (by simp) (by simp))
    have h1' : SOK str (gatherSum t a) (V ++ W) :=
      ⟨h1.len, fun hb => ⟨(h1.bad hb).1, fun _ => (h1.bad hb).2 rfl⟩, h1.ok⟩
    have := sgathers_spec as Ws (gatherSum t a) (V ++ W) (by simpa using hl)
      (fun i a' T' ha hT => hi (i + 1) a' T' (by simpa using ha) (by simpa using hT)) h1'
    simpa using this

theorem sumScatter_spec {α : Type} {str} {g : α → List Dbl} {blk} (hb : SBlockOK str g blk)
    {xs : List α} {workers : Nat} {nt : Bool} {par} (h : CoreSched workers xs.length nt par) :
    SOK str (sumScatter blk xs par) (xs.flatMap g) := by
  rcases h.cases with ⟨rfl, _⟩ | ⟨cores, rfl, _, hp⟩
  · simpa [sumScatter] using hb .zero [] xs .zero
  · unfold sumScatter
    simp only
    have := sgathers_spec (str := str)
      (cores.map fun (bs : List Nat) => bs.foldl (fun a b => blk a (blockElems xs b)) SAcc.zero)
      (cores.map fun bs => ((bs.map (blockElems xs)).flatten).flatMap g) SAcc.zero [] (by simp)
      (by
        intro i a W h1 h2
        rw [List.getElem?_map, Option.map_eq_some_iff] at h1 h2
        obtain ⟨b1, e1, rfl⟩ := h1
        obtain ⟨b2, e2, rfl⟩ := h2
        rw [e1] at e2
        cases e2
        simpa using score_spec hb xs b1 .zero [] .zero) .zero
    rw [List.nil_append] at this
    have e : (cores.map fun bs => ((bs.map (blockElems xs)).flatten).flatMap g).flatten =
        ((cores.map fun bs => (bs.map (blockElems xs)).flatten).flatten).flatMap g := by
      clear this hp h
      induction cores with
      | nil => rfl
      | cons c cs ih => simp only [List.map_cons, List.flatten_cons, ih, List.flatMap_append]
    rw [e] at this
    exact this.perm ((cores_perm xs hp).flatMap_right g)

/-! ### Block functions -/

/-- The number of an integer element: none if it is invalid. -/
def inum (t : IT) (x : Int) : Dbl := if x = t.inv then none else some x

theorem slowLoop_bad (inv : Int) : ∀ (l : List Int) (r : Int), inv ∈ l → slowLoop inv r l = none
  | x :: xs, r, h => by
    unfold slowLoop
    split
    · rfl
    · apply slowLoop_bad
      rcases List.mem_cons.1 h with h | h
      · exact absurd h.symm ‹_›
      · exact h

theorem slowLoop_ok (inv : Int) : ∀ (l : List Int) (r : Int), inv ∉ l →
    r.natAbs + absSum l < 2 ^ 53 → slowLoop inv r l = some (r + isum l)
  | [], r, _, _ => by simp [slowLoop, isum]
  | x :: xs, r, h, hb => by
    simp only [absSum] at hb
    unfold slowLoop
    rw [if_neg (by rintro rfl; simp at h), rnd_exact (by omega), rAdd_exact (by omega),
      slowLoop_ok inv xs (r + x) (fun hx => h (by simp [hx])) (by omega)]
    congr 1; simp only [isum]; omega

theorem inum_mem {t : IT} {l : List Int} : none ∈ l.flatMap (fun x => [inum t x]) ↔ t.inv ∈ l := by
  rw [List.mem_flatMap]
  constructor
  · rintro ⟨x, hx, hb⟩
    simp only [inum, List.mem_singleton] at hb
    split at hb
    · rename_i h; rwa [← h]
    · cases hb
  · intro h; exact ⟨_, h, by simp [inum]⟩

theorem inum_nums {t : IT} : ∀ {l : List Int}, t.inv ∉ l → nums (l.flatMap (fun x => [inum t x])) = l
  | [], _ => rfl
  | x :: xs, h => by
    have := inum_nums (t := t) (l := xs) (by intro hx; exact h (by simp [hx]))
    rw [List.flatMap_cons, nums_append, this]
    have hx : x ≠ t.inv := by rintro rfl; simp at h
    simp [nums, inum, hx]

theorem inum_len {t : IT} : ∀ (l : List Int), (l.flatMap (fun x => [inum t x])).length = l.length
  | [] => rfl
  | x :: xs => by simp [List.flatMap_cons, inum_len xs]

theorem slowBlock_ok (junk : Int) (t : IT) :
    SBlockOK true (fun x => [inum t x]) (slowBlock junk t) := by
  intro a V l h
  unfold slowBlock
  simp only
  refine ⟨by rw [List.length_append, inum_len, h.len], ?_, ?_⟩
  · intro hb
    have hr : addD a.res (slowLoop t.inv 0 l) = none := by
      rcases List.mem_append.1 hb with hb | hb
      · rw [(h.bad hb).1]; rfl
      · rw [slowLoop_bad _ _ _ (inum_mem.1 hb)]; exact addD_none_right _
    rw [hr]
    exact ⟨rfl, fun _ => rfl⟩
  · intro hb hs
    have hV : none ∉ V := fun h => hb (List.mem_append_left _ h)
    have hl : t.inv ∉ l := fun h => hb (List.mem_append_right _ (inum_mem.2 h))
    rw [nums_append, inum_nums hl, absSum_append] at hs
    rw [nums_append, inum_nums hl, isum_append]
    have e1 := isum_abs (nums V)
    have e2 := isum_abs l
    rw [(h.ok hV (by omega)).1, slowLoop_ok _ _ _ hl (by simp; omega), Int.zero_add,
      exact_addD.exact _ _ (by omega)]
    refine ⟨rfl, ?_⟩
    simp only [rcastI64, castI64]
    rw [if_pos (i64_small (by omega)).1]

theorem i32Block_ok (junk : Int) : SBlockOK true (fun x => [inum .i32 x]) (i32Block junk) := by
  intro a V l h
  unfold i32Block
  have hci := containsInvalid_iff (dom false (.int .i32)) 8 l
  have hv : (∃ x ∈ l, (dom false (.int .i32)).valid x = false) ↔ IT.i32.inv ∈ l := by
    constructor
    · rintro ⟨x, hx, hb⟩
      have : x = IT.i32.inv := by simpa [dom] using hb
      rwa [← this]
    · intro h; exact ⟨_, h, by simp [dom]⟩
  rw [hv] at hci
  by_cases hl : IT.i32.inv ∈ l
  · rw [if_pos (hci.2 hl)]
    exact ⟨by rw [List.length_append, inum_len, h.len], fun _ => ⟨rfl, fun _ => rfl⟩,
      fun hb => absurd (List.mem_append_right _ (inum_mem.2 hl)) hb⟩
  · rw [if_neg (fun hc => hl (hci.1 hc))]
    simp only
    refine ⟨by rw [List.length_append, inum_len, h.len], ?_, ?_⟩
    · intro hb
      rcases List.mem_append.1 hb with hb | hb
      · obtain ⟨h1, h2⟩ := h.bad hb
        exact ⟨by rw [h1]; rfl, fun _ => by rw [h2 rfl]; simp [addI]⟩
      · exact absurd (inum_mem.1 hb) hl
    · intro hb hs
      have hV : none ∉ V := fun h => hb (List.mem_append_left _ h)
      rw [nums_append, inum_nums hl, absSum_append] at hs
      rw [nums_append, inum_nums hl, isum_append]
      have e1 := isum_abs (nums V)
      have e2 := isum_abs l
      obtain ⟨a1, a2⟩ := h.ok hV (by omega)
      have hvs := vecSum_exact exact_rAdd l (by omega)
      rw [List.map_id'] at hvs
      rw [hvs, a1, a2, exact_addD.exact _ _ (by omega)]
      obtain ⟨r1, i1, _⟩ := i64_small (n := isum l) (by omega)
      obtain ⟨_, i2, _⟩ := i64_small (n := isum (nums V)) (by omega)
      obtain ⟨_, _, i4⟩ := i64_small (n := isum (nums V) + isum l) (by omega)
      refine ⟨rfl, ?_⟩
      have hc : castI64 junk (some (isum l)) = isum l := by simp only [castI64]; rw [if_pos r1]
      unfold addI
      rw [hc, if_neg (by omega), i4]

theorem fltBlock_ok (junk : Int) : SBlockOK false (fun x => [x]) (fltBlock junk) := by
  intro a V l h
  have e0 : ∀ l : List Dbl, l.flatMap (fun x => [x]) = l := by
    intro l
    induction l with
    | nil => rfl
    | cons x xs ih => simp [List.flatMap_cons, ih]
  rw [e0]
  unfold fltBlock
  simp only
  refine ⟨by simp [h.len], ?_, ?_⟩
  · intro hb
    refine ⟨?_, by simp⟩
    rcases List.mem_append.1 hb with hb | hb
    · rw [(h.bad hb).1]; rfl
    · rw [vecSum_none l hb]; exact addD_none_right _
  · intro hb hs
    have hV : none ∉ V := fun h => hb (List.mem_append_left _ h)
    have hl : none ∉ l := fun h => hb (List.mem_append_right _ h)
    rw [nums_append, absSum_append] at hs
    rw [nums_append, isum_append]
    have e1 := isum_abs (nums V)
    have e2 := isum_abs (nums l)
    obtain ⟨a1, a2⟩ := h.ok hV (by omega)
    have hvs := vecSum_exact exact_addD (nums l) (by omega)
    rw [map_some_nums l hl] at hvs
    rw [hvs, a1, a2, exact_addD.exact _ _ (by omega)]
    obtain ⟨r1, _, _⟩ := i64_small (n := isum (nums l)) (by omega)
    obtain ⟨_, _, i4⟩ := i64_small (n := isum (nums V) + isum (nums l)) (by omega)
    refine ⟨rfl, ?_⟩
    simp only [castI64]
    rw [if_pos r1, i4]

theorem nanFold_exact : ∀ (l : List Int) (r : Int), r.natAbs + absSum l < 2 ^ 53 →
    l.foldl (fun r x => rAdd r (rnd x)) r = r + isum l
  | [], r, _ => by simp [isum]
  | x :: xs, r, hb => by
    simp only [absSum] at hb
    rw [List.foldl_cons, rnd_exact (by omega), rAdd_exact (by omega), nanFold_exact xs _ (by omega)]
    simp only [isum]; omega

theorem flatMap_toList {α : Type} (valid : α → Option Int) : ∀ l : List α,
    l.flatMap (fun x => (valid x).toList.map some) = (l.filterMap valid).map some
  | [] => rfl
  | x :: xs => by
    rw [List.flatMap_cons, flatMap_toList valid xs, List.filterMap_cons]
    cases valid x <;> rfl

theorem nums_map_some (l : List Int) : nums (l.map some) = l := by
  induction l with
  | nil => rfl
  | cons x xs ih => simp only [nums, List.map_cons, List.filterMap_cons, id] at ih ⊢; rw [ih]

theorem nanSumBlock_ok {α : Type} (junk : Int) (valid : α → Option Int) :
    SBlockOK false (fun x => (valid x).toList.map some) (nanSumBlock junk valid) := by
  intro a V l h
  rw [flatMap_toList]
  unfold nanSumBlock
  simp only
  generalize l.filterMap valid = vs
  have hno : none ∉ vs.map some := by simp
  refine ⟨by simp [h.len], ?_, ?_⟩
  · intro hb
    rcases List.mem_append.1 hb with hb | hb
    · obtain ⟨h1, h2⟩ := h.bad hb
      exact ⟨by rw [h1]; rfl, by simp⟩
    · exact absurd hb hno
  · intro hb hs
    have hV : none ∉ V := fun h => hb (List.mem_append_left _ h)
    rw [nums_append, nums_map_some, absSum_append] at hs
    rw [nums_append, nums_map_some, isum_append]
    have e1 := isum_abs (nums V)
    have e2 := isum_abs vs
    obtain ⟨a1, a2⟩ := h.ok hV (by omega)
    rw [nanFold_exact vs 0 (by simp; omega), Int.zero_add, a1, a2, exact_addD.exact _ _ (by omega)]
    obtain ⟨r1, _, _⟩ := i64_small (n := isum vs) (by omega)
    obtain ⟨_, _, i4⟩ := i64_small (n := isum (nums V) + isum vs) (by omega)
    refine ⟨rfl, ?_⟩
    simp only [castI64]
    rw [if_pos r1, i4]

end Riptide.Reduce
