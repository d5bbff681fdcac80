import Verif.GroupBy.Kernels
/-! # C25: group minimum and maximum -/
namespace Riptide.GroupBy
open Riptide.Work Spec

variable {D : Type}

/-- `better` is the strict order given by `key` on valid values, and the invalid value is invalid. -/
structure OrdKey (O : Ord Int) (isMax : Bool) (key : Int → Int) : Prop where
  inv : O.valid O.inv = false
  better : ∀ x y, O.valid x = true → O.valid y = true →
    (O.better x y = true ↔ if isMax then key y < key x else key x < key y)

theorem intOrd_key (isMax : Bool) (t : IT) : OrdKey (intOrd isMax t) isMax id := by
  constructor
  · simp [intOrd]
  · intro x y _ _
    cases isMax <;> simp [intOrd]

theorem f32_qnan : FT.f32.isNan FT.f32.qnan = true := by decide
theorem f64_qnan : FT.f64.isNan FT.f64.qnan = true := by decide

theorem fltOrd_key (isMax : Bool) (f : FT) (hf : f.isNan f.qnan = true) :
    OrdKey (fltOrd isMax f) isMax (fun x => f.key x.toNat) := by
  constructor
  · simp [fltOrd, hf]
  · intro x y hx hy
    simp only [fltOrd] at hx hy
    have hx : f.isNan x.toNat = false := by simpa using hx
    have hy : f.isNan y.toNat = false := by simpa using hy
    cases isMax <;> simp [fltOrd, FT.lt, hx, hy]

/-- `r` is at least as good as every element of `L` and belongs to it. -/
def Best (isMax : Bool) (key : Int → Int) (L : List Int) (r : Int) : Prop :=
  r ∈ L ∧ ∀ x ∈ L, if isMax then key x ≤ key r else key r ≤ key x

theorem Best.single (isMax : Bool) (key : Int → Int) (x : Int) : Best isMax key [x] x := by
  refine ⟨by simp, fun y hy => ?_⟩
  have : y = x := by simpa using hy
  subst this
  cases isMax <;> simp

theorem Best.merge {O : Ord Int} {isMax : Bool} {key : Int → Int} (ho : OrdKey O isMax key)
    {L L' : List Int} {r s : Int} (hr : Best isMax key L r) (hs : Best isMax key L' s)
    (vr : O.valid r = true) (vs : O.valid s = true) :
    Best isMax key (L ++ L') (if O.better s r then s else r) := by
  have hb := ho.better s r vs vr
  obtain ⟨h1, h2⟩ := hr
  obtain ⟨h3, h4⟩ := hs
  by_cases hc : O.better s r = true
  · rw [if_pos hc]
    have hlt := hb.mp hc
    refine ⟨List.mem_append_right _ h3, fun x hx => ?_⟩
    rcases List.mem_append.mp hx with hx | hx
    · have := h2 x hx
      cases isMax <;> simp at this hlt ⊢ <;> omega
    · exact h4 x hx
  · rw [if_neg hc]
    have hge := fun h => hc (hb.mpr h)
    refine ⟨List.mem_append_left _ h1, fun x hx => ?_⟩
    rcases List.mem_append.mp hx with hx | hx
    · exact h2 x hx
    · have := h4 x hx
      cases isMax <;> simp at this hge ⊢ <;> omega

theorem Best.perm {isMax : Bool} {key : Int → Int} {L L' : List Int} {r : Int} (h : L.Perm L')
    (hb : Best isMax key L r) : Best isMax key L' r :=
  ⟨h.mem_iff.mp hb.1, fun x hx => hb.2 x (h.mem_iff.mpr hx)⟩

/-- The cell of a bin after the rows with values `L`, `AccumMin`/`AccumMax`. -/
def MinRep (O : Ord Int) (isMax : Bool) (key : Int → Int) (L : List Int) (c : Cell Int D) : Prop :=
  ((∃ x ∈ L, O.valid x = false) → c.cnt = -1 ∧ c.out = some O.inv) ∧
  ((∀ x ∈ L, O.valid x = true) →
    (L = [] → c.cnt = 0 ∧ c.out = some O.inv) ∧
    (L ≠ [] → c.cnt = 1 ∧ ∃ r, c.out = some r ∧ Best isMax key L r))

theorem all_or_ex (p : Int → Bool) (L : List Int) :
    (∀ x ∈ L, p x = true) ∨ ∃ x ∈ L, p x = false := by
  induction L with
  | nil => exact .inl (by simp)
  | cons y L ih =>
    cases hy : p y with
    | false => exact .inr ⟨y, by simp, hy⟩
    | true =>
      rcases ih with h | ⟨x, hx, h⟩
      · left; intro x hx
        rcases List.mem_cons.mp hx with rfl | hx
        · exact hy
        · exact h x hx
      · exact .inr ⟨x, by simp [hx], h⟩

theorem minRow_rep {O : Ord Int} {isMax : Bool} {key : Int → Int} (ho : OrdKey O isMax key)
    (L : List Int) (x : Int) (c : Cell Int D) (h : MinRep O isMax key L c) :
    MinRep O isMax key (L ++ [x]) (minRow O x c) := by
  obtain ⟨h1, h2⟩ := h
  unfold MinRep minRow
  rcases all_or_ex O.valid L with hv | hi
  · obtain ⟨a1, a2⟩ := h2 hv
    have hc : c.cnt = 0 ∨ c.cnt = 1 := by
      by_cases hL : L = []
      · exact .inl (a1 hL).1
      · exact .inr (a2 hL).1
    rw [if_pos (by omega)]
    cases hx : O.valid x with
    | false =>
      rw [if_pos (by simp)]
      refine ⟨fun _ => ⟨rfl, rfl⟩, fun hn => ?_⟩
      have := hn x (by simp)
      simp [hx] at this
    | true =>
      rw [if_neg (by simp)]
      refine ⟨fun ⟨y, hy, hyv⟩ => ?_, fun _ => ⟨fun hn => by simp at hn, fun _ => ?_⟩⟩
      · rcases List.mem_append.mp hy with hy | hy
        · have := hv y hy; simp [hyv] at this
        · have : y = x := by simpa using hy
          subst this; simp [hx] at hyv
      · by_cases hL : L = []
        · rw [if_pos (a1 hL).1]
          refine ⟨rfl, x, rfl, ?_⟩
          rw [hL]
          exact Best.single isMax key x
        · obtain ⟨b1, r, b2, b3⟩ := a2 hL
          rw [if_neg (by omega)]
          refine ⟨b1, _, by rw [b2]; rfl, ?_⟩
          exact Best.merge ho b3 (Best.single isMax key x) (hv r b3.1) hx
  · obtain ⟨a1, a2⟩ := h1 hi
    rw [if_neg (by omega)]
    refine ⟨fun _ => ⟨a1, a2⟩, fun hn => ?_⟩
    obtain ⟨y, hy, hyv⟩ := hi
    have := hn y (List.mem_append_left _ hy)
    simp [hyv] at this

/-- The state of `GatherMin`/`GatherMax` after cores with the values `Ls`. -/
def MinGat (O : Ord Int) (isMax : Bool) (key : Int → Int) (Ls : List (List Int)) (g : Gat Int) :
    Prop :=
  ((∃ x ∈ Ls.flatten, O.valid x = false) → g.inv = -1 ∧ g.out = some O.inv) ∧
  ((∀ x ∈ Ls.flatten, O.valid x = true) → g.inv ≠ -1 ∧
    (Ls.flatten = [] → g.out = some O.inv) ∧
    (Ls.flatten ≠ [] → ∃ r, g.out = some r ∧ Best isMax key Ls.flatten r))

theorem min_core {O : Ord Int} {isMax : Bool} {key : Int → Int} (ho : OrdKey O isMax key)
    (lo hi b : Nat) (h1 : lo ≤ b) (h2 : b < hi) (pass : Int) (hp : pass ≤ 0) (len : Nat)
    (L : List Int) : MinRep (D := D) O isMax key L (stdG lo hi
      (fun c => { c with out := some O.inv }) (minRow O) id pass len b L ⟨none, 0, none⟩) := by
  unfold stdG
  rw [if_pos ⟨h1, h2⟩]
  simp only [hp, if_true, id, ite_self]
  refine foldl_rep (Rep := MinRep O isMax key) (minRow_rep ho) L [] _ ?_
  exact ⟨fun ⟨x, hx, _⟩ => by simp at hx, fun _ => ⟨fun _ => ⟨rfl, rfl⟩, fun hn => absurd rfl hn⟩⟩

theorem min_pass {O : Ord Int} {isMax : Bool} {key : Int → Int} (ho : OrdKey O isMax key)
    (lo hi b : Nat) (h1 : lo ≤ b) (h2 : b < hi) (p : Int) (len : Nat)
    (L L' : List Int) (c : Cell Int D) (hp : 0 < p) (hc : MinRep O isMax key L c) :
    MinRep O isMax key (L ++ L') (stdG lo hi (fun c => { c with out := some O.inv })
      (minRow O) id p len b L' c) := by
  unfold stdG
  rw [if_pos ⟨h1, h2⟩]
  simp only [show ¬ p < 0 by omega, show ¬ p ≤ 0 by omega, if_false]
  exact foldl_rep (Rep := MinRep O isMax key) (minRow_rep ho) L' L _ hc

theorem cw_accumMin (O : Ord Int) {n lo hi : Nat} (h : lo ≤ hi ∧ hi ≤ n) (pass : Int)
    (rs : List (Int × Int)) : CW (D := D) n (accumMin O lo hi pass rs)
      (fun b c => stdG lo hi (fun c => { c with out := some O.inv }) (minRow O) id pass
        rs.length b (valsOf rs b) c) :=
  cw_std0 h (fun c => { c with out := some O.inv }) (minRow O) pass rs

theorem min_step {O : Ord Int} {isMax : Bool} {key : Int → Int} (ho : OrdKey O isMax key)
    (Ls : List (List Int)) (L : List Int) (j : Nat) (g : Gat Int) (c : Cell Int D)
    (hg : MinGat O isMax key Ls g) (hc : MinRep O isMax key L c) (hcnt : cntOf j g c = c.cnt) :
    MinGat O isMax key (Ls ++ [L]) (gatherMin O j g c) := by
  unfold gatherMin MinGat
  have e : (Ls ++ [L]).flatten = Ls.flatten ++ L := by simp
  rw [e, hcnt]
  rcases all_or_ex O.valid Ls.flatten with hv | hi
  · obtain ⟨a0, a1, a2⟩ := hg.2 hv
    rcases all_or_ex O.valid L with hv' | hi'
    · obtain ⟨b1, b2⟩ := hc.2 hv'
      have hall : ∀ x ∈ Ls.flatten ++ L, O.valid x = true := by
        intro x hx
        rcases List.mem_append.mp hx with hx | hx
        · exact hv x hx
        · exact hv' x hx
      refine ⟨fun ⟨x, hx, hxv⟩ => ?_, fun _ => ?_⟩
      · have := hall x hx; simp [hxv] at this
      · by_cases hL : L = []
        · rw [if_pos (.inl (b1 hL).1)]
          subst hL
          rw [List.append_nil]
          exact ⟨a0, a1, a2⟩
        · obtain ⟨c1, r, c2, c3⟩ := b2 hL
          rw [if_neg (by omega), if_neg (by omega)]
          refine ⟨a0, fun hn => absurd (List.append_eq_nil_iff.mp hn).2 hL, fun _ => ?_⟩
          by_cases hLs : Ls.flatten = []
          · have := a1 hLs
            refine ⟨r, ?_, ?_⟩
            · simp [pickO, nanPick, c2, this, ho.inv]
            · rw [hLs]; simpa using c3
          · obtain ⟨s, d1, d2⟩ := a2 hLs
            refine ⟨_, ?_, Best.merge ho d2 c3 (hv s d2.1) (hv' r c3.1)⟩
            simp [pickO, nanPick, c2, d1, hv s d2.1]
    · obtain ⟨b1, b2⟩ := hc.1 hi'
      rw [if_neg (by omega), if_pos b1]
      refine ⟨fun _ => ⟨rfl, rfl⟩, fun hn => ?_⟩
      obtain ⟨y, hy, hyv⟩ := hi'
      have := hn y (List.mem_append_right _ hy)
      simp [hyv] at this
  · obtain ⟨a1, a2⟩ := hg.1 hi
    rw [if_pos (.inr a1)]
    refine ⟨fun _ => ⟨a1, a2⟩, fun hn => ?_⟩
    obtain ⟨y, hy, hyv⟩ := hi
    have := hn y (List.mem_append_left _ hy)
    simp [hyv] at this

theorem min_first {O : Ord Int} {isMax : Bool} {key : Int → Int} (ho : OrdKey O isMax key)
    (L : List Int) (c : Cell Int D) (hc : MinRep O isMax key L c) :
    MinGat O isMax key [L] (gatherMin O 0 ⟨some O.inv, c.cnt, 0⟩ c) := by
  unfold gatherMin MinGat cntOf
  have e : [L].flatten = L := by simp
  rw [e, if_pos rfl]
  rcases all_or_ex O.valid L with hv | hi
  · obtain ⟨b1, b2⟩ := hc.2 hv
    refine ⟨fun ⟨x, hx, hxv⟩ => ?_, fun _ => ?_⟩
    · have := hv x hx; simp [hxv] at this
    · by_cases hL : L = []
      · have := (b1 hL).1
        rw [if_pos (.inl this)]
        exact ⟨by show c.cnt ≠ -1; omega, fun _ => rfl, fun hn => absurd hL hn⟩
      · obtain ⟨c1, r, c2, c3⟩ := b2 hL
        rw [if_neg (by show ¬ (c.cnt = 0 ∨ c.cnt = -1); omega),
          if_neg (by show ¬ c.cnt = -1; omega)]
        refine ⟨by show c.cnt ≠ -1; omega, fun hn => absurd hn hL, fun _ => ⟨r, ?_, c3⟩⟩
        simp [pickO, nanPick, c2, ho.inv]
  · obtain ⟨a1, a2⟩ := hc.1 hi
    rw [if_pos (.inr a1)]
    refine ⟨fun _ => ⟨a1, rfl⟩, fun hn => ?_⟩
    obtain ⟨y, hy, hyv⟩ := hi
    have := hn y hy
    simp [hyv] at this

theorem extreme_of {O : Ord Int} {isMax : Bool} {key : Int → Int} (ho : OrdKey O isMax key)
    {L : List Int} {o : Option Int} (h1 : (∃ x ∈ L, O.valid x = false) → o = some O.inv)
    (h2 : (∀ x ∈ L, O.valid x = true) → (L = [] → o = some O.inv) ∧
      (L ≠ [] → ∃ r, o = some r ∧ Best isMax key L r)) :
    ∃ r, o = some r ∧ Extreme isMax O.valid key L r := by
  rcases all_or_ex O.valid L with hv | hi
  · by_cases hL : L = []
    · refine ⟨_, (h2 hv).1 hL, fun _ => ho.inv, fun hn => absurd hL hn⟩
    · obtain ⟨r, hr, hb⟩ := (h2 hv).2 hL
      refine ⟨r, hr, fun hn => ?_, fun _ _ => hb⟩
      rcases hn with hn | ⟨x, hx, hxv⟩
      · exact absurd hn hL
      · have := hv x hx; simp [hxv] at this
  · refine ⟨_, h1 hi, fun _ => ho.inv, fun _ hn => ?_⟩
    obtain ⟨y, hy, hyv⟩ := hi
    have := hn y hy
    simp [hyv] at this

/-- C25 for any ordered element type. -/
theorem group_extreme {O : Ord Int} {isMax : Bool} {key : Int → Int} (ho : OrdKey O isMax key)
    {n lo hi workers : Nat} {nt : Bool} {rows : List (Int × Int)} {par : Option (List (List Nat))}
    (hs : CoreSched workers rows.length nt par) (h : lo ≤ hi ∧ hi ≤ n) :
    ∃ out, groupByAll (aggMin O : Agg Int Int D) n lo hi rows par = some out ∧ out.length = n ∧
      ∀ b, lo ≤ b → b < hi → ∃ r, out[b]? = some (some r) ∧
        Extreme isMax O.valid key (valsOf rows b) r := by
  have key' := groupByAll_bins (g := (aggMin O : Agg Int Int D)) (n := n) (lo := lo)
    (hi := hi) hs (Q := fun b o => ∃ r, o = some r ∧ Extreme isMax O.valid key (valsOf rows b) r)
    ?_ ?_
  · obtain ⟨out, h1, h2, h3⟩ := key'
    refine ⟨out, h1, h2, fun b hb1 hb2 => ?_⟩
    obtain ⟨o, ho, r, rfl, hr⟩ := h3 b hb1 hb2
    exact ⟨r, ho, hr⟩
  · obtain ⟨out, h1, h2, h3⟩ := sequential_cells (k := accumMin (D := D) O lo hi) rows
      (fun pass rs => cw_accumMin O h pass rs)
    refine ⟨out, h1, h2, fun b hb1 hb2 => ⟨_, h3 b (by omega), ?_⟩⟩
    have hr := min_core (D := D) ho lo hi b hb1 hb2 (-1) (by omega) rows.length (valsOf rows b)
    exact extreme_of ho (fun hi => (hr.1 hi).2) (fun hv => ⟨fun hL => ((hr.2 hv).1 hL).2,
      fun hL => ((hr.2 hv).2 hL).2⟩)
  · intro cores hp
    obtain ⟨out, h1, h2, h3⟩ := scattered_bins (g := (aggMin O : Agg Int Int D)) h rows
      (fun pass rs => cw_accumMin O h pass rs)
      (CRep := fun _ => MinRep O isMax key) (R := fun _ => MinGat O isMax key)
      (fun b hb1 hb2 => min_core ho lo hi b hb1 hb2 0 (by omega))
      (fun b hb1 hb2 => min_pass ho lo hi b hb1 hb2)
      (fun b _ _ => ⟨fun ⟨x, hx, _⟩ => by simp at hx, fun _ => ⟨by simp, fun _ => rfl,
        fun hn => absurd rfl hn⟩⟩)
      (fun b _ _ L c hc => min_first ho L c hc)
      (fun b _ _ j Ls L a c hj ha hc => min_step ho Ls L j a c ha hc
        (by unfold cntOf; rw [if_neg (by omega)]))
      cores
    refine ⟨out, h1, h2, fun b hb1 hb2 => ?_⟩
    obtain ⟨a, ha, hr⟩ := h3 b hb1 hb2
    refine ⟨_, ha, ?_⟩
    have hperm := workVals_perm rows b hp
    refine extreme_of ho (fun ⟨x, hx, hxv⟩ => (hr.1 ⟨x, hperm.mem_iff.mpr hx, hxv⟩).2) (fun hv => ?_)
    obtain ⟨_, c1, c2⟩ := hr.2 (fun x hx => hv x (hperm.mem_iff.mp hx))
    refine ⟨fun hL => c1 (List.perm_nil.mp (hL ▸ hperm)), fun hL => ?_⟩
    obtain ⟨r, d1, d2⟩ := c2 (fun hn => hL (List.nil_perm.mp (hn ▸ hperm)))
    exact ⟨r, d1, d2.perm hperm⟩

/-! ## Ignoring invalid values -/

/-- The output cell after valid and invalid values `L`, `AccumNanMin`/`AccumNanMax`. -/
def NanMin (O : Ord Int) (isMax : Bool) (key : Int → Int) (L : List Int) (o : Option Int) : Prop :=
  (L.filter O.valid = [] → o = some O.inv) ∧
  (L.filter O.valid ≠ [] → ∃ r, o = some r ∧ Best isMax key (L.filter O.valid) r)

theorem valid_of_best {O : Ord Int} {isMax : Bool} {key : Int → Int} {L : List Int} {r : Int}
    (h : Best isMax key (L.filter O.valid) r) : O.valid r = true := (List.mem_filter.mp h.1).2

theorem nanMin_merge {O : Ord Int} {isMax : Bool} {key : Int → Int} (ho : OrdKey O isMax key)
    {L L' : List Int} {o o' : Option Int} (h : NanMin O isMax key L o) (h' : NanMin O isMax key L' o') :
    NanMin O isMax key (L ++ L') (nanPickO O o o') := by
  unfold NanMin
  rw [List.filter_append]
  by_cases hL' : L'.filter O.valid = []
  · have e : nanPickO O o o' = o := by simp [nanPickO, h'.1 hL', ho.inv]
    rw [e, hL', List.append_nil]
    exact h
  · obtain ⟨s, hs1, hs2⟩ := h'.2 hL'
    refine ⟨fun hn => absurd (List.append_eq_nil_iff.mp hn).2 hL', fun _ => ?_⟩
    by_cases hL : L.filter O.valid = []
    · refine ⟨s, ?_, by rw [hL]; exact hs2⟩
      simp [nanPickO, hs1, h.1 hL, ho.inv, valid_of_best hs2, nanPick]
    · obtain ⟨r, hr1, hr2⟩ := h.2 hL
      refine ⟨_, ?_, Best.merge ho hr2 hs2 (valid_of_best hr2) (valid_of_best hs2)⟩
      simp [nanPickO, hs1, hr1, valid_of_best hr2, valid_of_best hs2, nanPick]

theorem nanMin_nil (O : Ord Int) (isMax : Bool) (key : Int → Int) :
    NanMin O isMax key [] (some O.inv) := ⟨fun _ => rfl, fun h => absurd rfl h⟩

theorem nanMin_single (O : Ord Int) (isMax : Bool) (key : Int → Int) (x : Int) :
    NanMin O isMax key [x] (some (if O.valid x then x else O.inv)) := by
  unfold NanMin
  cases hx : O.valid x with
  | false => simp [hx]
  | true =>
    rw [List.filter_cons_of_pos hx]
    exact ⟨fun hn => by simp at hn, fun _ => ⟨x, rfl, Best.single isMax key x⟩⟩

theorem nanMinRow_rep {O : Ord Int} {isMax : Bool} {key : Int → Int} (ho : OrdKey O isMax key)
    (L : List Int) (x : Int) (c : Cell Int D) (h : NanMin O isMax key L c.out) :
    NanMin O isMax key (L ++ [x]) (nanMinRow O x c).out := by
  have e : (nanMinRow O x c).out = nanPickO O c.out (some (if O.valid x then x else O.inv)) := by
    unfold nanMinRow nanPickO
    cases hx : O.valid x with
    | false => simp [ho.inv]
    | true => simp [hx]
  rw [e]
  exact nanMin_merge ho h (nanMin_single O isMax key x)

theorem nanMin_core {O : Ord Int} {isMax : Bool} {key : Int → Int} (ho : OrdKey O isMax key)
    (lo hi b : Nat) (h1 : lo ≤ b) (h2 : b < hi) (pass : Int) (hp : pass ≤ 0) (len : Nat)
    (L : List Int) : NanMin O isMax key L (stdG (D := D) lo hi
      (fun c => { c with out := some O.inv }) (nanMinRow O) id pass len b L ⟨none, 0, none⟩).out := by
  unfold stdG
  rw [if_pos ⟨h1, h2⟩]
  simp only [hp, if_true, id, ite_self]
  exact foldl_rep (Rep := fun L c => NanMin O isMax key L c.out) (nanMinRow_rep ho) L [] _
    (nanMin_nil O isMax key)

theorem nanMin_pass {O : Ord Int} {isMax : Bool} {key : Int → Int} (ho : OrdKey O isMax key)
    (lo hi b : Nat) (h1 : lo ≤ b) (h2 : b < hi) (p : Int) (len : Nat)
    (L L' : List Int) (c : Cell Int D) (hp : 0 < p) (hc : NanMin O isMax key L c.out) :
    NanMin O isMax key (L ++ L') (stdG lo hi (fun c => { c with out := some O.inv })
      (nanMinRow O) id p len b L' c).out := by
  unfold stdG
  rw [if_pos ⟨h1, h2⟩]
  simp only [show ¬ p < 0 by omega, show ¬ p ≤ 0 by omega, if_false]
  exact foldl_rep (Rep := fun L c => NanMin O isMax key L c.out) (nanMinRow_rep ho) L' L _ hc

theorem cw_accumNanMin (O : Ord Int) {n lo hi : Nat} (h : lo ≤ hi ∧ hi ≤ n) (pass : Int)
    (rs : List (Int × Int)) : CW (D := D) n (accumNanMin O lo hi pass rs)
      (fun b c => stdG lo hi (fun c => { c with out := some O.inv }) (nanMinRow O) id pass
        rs.length b (valsOf rs b) c) :=
  cw_std0 h (fun c => { c with out := some O.inv }) (nanMinRow O) pass rs

theorem nanExtreme_of {O : Ord Int} {isMax : Bool} {key : Int → Int} (ho : OrdKey O isMax key)
    {L : List Int} {o : Option Int} (h : NanMin O isMax key L o) :
    ∃ r, o = some r ∧ NanExtreme isMax O.valid key L r := by
  by_cases hL : L.filter O.valid = []
  · refine ⟨_, h.1 hL, fun _ => ho.inv, fun ⟨x, hx, hxv⟩ => ?_⟩
    have : x ∈ L.filter O.valid := List.mem_filter.mpr ⟨hx, hxv⟩
    rw [hL] at this
    simp at this
  · obtain ⟨r, hr, hb⟩ := h.2 hL
    have hm := List.mem_filter.mp hb.1
    refine ⟨r, hr, fun hn => ?_, fun _ => ⟨hm.1, hm.2, fun x hx hxv => hb.2 x
      (List.mem_filter.mpr ⟨hx, hxv⟩)⟩⟩
    have := hn r hm.1
    simp [hm.2] at this

theorem nanMin_perm {O : Ord Int} {isMax : Bool} {key : Int → Int} {L L' : List Int}
    {o : Option Int} (hp : L.Perm L') (h : NanMin O isMax key L o) : NanMin O isMax key L' o := by
  have hf := hp.filter O.valid
  refine ⟨fun hn => h.1 (List.perm_nil.mp (hn ▸ hf)), fun hn => ?_⟩
  obtain ⟨r, h1, h2⟩ := h.2 (fun hm => hn (List.nil_perm.mp (hm ▸ hf)))
  exact ⟨r, h1, h2.perm hf⟩

/-- C25 for any ordered element type, ignoring invalid values. -/
theorem group_nan_extreme {O : Ord Int} {isMax : Bool} {key : Int → Int} (ho : OrdKey O isMax key)
    {n lo hi workers : Nat} {nt : Bool} {rows : List (Int × Int)} {par : Option (List (List Nat))}
    (hs : CoreSched workers rows.length nt par) (h : lo ≤ hi ∧ hi ≤ n) :
    ∃ out, groupByAll (aggNanMin O : Agg Int Int D) n lo hi rows par = some out ∧ out.length = n ∧
      ∀ b, lo ≤ b → b < hi → ∃ r, out[b]? = some (some r) ∧
        NanExtreme isMax O.valid key (valsOf rows b) r := by
  have key' := groupByAll_bins (g := (aggNanMin O : Agg Int Int D)) (n := n) (lo := lo)
    (hi := hi) hs (Q := fun b o => ∃ r, o = some r ∧ NanExtreme isMax O.valid key (valsOf rows b) r)
    ?_ ?_
  · obtain ⟨out, h1, h2, h3⟩ := key'
    refine ⟨out, h1, h2, fun b hb1 hb2 => ?_⟩
    obtain ⟨o, ho, r, rfl, hr⟩ := h3 b hb1 hb2
    exact ⟨r, ho, hr⟩
  · obtain ⟨out, h1, h2, h3⟩ := sequential_cells (k := accumNanMin (D := D) O lo hi) rows
      (fun pass rs => cw_accumNanMin O h pass rs)
    refine ⟨out, h1, h2, fun b hb1 hb2 => ⟨_, h3 b (by omega), ?_⟩⟩
    exact nanExtreme_of ho (nanMin_core ho lo hi b hb1 hb2 (-1) (by omega) rows.length (valsOf rows b))
  · intro cores hp
    obtain ⟨out, h1, h2, h3⟩ := scattered_bins (g := (aggNanMin O : Agg Int Int D)) h rows
      (fun pass rs => cw_accumNanMin O h pass rs)
      (CRep := fun _ L c => NanMin O isMax key L c.out)
      (R := fun _ Ls g => NanMin O isMax key Ls.flatten g.out)
      (fun b hb1 hb2 => nanMin_core ho lo hi b hb1 hb2 0 (by omega))
      (fun b hb1 hb2 => nanMin_pass ho lo hi b hb1 hb2)
      (fun b _ _ => nanMin_nil O isMax key)
      (fun b _ _ L c hc => by
        have := nanMin_merge ho (nanMin_nil O isMax key) hc
        have e : [L].flatten = [] ++ L := by simp
        rw [e]
        exact this)
      (fun b _ _ j Ls L a c hj ha hc => by
        have := nanMin_merge ho ha hc
        have e : (Ls ++ [L]).flatten = Ls.flatten ++ L := by simp
        rw [e]
        exact this)
      cores
    refine ⟨out, h1, h2, fun b hb1 hb2 => ?_⟩
    obtain ⟨a, ha, hr⟩ := h3 b hb1 hb2
    exact ⟨_, ha, nanExtreme_of ho (nanMin_perm (workVals_perm rows b hp) hr)⟩

/-! ## The element types -/

/-- C25, integers: the group maximum (minimum) is the extreme of the group's rows; invalid when the group is
empty or has an invalid row.  It holds sequentially and for every assignment of blocks to cores. -/
theorem group_min_max_int (isMax : Bool) (t : IT)
    {n lo hi workers : Nat} {nt : Bool} {rows : List (Int × Int)} {par : Option (List (List Nat))}
    (hs : CoreSched workers rows.length nt par) (h : lo ≤ hi ∧ hi ≤ n) :
    ∃ out, groupByAll (aggMin (intOrd isMax t) : Agg Int Int Unit) n lo hi rows par = some out ∧
      out.length = n ∧ ∀ b, lo ≤ b → b < hi → ∃ r, out[b]? = some (some r) ∧
        Extreme isMax (fun x => x != t.inv) id (valsOf rows b) r :=
  group_extreme (intOrd_key isMax t) hs h

/-- C25, floats. -/
theorem group_min_max_flt (isMax : Bool) (f : FT) (hf : f.isNan f.qnan = true)
    {n lo hi workers : Nat} {nt : Bool} {rows : List (Int × Int)} {par : Option (List (List Nat))}
    (hs : CoreSched workers rows.length nt par) (h : lo ≤ hi ∧ hi ≤ n) :
    ∃ out, groupByAll (aggMin (fltOrd isMax f) : Agg Int Int Unit) n lo hi rows par = some out ∧
      out.length = n ∧ ∀ b, lo ≤ b → b < hi → ∃ r, out[b]? = some (some r) ∧
        Extreme isMax (fun x => !f.isNan x.toNat) (fun x => f.key x.toNat) (valsOf rows b) r :=
  group_extreme (fltOrd_key isMax f hf) hs h

/-- C25, integers, ignoring invalid values. -/
theorem group_nanmin_nanmax_int (isMax : Bool) (t : IT)
    {n lo hi workers : Nat} {nt : Bool} {rows : List (Int × Int)} {par : Option (List (List Nat))}
    (hs : CoreSched workers rows.length nt par) (h : lo ≤ hi ∧ hi ≤ n) :
    ∃ out, groupByAll (aggNanMin (intOrd isMax t) : Agg Int Int Unit) n lo hi rows par = some out ∧
      out.length = n ∧ ∀ b, lo ≤ b → b < hi → ∃ r, out[b]? = some (some r) ∧
        NanExtreme isMax (fun x => x != t.inv) id (valsOf rows b) r :=
  group_nan_extreme (intOrd_key isMax t) hs h

/-- C25, floats, ignoring invalid values. -/
theorem group_nanmin_nanmax_flt (isMax : Bool) (f : FT) (hf : f.isNan f.qnan = true)
    {n lo hi workers : Nat} {nt : Bool} {rows : List (Int × Int)} {par : Option (List (List Nat))}
    (hs : CoreSched workers rows.length nt par) (h : lo ≤ hi ∧ hi ≤ n) :
    ∃ out, groupByAll (aggNanMin (fltOrd isMax f) : Agg Int Int Unit) n lo hi rows par = some out ∧
      out.length = n ∧ ∀ b, lo ≤ b → b < hi → ∃ r, out[b]? = some (some r) ∧
        NanExtreme isMax (fun x => !f.isNan x.toNat) (fun x => f.key x.toNat) (valsOf rows b) r :=
  group_nan_extreme (fltOrd_key isMax f hf) hs h

/-- C25: for integers the extreme is unique, so the two paths give the same array. -/
theorem group_min_max_schedule_independent (isMax : Bool) (t : IT) {n lo hi w1 w2 : Nat}
    {nt1 nt2 : Bool} {rows : List (Int × Int)} {p1 p2 : Option (List (List Nat))}
    (h1 : CoreSched w1 rows.length nt1 p1) (h2 : CoreSched w2 rows.length nt2 p2)
    (h : lo ≤ hi ∧ hi ≤ n) :
    ∃ o1 o2 : List (Option Int), groupByAll (aggMin (intOrd isMax t) : Agg Int Int Unit) n lo hi rows p1 = some o1 ∧
      groupByAll (aggMin (intOrd isMax t) : Agg Int Int Unit) n lo hi rows p2 = some o2 ∧
      ∀ b, lo ≤ b → b < hi → o1[b]? = o2[b]? := by
  obtain ⟨o1, a1, _, a3⟩ := group_min_max_int isMax t h1 h
  obtain ⟨o2, b1, _, b3⟩ := group_min_max_int isMax t h2 h
  refine ⟨o1, o2, a1, b1, fun b x y => ?_⟩
  obtain ⟨r, hr, e1, e2⟩ := a3 b x y
  obtain ⟨s, hs, f1, f2⟩ := b3 b x y
  rw [hr, hs]
  congr 2
  by_cases hn : valsOf rows b = []
  · have := e1 (.inl hn); have := f1 (.inl hn)
    simp at *; omega
  · rcases all_or_ex (fun x => x != t.inv) (valsOf rows b) with hv | hi
    · obtain ⟨c1, c2⟩ := e2 hn hv
      obtain ⟨d1, d2⟩ := f2 hn hv
      have x1 := c2 s d1
      have x2 := d2 r c1
      cases isMax <;> simp at x1 x2 <;> omega
    · have := e1 (.inr hi); have := f1 (.inr hi)
      simp at *; omega

example : groupByAll (aggMin (intOrd true .i8) : Agg Int Int Unit) 4 1 4
    [(1, 100), (2, -128), (1, 120), (2, 3), (0, 7)] none =
      some [none, some 120, some (-128), some (-128)] := by decide +kernel
example : groupByAll (aggNanMin (intOrd false .i8) : Agg Int Int Unit) 4 1 4
    [(1, 100), (2, -128), (1, 20), (2, 3), (0, 7)] none =
      some [none, some 20, some 3, some (-128)] := by decide +kernel
example : Extreme true (fun x => x != IT.i8.inv) id [100, 120] 120 := by
  refine ⟨fun h => ?_, fun _ _ => ⟨by simp, by simp⟩⟩
  rcases h with h | ⟨x, hx, hv⟩
  · simp at h
  · have : x = 100 ∨ x = 120 := by simpa using hx
    rcases this with rfl | rfl <;> revert hv <;> decide
/-- Two cores: the first saw no row of bin 1, the second the maximum. -/
example : gather false (-128) (gatherMin (intOrd true .i8)) Gat.out 2 1 2
    [(⟨true, [⟨none, 0, none⟩, ⟨some (-128), 0, none⟩]⟩ : Core Int Unit),
      ⟨true, [⟨none, 0, none⟩, ⟨some 9, 1, none⟩]⟩] = some [none, some 9] := by decide +kernel

end Riptide.GroupBy
