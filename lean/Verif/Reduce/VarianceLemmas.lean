import Verif.Reduce.Variance
import Verif.Reduce.SumLemmas
/-! # Lemmas about the variance -/
namespace Riptide.Reduce
open Riptide.Work

/-- The sum of numbers and NaN. -/
def qtot : List Q → Q
  | [] => some 0
  | x :: xs => addQ x (qtot xs)

theorem addQ_assoc (a b c : Q) : addQ (addQ a b) c = addQ a (addQ b c) := by
  cases a <;> cases b <;> cases c <;> simp [addQ] <;> grind

theorem addQ_comm (a b : Q) : addQ a b = addQ b a := by
  cases a <;> cases b <;> simp [addQ] <;> grind

theorem addQ_zero (a : Q) : addQ a (some 0) = a := by
  cases a <;> simp [addQ] <;> grind

theorem zero_addQ (a : Q) : addQ (some 0) a = a := by rw [addQ_comm, addQ_zero]

theorem qtot_append : ∀ (a b : List Q), qtot (a ++ b) = addQ (qtot a) (qtot b)
  | [], b => by simp [qtot, zero_addQ]
  | x :: a, b => by simp only [List.cons_append, qtot, qtot_append a b, addQ_assoc]

theorem qtot_perm {a b : List Q} (h : a.Perm b) : qtot a = qtot b := by
  induction h with
  | nil => rfl
  | cons x _ ih => simp only [qtot, ih]
  | swap x y l => simp only [qtot]; rw [← addQ_assoc, ← addQ_assoc, addQ_comm y x]
  | trans _ _ h1 h2 => rw [h1, h2]

theorem foldl_addQ : ∀ (l : List Q) (r : Q), l.foldl addQ r = addQ r (qtot l)
  | [], r => (addQ_zero r).symm
  | x :: l, r => by rw [List.foldl_cons, foldl_addQ l, qtot, addQ_assoc]

theorem qtot_zipWith : ∀ (a b : List Q), a.length = b.length →
    qtot (List.zipWith addQ a b) = addQ (qtot a) (qtot b)
  | [], [], _ => by simp [qtot, addQ_zero]
  | x :: a, y :: b, h => by
    simp only [List.zipWith_cons_cons, qtot, qtot_zipWith a b (by simpa using h)]
    rw [addQ_assoc, addQ_assoc, ← addQ_assoc y, addQ_comm y, addQ_assoc]

theorem qtot_none_iff : ∀ l : List Q, qtot l = none ↔ none ∈ l
  | [] => by simp [qtot]
  | x :: l => by
    have := qtot_none_iff l
    simp only [qtot, List.mem_cons]
    cases x with
    | none => simp [addQ]
    | some v =>
      cases h : qtot l with
      | none => simpa [addQ] using this.1 h
      | some s =>
        have : none ∉ l := fun hc => by rw [this.2 hc] at h; simp at h
        simp [addQ, this]

theorem qtot_replicate (n : Nat) : qtot (List.replicate n (some 0)) = some 0 := by
  induction n with
  | zero => rfl
  | succ n ih => rw [List.replicate_succ, qtot, ih]; exact addQ_zero _

theorem vecLoop_qtot (n : Nat) (acc l : List Q) (h : acc.length = n) :
    (vecLoop addQ n acc l).1.length = n ∧
    addQ (qtot (vecLoop addQ n acc l).1) (qtot (vecLoop addQ n acc l).2) = addQ (qtot acc) (qtot l) := by
  fun_induction vecLoop addQ n acc l with
  | case1 acc l hn ih =>
    have hl : acc.length = (l.take n).length := by rw [List.length_take]; omega
    obtain ⟨i1, i2⟩ := ih (by rw [List.length_zipWith]; omega)
    refine ⟨i1, i2.trans ?_⟩
    rw [qtot_zipWith _ _ hl, addQ_assoc, ← qtot_append, List.take_append_drop]
  | case2 acc l hn => exact ⟨h, rfl⟩

theorem varLoop_eq (mean : Q) : ∀ (l : List Q) (r : Q),
    varLoop mean r l = addQ r (qtot (l.map (sqDev mean)))
  | [], r => (addQ_zero r).symm
  | none :: l, r => by
    have : qtot ((none :: l).map (sqDev mean)) = none := by
      rw [qtot_none_iff, List.map_cons]
      have : sqDev mean none = none := by cases mean <;> rfl
      rw [this]; simp
    rw [this, varLoop]; cases r <;> rfl
  | some x :: l, r => by
    rw [varLoop, varLoop_eq mean l, List.map_cons, qtot, addQ_assoc]

theorem nanVarSum_eq (mean : Q) (l : List Q) :
    nanVarSum mean l = qtot ((l.filter Option.isSome).map (sqDev mean)) := by
  unfold nanVarSum
  rw [← List.foldl_map (f := sqDev mean) (g := addQ), foldl_addQ, zero_addQ]

theorem f32_eq (ds : List Q) : f32Sum ds = qtot ds := by
  unfold f32Sum
  split
  · obtain ⟨h1, h2⟩ := vecLoop_qtot 4 (List.replicate 4 (some 0)) ds (by simp)
    rw [qtot_replicate, zero_addQ] at h2
    rw [← h2]
    generalize vecLoop addQ 4 (List.replicate 4 (some 0)) ds = v at *
    match v, h1 with
    | (t0 :: ts, r), _ => simp only [foldl_addQ, qtot]
  · rw [foldl_addQ, zero_addQ]

/-! ### The integer copy of the sum -/

theorem truncQ_small {junk : Int} {q : Rat} (h0 : 0 ≤ q) (h : q < 2 ^ 63) :
    0 ≤ truncQ junk q ∧ (truncQ junk q : Rat) ≤ q := by
  have hn : 0 ≤ q.num := Rat.num_nonneg.2 h0
  have e : q.num.tdiv q.den = q.floor := by
    rw [Rat.floor_def, Int.tdiv_eq_ediv_of_nonneg hn]
  have f1 : (q.floor : Rat) ≤ q := Rat.floor_le q
  have f0 : 0 ≤ q.floor := by
    rw [Rat.floor_def]; exact Int.ediv_nonneg hn (by omega)
  have f2 : q.floor < 2 ^ 63 := by
    have : (q.floor : Rat) < ((2 ^ 63 : Int) : Rat) := by
      have e2 : ((2 ^ 63 : Int) : Rat) = 2 ^ 63 := by decide +kernel
      rw [e2]
      grind
    exact Rat.intCast_lt_intCast.1 this
  unfold truncQ
  rw [e, if_pos]
  · exact ⟨f0, f1⟩
  · simp only [IT.InRange, IT.lo, IT.hi, IT.i64]; simp; omega

/-- The accumulator describes the squares `V`; `f32`: the integer copy is left alone. -/
structure VOK (f32 : Bool) (a : VAcc) (V : List Q) : Prop where
  len : a.lenOut = V.length
  bad : qtot V = none → a.res = none
  ok : ∀ s : Rat, qtot V = some s → (f32 = true ∨ s < 2 ^ 63) →
    a.res = some s ∧ 0 ≤ a.i64 ∧ (a.i64 : Rat) ≤ s ∧ (f32 = true → a.i64 = 0)

/-- No square is negative. -/
def NonNeg (V : List Q) : Prop := ∀ (x : Rat), some x ∈ V → 0 ≤ x

theorem qtot_nonneg : ∀ {V : List Q} {s : Rat}, NonNeg V → qtot V = some s → 0 ≤ s
  | [], s, _, h => by simp [qtot] at h; subst h; exact Rat.le_refl
  | none :: V, s, _, h => by simp [qtot, addQ] at h
  | some x :: V, s, hn, h => by
    have h1 := hn x (by simp)
    cases hq : qtot V with
    | none => simp [qtot, hq, addQ] at h
    | some r =>
      have h2 := qtot_nonneg (V := V) (fun y hy => hn y (by simp [hy])) hq
      simp [qtot, hq, addQ] at h
      grind

theorem VOK.perm {f32 a} {V W : List Q} (h : VOK f32 a V) (hp : V.Perm W) : VOK f32 a W :=
  ⟨by rw [h.len]; exact hp.length_eq, by rw [← qtot_perm hp]; exact h.bad, by rw [← qtot_perm hp]; exact h.ok⟩

theorem VOK.zero {f32} : VOK f32 .zero [] := by
  refine ⟨rfl, by simp [qtot], fun s hs _ => ?_⟩
  simp only [qtot, Option.some.injEq] at hs
  subst hs
  exact ⟨rfl, by decide, by decide +kernel, fun _ => rfl⟩

theorem addQ_some {a b : Q} {s : Rat} (h : addQ a b = some s) :
    ∃ x y : Rat, a = some x ∧ b = some y ∧ s = x + y := by
  cases a with
  | none => simp [addQ] at h
  | some x =>
    cases b with
    | none => simp [addQ] at h
    | some y => simp [addQ] at h; exact ⟨x, y, rfl, rfl, h.symm⟩

theorem i64_of_rat {n : Int} {s : Rat} (h0 : 0 ≤ n) (h1 : (n : Rat) ≤ s) (h : s < 2 ^ 63) :
    n ≠ IT.i64.inv ∧ IT.i64.wrap n = n := by
  have f2 : n < 2 ^ 63 := by
    have : (n : Rat) < ((2 ^ 63 : Int) : Rat) := by
      have e2 : ((2 ^ 63 : Int) : Rat) = 2 ^ 63 := by decide +kernel
      rw [e2]
      grind
    exact Rat.intCast_lt_intCast.1 this
  have hr : IT.i64.InRange n := by
    simp only [IT.InRange, IT.lo, IT.hi, IT.i64]; simp; omega
  refine ⟨?_, IT.wrap_of_inRange _ (by decide) hr⟩
  simp only [IT.inv, IT.lo, IT.i64]; simp; omega

theorem gatherVar_ok {f32} {t c : VAcc} {V W : List Q} (hV : NonNeg V) (hW : NonNeg W) (ht : VOK f32 t V)
    (hc : VOK f32 c W) : VOK f32 (gatherVar t c) (V ++ W) := by
  have hl : (gatherVar t c).lenOut = t.lenOut + c.lenOut := by
    unfold gatherVar; simp only; split
    · rfl
    · split <;> rfl
  refine ⟨by rw [hl, ht.len, hc.len, List.length_append], fun hb => ?_, fun s hs hlim => ?_⟩
  · have : addQ t.res c.res = none := by
      rw [qtot_none_iff, List.mem_append] at hb
      rcases hb with h | h
      · rw [ht.bad ((qtot_none_iff V).2 h)]; rfl
      · rw [hc.bad ((qtot_none_iff W).2 h), addQ_comm]; rfl
    unfold gatherVar; simp only [this]; rfl
  · rw [qtot_append] at hs
    obtain ⟨x, y, ex, ey, es⟩ := addQ_some hs
    have nx := qtot_nonneg hV ex
    have ny := qtot_nonneg hW ey
    have lx : f32 = true ∨ x < 2 ^ 63 := hlim.imp id fun h => by grind
    have ly : f32 = true ∨ y < 2 ^ 63 := hlim.imp id fun h => by grind
    obtain ⟨r1, a1, b1, c1⟩ := ht.ok x ex lx
    obtain ⟨r2, a2, b2, c2⟩ := hc.ok y ey ly
    have hi : addI t.i64 c.i64 = t.i64 + c.i64 ∧ t.i64 + c.i64 ≠ IT.i64.inv := by
      have hs : ((t.i64 + c.i64 : Int) : Rat) ≤ s := by rw [Rat.intCast_add]; grind
      rcases hlim with h | h
      · rw [c1 h, c2 h]; decide
      · obtain ⟨i1, _⟩ := i64_of_rat a1 b1 (by grind)
        obtain ⟨i2, _⟩ := i64_of_rat a2 b2 (by grind)
        obtain ⟨i3, i4⟩ := i64_of_rat (n := t.i64 + c.i64) (by omega) hs h
        exact ⟨by unfold addI; rw [if_neg (by simp [i1, i2]), i4], i3⟩
    have e : gatherVar t c = ⟨t.lenOut + c.lenOut, some s, t.i64 + c.i64⟩ := by
      unfold gatherVar
      simp only [r1, r2, hi.1]
      have : addQ (some x) (some y) = some s := by rw [es]; rfl
      rw [this, if_neg (by simp), if_neg hi.2]
    rw [e]
    refine ⟨rfl, by simp only; omega, ?_, fun h => ?_⟩
    · simp only; rw [Rat.intCast_add]; grind
    · simp only; rw [c1 h, c2 h]; rfl

/-- What is needed of a block function; `g` gives the squares an element contributes. -/
def VBlockOK (f32 : Bool) (g : Q → List Q) (blk : VAcc → List Q → VAcc) : Prop :=
  ∀ a V l, NonNeg V → VOK f32 a V → VOK f32 (blk a l) (V ++ l.flatMap g)

theorem NonNeg.append {V W : List Q} (h1 : NonNeg V) (h2 : NonNeg W) : NonNeg (V ++ W) := fun x h =>
  (List.mem_append.1 h).elim (h1 x) (h2 x)

theorem NonNeg.flatMap {g : Q → List Q} (hg : ∀ x, NonNeg (g x)) (l : List Q) : NonNeg (l.flatMap g) := by
  intro y hy
  obtain ⟨x, _, h⟩ := List.mem_flatMap.1 hy
  exact hg x y h

theorem vcore_ok {f32} {g : Q → List Q} {blk} (hg : ∀ x, NonNeg (g x)) (hb : VBlockOK f32 g blk) (xs : List Q) :
    ∀ (bs : List Nat) (a : VAcc) (V : List Q), NonNeg V → VOK f32 a V →
    VOK f32 (bs.foldl (fun a b => blk a (blockElems xs b)) a) (V ++ ((bs.map (blockElems xs)).flatten).flatMap g)
  | [], a, V, _, h => by simpa using h
  | b :: bs, a, V, hn, h => by
    have := vcore_ok hg hb xs bs _ _ (hn.append (NonNeg.flatMap hg _)) (hb a V (blockElems xs b) hn h)
    simpa [List.flatMap_append] using this

theorem vgathers_ok {f32} : ∀ (as : List VAcc) (Ws : List (List Q)) (t : VAcc) (V : List Q),
    as.length = Ws.length → (∀ W ∈ Ws, NonNeg W) →
    (∀ (i : Nat) a W, as[i]? = some a → Ws[i]? = some W → VOK f32 a W) → NonNeg V → VOK f32 t V →
    VOK f32 (as.foldl gatherVar t) (V ++ Ws.flatten)
  | [], [], t, V, _, _, _, _, h => by simpa using h
  | a :: as, W :: Ws, t, V, hl, hn, hi, hV, h => by
    have hW := hn W (by simp)
    have h1 := gatherVar_ok hV hW h (hi 0 a W (by simp) (by simp))
    have := vgathers_ok as Ws (gatherVar t a) (V ++ W) (by simpa using hl) (fun W' h' => hn W' (by simp [h']))
      (fun i a' T' ha hT => hi (i + 1) a' T' (by simpa using ha) (by simpa using hT)) (hV.append hW) h1
    simpa using this

theorem varScatter_ok {f32} {g : Q → List Q} {blk} (hg : ∀ x, NonNeg (g x)) (hb : VBlockOK f32 g blk)
    {xs : List Q} {workers : Nat} {nt : Bool} {par} (h : CoreSched workers xs.length nt par) :
    VOK f32 (varScatter blk xs par) (xs.flatMap g) := by
  rcases h.cases with ⟨rfl, _⟩ | ⟨cores, rfl, _, hp⟩
  · simpa [varScatter] using hb .zero [] xs (by intro x hx; simp at hx) .zero
  · unfold varScatter
    simp only
    have := vgathers_ok (f32 := f32)
      (cores.map fun (bs : List Nat) => bs.foldl (fun a b => blk a (blockElems xs b)) VAcc.zero)
      (cores.map fun bs => ((bs.map (blockElems xs)).flatten).flatMap g) VAcc.zero [] (by simp)
      (by
        intro W hW
        obtain ⟨bs, _, rfl⟩ := List.mem_map.1 hW
        exact NonNeg.flatMap hg _)
      (by
        intro i a W h1 h2
        rw [List.getElem?_map, Option.map_eq_some_iff] at h1 h2
        obtain ⟨b1, e1, rfl⟩ := h1
        obtain ⟨b2, e2, rfl⟩ := h2
        rw [e1] at e2
        cases e2
        simpa using vcore_ok hg hb xs b1 .zero [] (by intro x hx; simp at hx) .zero)
      (by intro x hx; simp at hx) .zero
    rw [List.nil_append] at this
    have e : (cores.map fun bs => ((bs.map (blockElems xs)).flatten).flatMap g).flatten =
        ((cores.map fun bs => (bs.map (blockElems xs)).flatten).flatten).flatMap g := by
      clear this h hp
      induction cores with
      | nil => rfl
      | cons c cs ih => simp [List.flatMap_append, ih]
    rw [e] at this
    exact this.perm ((cores_perm xs hp).flatMap_right g)

theorem sqDev_nonneg (mean x : Q) : NonNeg [sqDev mean x] := by
  intro y hy
  cases mean with
  | none => simp [sqDev] at hy
  | some m =>
    cases x with
    | none => simp [sqDev] at hy
    | some v =>
      simp only [sqDev, Option.bind_some, Option.map_some, List.mem_cons, Option.some.injEq, List.not_mem_nil, or_false] at hy
      subst hy
      have : ∀ t : Rat, 0 ≤ t * t := fun t => by
        rcases Rat.le_total (a := 0) (b := t) with h | h
        · exact Rat.mul_nonneg h h
        · have := Rat.mul_nonneg (a := -t) (b := -t) (by grind) (by grind)
          grind
      exact this _

theorem varBlock_ok (junk : Int) (mean : Q) : VBlockOK false (fun x => [sqDev mean x]) (varBlock junk mean) := by
  intro a V l hV h
  have ef : l.flatMap (fun x => [sqDev mean x]) = l.map (sqDev mean) := by
    induction l with
    | nil => rfl
    | cons x l ih => simp [List.flatMap_cons, ih]
  have hn : NonNeg (l.map (sqDev mean)) := ef ▸ NonNeg.flatMap (fun x => sqDev_nonneg mean x) l
  rw [ef]
  unfold varBlock
  rw [varLoop_eq, zero_addQ]
  refine ⟨by simp [h.len], fun hb => ?_, fun s hs hlim => ?_⟩
  · simp only
    rw [qtot_none_iff, List.mem_append] at hb
    rcases hb with hb | hb
    · rw [h.bad ((qtot_none_iff V).2 hb)]; rfl
    · rw [(qtot_none_iff _).2 hb, addQ_comm]; rfl
  · have hs0 := qtot_nonneg (hV.append hn) hs
    rw [qtot_append] at hs
    obtain ⟨x, y, ex, ey, es⟩ := addQ_some hs
    have ny := qtot_nonneg hn ey
    have hlt : s < 2 ^ 63 := by simpa using hlim
    obtain ⟨r1, _⟩ := h.ok x ex (.inr (by grind))
    have e : addQ a.res (qtot (l.map (sqDev mean))) = some s := by rw [r1, ey, es]; rfl
    obtain ⟨t0, t1⟩ := truncQ_small (junk := junk) hs0 hlt
    rw [e]
    exact ⟨rfl, t0, t1, by simp⟩

theorem varBlockF32_ok (mean : Q) : VBlockOK true (fun x => [sqDev mean x]) (varBlockF32 mean) := by
  intro a V l hV h
  have ef : l.flatMap (fun x => [sqDev mean x]) = l.map (sqDev mean) := by
    induction l with
    | nil => rfl
    | cons x l ih => simp [List.flatMap_cons, ih]
  have hn : NonNeg (l.map (sqDev mean)) := ef ▸ NonNeg.flatMap (fun x => sqDev_nonneg mean x) l
  rw [ef]
  have hb : varBlockF32 mean a l = ⟨a.lenOut + l.length, addQ a.res (qtot (l.map (sqDev mean))), a.i64⟩ := by
    unfold varBlockF32
    rw [f32_eq]
  rw [hb]
  refine ⟨by simp [h.len], fun hb => ?_, fun s hs hlim => ?_⟩
  · simp only
    rw [qtot_none_iff, List.mem_append] at hb
    rcases hb with hb | hb
    · rw [h.bad ((qtot_none_iff V).2 hb)]; rfl
    · rw [(qtot_none_iff _).2 hb, addQ_comm]; rfl
  · rw [qtot_append] at hs
    obtain ⟨x, y, ex, ey, es⟩ := addQ_some hs
    have ny := qtot_nonneg hn ey
    obtain ⟨r1, a0, a1, a2⟩ := h.ok x ex (.inl rfl)
    exact ⟨by simp only; rw [r1, ey, es]; rfl, a0, by simp only; grind, a2⟩

/-- The squares of the valid elements only. -/
def nanDev (mean x : Q) : List Q := if x.isSome then [sqDev mean x] else []

theorem nanDev_nonneg (mean x : Q) : NonNeg (nanDev mean x) := by
  unfold nanDev
  split
  · exact sqDev_nonneg mean x
  · intro y hy; simp at hy

theorem nanDev_flatMap (mean : Q) (l : List Q) :
    l.flatMap (nanDev mean) = (l.filter Option.isSome).map (sqDev mean) := by
  induction l with
  | nil => rfl
  | cons x l ih => cases x <;> simp [nanDev, List.flatMap_cons, ih]

theorem nanVarBlock_ok (junk : Int) (mean : Q) : VBlockOK false (nanDev mean) (nanVarBlock junk mean) := by
  intro a V l hV h
  have hn : NonNeg (l.flatMap (nanDev mean)) := NonNeg.flatMap (fun x => nanDev_nonneg mean x) l
  rw [nanDev_flatMap] at hn ⊢
  unfold nanVarBlock
  simp only [nanVarSum_eq]
  refine ⟨by simp [h.len], fun hb => ?_, fun s hs hlim => ?_⟩
  · simp only
    rw [qtot_none_iff, List.mem_append] at hb
    rcases hb with hb | hb
    · rw [h.bad ((qtot_none_iff V).2 hb)]; rfl
    · rw [(qtot_none_iff _).2 hb, addQ_comm]; rfl
  · have hs0 := qtot_nonneg (hV.append hn) hs
    rw [qtot_append] at hs
    obtain ⟨x, y, ex, ey, es⟩ := addQ_some hs
    have nx := qtot_nonneg hV ex
    have ny := qtot_nonneg hn ey
    have hlt : s < 2 ^ 63 := by simpa using hlim
    obtain ⟨r1, a0, a1, _⟩ := h.ok x ex (.inr (by grind))
    obtain ⟨t0, t1⟩ := truncQ_small (junk := junk) ny (by grind)
    obtain ⟨_, w⟩ := i64_of_rat (n := a.i64 + truncQ junk y) (by omega) (s := s) (by rw [Rat.intCast_add]; grind) hlt
    simp only [r1, ey, w]
    exact ⟨by rw [es]; rfl, by omega, by rw [Rat.intCast_add]; grind, by simp⟩

end Riptide.Reduce
