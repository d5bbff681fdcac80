import Verif.Reduce.Model
/-! Helper lemmas for min/max reductions. -/
namespace Riptide.Reduce
open Riptide.Work
variable {α : Type}

/-- The valid values are weakly ordered. -/
structure Ord (D : Dom α) : Prop where
  asymm : ∀ a b, D.valid a = true → D.valid b = true → D.better a b = true → D.better b a = false
  ntrans : ∀ x y z, D.valid x = true → D.valid y = true → D.valid z = true →
    D.better x z = true → D.better x y = true ∨ D.better y z = true

/-- Laws of an element type whose values satisfy `P`. -/
structure Laws (D : Dom α) (P : α → Prop) : Prop extends Ord D where
  inv_p : P D.inv
  inv_bad : D.valid D.inv = false

instance {D : Dom α} {P : α → Prop} : CoeOut (Laws D P) (Ord D) := ⟨Laws.toOrd⟩

/-- `op` picks one of two valid operands, never the worse one, and propagates invalids. -/
def Comb (D : Dom α) (P : α → Prop) (op : α → α → α) : Prop :=
  ∀ a b, P a → P b → P (op a b) ∧
    (D.valid a = true → D.valid b = true →
      (op a b = a ∧ D.better b a = false) ∨ (op a b = b ∧ D.better a b = false)) ∧
    ((D.valid a = false ∨ D.valid b = false) → D.valid (op a b) = false)

/-- `A` summarises `S`. -/
structure Summ (D : Dom α) (P : α → Prop) (A S : List α) : Prop where
  p : ∀ a ∈ A, P a
  sub : (∀ x ∈ S, D.valid x = true) → ∀ a ∈ A, a ∈ S
  dom : (∀ x ∈ S, D.valid x = true) → ∀ x ∈ S, ∃ a ∈ A, D.better x a = false
  bad : (∃ x ∈ S, D.valid x = false) → ∃ a ∈ A, D.valid a = false

theorem better_irrefl {D : Dom α} (L : Ord D) {a : α} (h : D.valid a = true) :
    D.better a a = false := by
  cases hb : D.better a a with
  | false => rfl
  | true => have := L.asymm a a h h hb; simp_all

theorem Summ.self {D : Dom α} {P} (L : Ord D) {S : List α} (h : ∀ x ∈ S, P x) : Summ D P S S :=
  ⟨h, fun _ _ ha => ha, fun hv x hx => ⟨x, hx, better_irrefl L (hv x hx)⟩, fun h => h⟩

theorem Summ.trans {D : Dom α} {P} (L : Ord D) {A B S : List α} (h1 : Summ D P A S)
    (h2 : Summ D P B A) : Summ D P B S := by
  refine ⟨h2.p, fun hv b hb => ?_, fun hv x hx => ?_, fun hb => ?_⟩
  · have hA : ∀ a ∈ A, D.valid a = true := fun a ha => hv a (h1.sub hv a ha)
    exact h1.sub hv b (h2.sub hA b hb)
  · have hA : ∀ a ∈ A, D.valid a = true := fun a ha => hv a (h1.sub hv a ha)
    obtain ⟨a, ha, hxa⟩ := h1.dom hv x hx
    obtain ⟨b, hb, hab⟩ := h2.dom hA a ha
    refine ⟨b, hb, ?_⟩
    cases hxb : D.better x b with
    | false => rfl
    | true =>
      rcases L.ntrans x a b (hv x hx) (hA a ha) (hA b (h2.sub hA b hb)) hxb with h | h <;> simp_all
  · exact h2.bad (h1.bad hb)

theorem Summ.append {D : Dom α} {P} {A B S T : List α} (h1 : Summ D P A S) (h2 : Summ D P B T) :
    Summ D P (A ++ B) (S ++ T) := by
  refine ⟨?_, ?_, ?_, ?_⟩
  · intro a ha; rcases List.mem_append.1 ha with h | h
    · exact h1.p a h
    · exact h2.p a h
  · intro hv a ha
    rcases List.mem_append.1 ha with h | h
    · exact List.mem_append_left _ (h1.sub (fun x hx => hv x (by simp [hx])) a h)
    · exact List.mem_append_right _ (h2.sub (fun x hx => hv x (by simp [hx])) a h)
  · intro hv x hx
    rcases List.mem_append.1 hx with h | h
    · obtain ⟨a, ha, hb⟩ := h1.dom (fun x hx => hv x (by simp [hx])) x h
      exact ⟨a, by simp [ha], hb⟩
    · obtain ⟨a, ha, hb⟩ := h2.dom (fun x hx => hv x (by simp [hx])) x h
      exact ⟨a, by simp [ha], hb⟩
  · rintro ⟨x, hx, hb⟩
    rcases List.mem_append.1 hx with h | h
    · obtain ⟨a, ha, hb⟩ := h1.bad ⟨x, h, hb⟩; exact ⟨a, by simp [ha], hb⟩
    · obtain ⟨a, ha, hb⟩ := h2.bad ⟨x, h, hb⟩; exact ⟨a, by simp [ha], hb⟩

theorem Summ.congr {D : Dom α} {P} {A S T : List α} (h : Summ D P A S)
    (hm : ∀ x, x ∈ S ↔ x ∈ T) : Summ D P A T := by
  refine ⟨h.p, ?_, ?_, ?_⟩
  · intro hv a ha; exact (hm a).1 (h.sub (fun x hx => hv x ((hm x).1 hx)) a ha)
  · intro hv x hx; exact h.dom (fun x hx => hv x ((hm x).1 hx)) x ((hm x).2 hx)
  · rintro ⟨x, hx, hb⟩; exact h.bad ⟨x, (hm x).2 hx, hb⟩

theorem Summ.perm {D : Dom α} {P} {A S T : List α} (h : Summ D P A S) (hp : S.Perm T) :
    Summ D P A T := h.congr fun _ => hp.mem_iff

theorem Summ.zipWith {D : Dom α} {P} {op : α → α → α} (L : Ord D) (hc : Comb D P op) :
    ∀ (A B : List α), A.length = B.length → (∀ a ∈ A, P a) → (∀ b ∈ B, P b) →
    Summ D P (List.zipWith op A B) (A ++ B)
  | [], [], _, _, _ => ⟨by simp, by simp, by simp, by simp⟩
  | a :: A, b :: B, hl, hA, hB => by
    have ih := Summ.zipWith L hc A B (by simpa using hl) (fun x hx => hA x (by simp [hx]))
      (fun x hx => hB x (by simp [hx]))
    obtain ⟨c1, c2, c3⟩ := hc a b (hA a (by simp)) (hB b (by simp))
    have one : Summ D P [op a b] [a, b] := by
      refine ⟨by simpa using c1, ?_, ?_, ?_⟩
      · intro hv x hx
        have := c2 (hv a (by simp)) (hv b (by simp))
        simp only [List.mem_singleton] at hx
        subst hx
        rcases this with ⟨h, _⟩ | ⟨h, _⟩ <;> simp [h]
      · intro hv x hx
        have ha := hv a (by simp); have hb := hv b (by simp)
        refine ⟨op a b, by simp, ?_⟩
        simp only [List.mem_cons, List.not_mem_nil, or_false] at hx
        rcases c2 ha hb with ⟨h, h'⟩ | ⟨h, h'⟩ <;> rcases hx with rfl | rfl <;> rw [h]
        · exact better_irrefl L ha
        · exact h'
        · exact h'
        · exact better_irrefl L hb
      · rintro ⟨x, hx, hb⟩
        refine ⟨op a b, by simp, c3 ?_⟩
        simp only [List.mem_cons, List.not_mem_nil, or_false] at hx
        rcases hx with rfl | rfl
        · exact .inl hb
        · exact .inr hb
    refine (one.append ih).perm ?_
    simp only [List.cons_append, List.nil_append]
    exact List.Perm.cons _ List.perm_middle.symm

theorem summ_pair {D : Dom α} {P} {op : α → α → α} (L : Ord D) (hc : Comb D P op) {a b : α}
    {S T : List α} (h1 : Summ D P [a] S) (h2 : Summ D P [b] T) : Summ D P [op a b] (S ++ T) :=
  (h1.append h2).trans L (Summ.zipWith L hc [a] [b] rfl h1.p h2.p)

theorem summ_foldl {D : Dom α} {P} {op : α → α → α} (L : Ord D) (hc : Comb D P op) :
    ∀ (l : List α) (a : α) (S : List α), Summ D P [a] S → (∀ x ∈ l, P x) →
    Summ D P [l.foldl op a] (S ++ l)
  | [], a, S, h, _ => by simpa using h
  | x :: l, a, S, h, hl => by
    have h1 := summ_pair L hc h (Summ.self L (S := [x]) (by simpa using hl x (by simp)))
    have := summ_foldl L hc l (op a x) (S ++ [x]) h1 (fun y hy => hl y (by simp [hy]))
    simpa using this

theorem comb_rBest {D : Dom α} {P} (L : Laws D P) : Comb D P (rBest D) := by
  intro a b ha hb
  unfold rBest stdBest
  cases hva : D.valid a <;> cases hvb : D.valid b <;> simp [L.inv_p, L.inv_bad]
  cases h : D.better b a
  · simp [ha]
  · simp [hb, L.asymm b a hvb hva h]

theorem comb_stdBest_valid {D : Dom α} {P : α → Prop} (L : Ord D) :
    Comb D (fun x => P x ∧ D.valid x = true) (stdBest D) := by
  intro a b ha hb
  unfold stdBest
  refine ⟨?_, ?_, ?_⟩
  · split
    · exact hb
    · exact ha
  · intro _ _
    cases h : D.better b a
    · simp
    · simp [L.asymm b a hb.2 ha.2 h]
  · rw [ha.2, hb.2]; simp

theorem comb_rBest_valid {D : Dom α} {P : α → Prop} (L : Ord D) :
    Comb D (fun x => P x ∧ D.valid x = true) (rBest D) := by
  intro a b ha hb
  have e : rBest D a b = stdBest D a b := by simp [rBest, ha.2, hb.2]
  rw [e]
  exact comb_stdBest_valid L a b ha hb

theorem Summ.mono {D : Dom α} {P Q : α → Prop} {A S : List α} (h : Summ D P A S)
    (hpq : ∀ x, P x → Q x) : Summ D Q A S :=
  ⟨fun a ha => hpq a (h.p a ha), h.sub, h.dom, h.bad⟩

/-! ### The vector kernel -/

theorem vecLoop_spec {D : Dom α} {P} {op : α → α → α} (L : Ord D) (hc : Comb D P op) (n : Nat)
    (acc l : List α) : ∀ S, acc.length = n → Summ D P acc S → (∀ x ∈ l, P x) →
    ∃ used, l = used ++ (vecLoop op n acc l).2 ∧ (vecLoop op n acc l).1.length = n ∧
      Summ D P (vecLoop op n acc l).1 (S ++ used) := by
  fun_induction vecLoop op n acc l with
  | case1 acc l h ih =>
    intro S hl hS hP
    have hz : (List.zipWith op acc (l.take n)).length = n := by
      rw [List.length_zipWith, List.length_take]; omega
    have hs : Summ D P (List.zipWith op acc (l.take n)) (S ++ l.take n) := by
      have h2 : ∀ x ∈ l.take n, P x := fun x hx => hP x (List.mem_of_mem_take hx)
      exact (hS.append (Summ.self L h2)).trans L
        (Summ.zipWith L hc _ _ (by rw [List.length_take]; omega) hS.p h2)
    obtain ⟨used, e, h1, h2⟩ := ih (S ++ l.take n) hz hs (fun x hx => hP x (List.mem_of_mem_drop hx))
    refine ⟨l.take n ++ used, ?_, h1, by simpa using h2⟩
    rw [List.append_assoc, ← e, List.take_append_drop]
  | case2 acc l h => intro S hl hS _; exact ⟨[], by simp, hl, by simpa using hS⟩

theorem reg_length (w : Nat) (acc : List α) (h : acc.length = 8 * w) (r : Nat) (hr : r < 8) :
    (reg w acc r).length = w := by
  unfold reg
  rw [List.length_take, List.length_drop, h]
  have : r * w ≤ 7 * w := Nat.mul_le_mul_right _ (by omega)
  omega

theorem regs_append (w : Nat) (acc : List α) (h : acc.length = 8 * w) :
    (reg w acc 0 ++ reg w acc 1 ++ (reg w acc 2 ++ reg w acc 3)) ++
    (reg w acc 4 ++ reg w acc 5 ++ (reg w acc 6 ++ reg w acc 7)) = acc := by
  have step : ∀ k, k < 8 → acc.take (k * w) ++ reg w acc k = acc.take ((k + 1) * w) := by
    intro k _
    unfold reg
    rw [Nat.add_mul, Nat.one_mul, List.take_add]
  have h0 : acc.take (0 * w) = [] := by simp
  have h8 : acc.take (8 * w) = acc := by rw [← h]; exact List.take_length
  have e := step 7 (by omega)
  rw [← step 6 (by omega), ← step 5 (by omega), ← step 4 (by omega), ← step 3 (by omega),
    ← step 2 (by omega), ← step 1 (by omega), ← step 0 (by omega), h0, h8] at e
  refine Eq.trans ?_ e
  simp only [List.nil_append, List.append_assoc]

theorem windDown_spec {D : Dom α} {P} {op : α → α → α} (L : Ord D) (hc : Comb D P op) (w : Nat)
    (acc : List α) (hl : acc.length = 8 * w) (hP : ∀ a ∈ acc, P a) :
    (windDown op w acc).length = w ∧ Summ D P (windDown op w acc) acc := by
  have hr : ∀ r, r < 8 → (reg w acc r).length = w := reg_length w acc hl
  have hrP : ∀ r, ∀ a ∈ reg w acc r, P a := fun r a ha =>
    hP a (List.mem_of_mem_drop (List.mem_of_mem_take ha))
  have comb : ∀ A B S T : List α, A.length = w → B.length = w → Summ D P A S → Summ D P B T →
      (List.zipWith op A B).length = w ∧ Summ D P (List.zipWith op A B) (S ++ T) := by
    intro A B S T hA hB h1 h2
    refine ⟨by rw [List.length_zipWith]; omega, ?_⟩
    exact (h1.append h2).trans L (Summ.zipWith L hc A B (by omega) h1.p h2.p)
  have s : ∀ r, Summ D P (reg w acc r) (reg w acc r) := fun r => Summ.self L (hrP r)
  obtain ⟨l01, s01⟩ := comb _ _ _ _ (hr 0 (by omega)) (hr 1 (by omega)) (s 0) (s 1)
  obtain ⟨l23, s23⟩ := comb _ _ _ _ (hr 2 (by omega)) (hr 3 (by omega)) (s 2) (s 3)
  obtain ⟨l45, s45⟩ := comb _ _ _ _ (hr 4 (by omega)) (hr 5 (by omega)) (s 4) (s 5)
  obtain ⟨l67, s67⟩ := comb _ _ _ _ (hr 6 (by omega)) (hr 7 (by omega)) (s 6) (s 7)
  obtain ⟨l03, s03⟩ := comb _ _ _ _ l01 l23 s01 s23
  obtain ⟨l47, s47⟩ := comb _ _ _ _ l45 l67 s45 s67
  obtain ⟨l07, s07⟩ := comb _ _ _ _ l03 l47 s03 s47
  refine ⟨l07, ?_⟩
  have := regs_append w acc hl
  rw [this] at s07
  exact s07

theorem avxValue_spec {D : Dom α} {P} {op : α → α → α} (L : Ord D) (hc : Comb D P op)
    (hr : Comb D P (rBest D)) {w : Nat} (hw : 0 < w) {l : List α} (hne : l ≠ [])
    (hP : ∀ x ∈ l, P x) : ∃ r, avxValue D op w l = some r ∧ Summ D P [r] l := by
  obtain ⟨x0, xs, rfl⟩ := List.exists_cons_of_ne_nil hne
  unfold avxValue
  simp only
  split
  · rename_i h8
    generalize hl : x0 :: xs = l at *
    obtain ⟨used, e, h1, h2⟩ := vecLoop_spec L hc (8 * w) (l.take (8 * w)) (l.drop (8 * w))
      (l.take (8 * w)) (by rw [List.length_take]; omega)
      (Summ.self L fun x hx => hP x (List.mem_of_mem_take hx))
      (fun x hx => hP x (List.mem_of_mem_drop hx))
    obtain ⟨wl, ws⟩ := windDown_spec L hc w _ h1 h2.p
    have ws' := h2.trans L ws
    generalize hv : vecLoop op (8 * w) (l.take (8 * w)) (l.drop (8 * w)) = v at *
    generalize hwd : windDown op w v.1 = wd at *
    match wd, wl with
    | [], wl => simp at wl; omega
    | t0 :: ts, wl =>
      refine ⟨_, rfl, ?_⟩
      have hPt : ∀ x ∈ t0 :: ts, P x := ws'.p
      have f1 := summ_foldl L hr ts t0 [t0] (Summ.self L (by simpa using hPt t0 (by simp)))
        (fun x hx => hPt x (by simp [hx]))
      have f1' : Summ D P [ts.foldl (rBest D) t0] (l.take (8 * w) ++ used) := ws'.trans L f1
      have hP2 : ∀ x ∈ v.2, P x := by
        intro x hx
        apply hP x
        apply List.mem_of_mem_drop (i := 8 * w)
        rw [e]; simp [hx]
      have f2 := summ_foldl L hr v.2 _ _ f1' hP2
      rw [List.append_assoc, ← e, List.take_append_drop] at f2
      exact f2
  · refine ⟨_, rfl, ?_⟩
    have := summ_foldl L hr (x0 :: xs) x0 [x0] (Summ.self L (by simpa using hP x0 (by simp))) hP
    refine this.congr fun x => ?_
    simp

theorem containsInvalid_iff (D : Dom α) (w : Nat) (l : List α) :
    containsInvalid D w l = true ↔ ∃ x ∈ l, D.valid x = false := by
  fun_induction containsInvalid D w l with
  | case1 l h hany =>
    simp only [true_iff]
    rw [List.any_eq_true] at hany
    obtain ⟨x, hx, hb⟩ := hany
    exact ⟨x, List.mem_of_mem_take hx, by simpa using hb⟩
  | case2 l h hany ih =>
    rw [ih]
    constructor
    · rintro ⟨x, hx, hb⟩; exact ⟨x, List.mem_of_mem_drop hx, hb⟩
    · rintro ⟨x, hx, hb⟩
      rw [← List.take_append_drop w l, List.mem_append] at hx
      rcases hx with hx | hx
      · exact absurd (List.any_eq_true.2 ⟨x, hx, by simp [hb]⟩) hany
      · exact ⟨x, hx, hb⟩
  | case3 l h => simp [List.any_eq_true]

theorem nonVector_go_spec {D : Dom α} {P} (L : Laws D P) : ∀ (l : List α) (r : α) (S : List α),
    Summ D P [r] S → (∀ x ∈ S, D.valid x = true) → (∀ x ∈ l, P x) →
    Summ D P [nonVectorValue.go D r l] (S ++ l)
  | [], r, S, h, _, _ => by simpa [nonVectorValue.go] using h
  | t :: ts, r, S, h, hS, hP => by
    unfold nonVectorValue.go
    have hr : D.valid r = true := hS r (h.sub hS r (by simp))
    cases ht : D.valid t with
    | false =>
      simp only [Bool.not_false, if_true]
      refine ⟨by simpa using L.inv_p, ?_, ?_, fun _ => ⟨D.inv, by simp, L.inv_bad⟩⟩ <;>
        intro hv <;> have := hv t (by simp) <;> simp_all
    | true =>
      simp only [Bool.not_true, Bool.false_eq_true, if_false]
      have h1 := summ_pair L (comb_rBest L) h (Summ.self L (S := [t]) (by simpa using hP t (by simp)))
      have e : rBest D r t = stdBest D r t := by simp [rBest, hr, ht]
      rw [e] at h1
      have := nonVector_go_spec L ts (stdBest D r t) (S ++ [t]) h1
        (by intro x hx; rcases List.mem_append.1 hx with h | h
            · exact hS x h
            · simp only [List.mem_singleton] at h; rw [h]; exact ht)
        (fun x hx => hP x (by simp [hx]))
      simpa using this

theorem nonVectorValue_spec {D : Dom α} {P} (L : Laws D P) {l : List α} (hne : l ≠ [])
    (hP : ∀ x ∈ l, P x) : ∃ r, nonVectorValue D l = some r ∧ Summ D P [r] l := by
  obtain ⟨x, xs, rfl⟩ := List.exists_cons_of_ne_nil hne
  refine ⟨_, rfl, ?_⟩
  have hs : Summ D P [x] [x] := Summ.self L (by simpa using hP x (by simp))
  cases hx : D.valid x with
  | true =>
    simp only [if_true]
    exact nonVector_go_spec L xs x [x] hs (by simpa using hx) (fun y hy => hP y (by simp [hy]))
  | false =>
    simp only [Bool.false_eq_true, if_false]
    refine ⟨by simpa using hP x (by simp), ?_, ?_, fun _ => ⟨x, by simp, hx⟩⟩ <;>
      intro hv <;> have := hv x (by simp) <;> simp_all

/-! ### Accumulators -/

/-- The accumulator describes the elements of `S` selected by `R`. -/
structure AccOK (D : Dom α) (P : α → Prop) (R : α → Bool) (a : Acc α) (S : List α) : Prop where
  len : a.lenOut = 0 ↔ S.filter R = []
  summ : S.filter R ≠ [] → Summ D P [a.mm] (S.filter R)
  bad : S.filter R ≠ [] → (a.bad = true ↔ ∃ x ∈ S.filter R, D.valid x = false)

theorem AccOK.perm {D : Dom α} {P R} {a : Acc α} {S T : List α} (h : AccOK D P R a S)
    (hp : S.Perm T) : AccOK D P R a T := by
  have hf := hp.filter R
  have hnil : S.filter R = [] ↔ T.filter R = [] := by
    constructor
    · intro h; rw [h] at hf; exact hf.symm.eq_nil
    · intro h; rw [h] at hf; exact hf.eq_nil
  refine ⟨h.len.trans hnil, fun hn => (h.summ (mt hnil.1 hn)).perm hf, fun hn => ?_⟩
  rw [h.bad (mt hnil.1 hn)]
  constructor <;> rintro ⟨x, hx, hb⟩
  · exact ⟨x, hf.mem_iff.1 hx, hb⟩
  · exact ⟨x, hf.mem_iff.2 hx, hb⟩

theorem AccOK.zero {D : Dom α} {P R} (z : α) : AccOK D P R (Acc.zero z) [] :=
  ⟨by simp [Acc.zero], by simp, by simp⟩

theorem summ_valid_iff {D : Dom α} {P} {r : α} {S : List α} (hs : Summ D P [r] S) :
    D.valid r = false ↔ ∃ x ∈ S, D.valid x = false := by
  constructor
  · intro h
    cases hc : S.all (fun x => D.valid x) with
    | true =>
      rw [List.all_eq_true] at hc
      have := hs.sub hc r (by simp)
      have := hc r this
      simp_all
    | false =>
      rw [List.all_eq_false] at hc
      obtain ⟨x, hx, hb⟩ := hc
      exact ⟨x, hx, by simpa using hb⟩
  · intro h
    obtain ⟨a, ha, hb⟩ := hs.bad h
    simp only [List.mem_singleton] at ha
    rwa [ha] at hb

theorem gather_spec {D : Dom α} {P R} (L : Laws D P) {t : Acc α × Bool} {c : Acc α} {S T : List α}
    (ht : AccOK D P R t.1 S) (hd : t.2 = true ↔ t.1.lenOut ≠ 0) (hc : AccOK D P R c T) :
    AccOK D P R (gather D t c).1 (S ++ T) ∧
      ((gather D t c).2 = true ↔ (gather D t c).1.lenOut ≠ 0) := by
  obtain ⟨⟨tl, tb, tm⟩, td⟩ := t
  obtain ⟨cl, cb, cm⟩ := c
  simp only at ht hd hc
  unfold gather
  by_cases c0 : cl = 0
  · have hT := hc.len.1 c0
    simp only [c0, if_true]
    refine ⟨⟨?_, ?_, ?_⟩, hd⟩ <;> rw [List.filter_append, hT, List.append_nil]
    · exact ht.len
    · exact ht.summ
    · exact ht.bad
  · have hTne : T.filter R ≠ [] := fun h => c0 (hc.len.2 h)
    simp only [c0, if_false]
    have hne : S.filter R ++ T.filter R ≠ [] := by simp [hTne]
    cases td with
    | false =>
      have t0 : tl = 0 := by simpa using hd
      have hS := ht.len.1 t0
      simp only [Bool.not_false, if_true]
      refine ⟨⟨?_, ?_, ?_⟩, ?_⟩
      · rw [List.filter_append, hS, List.nil_append]; simp only; constructor
        · omega
        · intro h; exact absurd h hTne
      · rw [List.filter_append, hS, List.nil_append]; exact hc.summ
      · rw [List.filter_append, hS, List.nil_append]; exact hc.bad
      · simp only [true_iff]; omega
    | true =>
      have t0 : tl ≠ 0 := by simpa using hd
      have hSne : S.filter R ≠ [] := fun h => t0 (ht.len.2 h)
      have hs := summ_pair L (comb_rBest L) (ht.summ hSne) (hc.summ hTne)
      have hb : (tb || cb) = true ↔ ∃ x ∈ S.filter R ++ T.filter R, D.valid x = false := by
        rw [Bool.or_eq_true]
        have e1 := ht.bad hSne
        have e2 := hc.bad hTne
        simp only at e1 e2
        rw [e1, e2]
        constructor
        · rintro (⟨x, hx, h⟩ | ⟨x, hx, h⟩)
          · exact ⟨x, List.mem_append_left _ hx, h⟩
          · exact ⟨x, List.mem_append_right _ hx, h⟩
        · rintro ⟨x, hx, h⟩
          rcases List.mem_append.1 hx with hx | hx
          · exact .inl ⟨x, hx, h⟩
          · exact .inr ⟨x, hx, h⟩
      have hv := summ_valid_iff hs
      simp only at hs hv
      simp only [Bool.not_true, Bool.false_eq_true, if_false]
      by_cases hbad : (tb || cb) = true
      · rw [if_pos hbad]
        have hx := hb.1 hbad
        refine ⟨⟨?_, ?_, ?_⟩, ?_⟩
        · rw [List.filter_append]; simp only; constructor
          · omega
          · intro h; exact absurd h hne
        · intro _
          rw [List.filter_append]
          refine ⟨by simpa using L.inv_p, ?_, ?_, fun _ => ⟨D.inv, by simp, L.inv_bad⟩⟩ <;>
            (intro hv; obtain ⟨x, hx, hxb⟩ := hx; have := hv x hx; simp_all)
        · intro _; rw [List.filter_append]; exact hb
        · simp only [true_iff]; omega
      · rw [if_neg hbad]
        have hval : D.valid (rBest D tm cm) = true := by
          cases h : D.valid (rBest D tm cm) with
          | true => rfl
          | false => exact absurd (hb.2 (hv.1 h)) hbad
        simp only [hval, Bool.not_true, Bool.false_eq_true, if_false]
        refine ⟨⟨?_, ?_, ?_⟩, ?_⟩
        · rw [List.filter_append]; simp only; constructor
          · omega
          · intro h; exact absurd h hne
        · intro _; rw [List.filter_append]; exact hs
        · intro _; rw [List.filter_append]; exact hb
        · simp only [true_iff]; omega

/-- What is needed of a block kernel. -/
def BlockOK (D : Dom α) (P : α → Prop) (R : α → Bool) (blk : Acc α → List α → Option (Acc α)) : Prop :=
  ∀ a S l, AccOK D P R a S → l ≠ [] → (∀ x ∈ l, P x) →
    ∃ a', blk a l = some a' ∧ AccOK D P R a' (S ++ l)

theorem core_spec {D : Dom α} {P R} {blk} (hb : BlockOK D P R blk) (xs : List α)
    (hP : ∀ x ∈ xs, P x) : ∀ (bs : List Nat) (a : Acc α) (S : List α),
    (∀ b ∈ bs, b < blockLastGeneric xs.length chunk) → AccOK D P R a S →
    ∃ a', bs.foldlM (fun a b => blk a (blockElems xs b)) a = some a' ∧
      AccOK D P R a' (S ++ (bs.map (blockElems xs)).flatten)
  | [], a, S, _, h => ⟨a, rfl, by simpa using h⟩
  | b :: bs, a, S, hbs, h => by
    have hPb : ∀ x ∈ blockElems xs b, P x := fun x hx =>
      hP x (List.mem_of_mem_drop (List.mem_of_mem_take hx))
    obtain ⟨a1, e1, h1⟩ := hb a S _ h (blockElems_ne_nil xs (hbs b (by simp))) hPb
    obtain ⟨a2, e2, h2⟩ := core_spec hb xs hP bs a1 _ (fun c hc => hbs c (by simp [hc])) h1
    refine ⟨a2, ?_, by simpa using h2⟩
    rw [List.foldlM_cons, e1]
    exact e2

theorem gathers_spec {D : Dom α} {P R} (L : Laws D P) : ∀ (as : List (Acc α)) (Ts : List (List α))
    (t : Acc α × Bool) (S : List α), as.length = Ts.length →
    (∀ (i : Nat) a T, as[i]? = some a → Ts[i]? = some T → AccOK D P R a T) →
    AccOK D P R t.1 S → (t.2 = true ↔ t.1.lenOut ≠ 0) →
    AccOK D P R (as.foldl (gather D) t).1 (S ++ Ts.flatten)
  | [], [], t, S, _, _, h, _ => by simpa using h
  | a :: as, T :: Ts, t, S, hl, hi, h, hd => by
    obtain ⟨h1, h2⟩ := gather_spec L h hd (hi 0 a T (by simp) (by simp))
    have := gathers_spec L as Ts (gather D t a) (S ++ T) (by simpa using hl)
      (fun i a' T' ha hT => hi (i + 1) a' T' (by simpa using ha) (by simpa using hT)) h1 h2
    simpa using this

theorem scatterGather_spec {D : Dom α} {P R} {blk} (L : Laws D P) (hb : BlockOK D P R blk) (z : α)
    {xs : List α} (hne : xs ≠ []) (hP : ∀ x ∈ xs, P x) {workers : Nat} {nt : Bool} {par}
    (h : CoreSched workers xs.length nt par) :
    ∃ a, scatterGather blk D z xs par = some a ∧ AccOK D P R a xs := by
  rcases h.cases with ⟨rfl, _⟩ | ⟨cores, rfl, _, hp⟩
  · simpa [scatterGather] using hb (.zero z) [] xs (AccOK.zero z) hne hP
  · have hblk : ∀ bs ∈ cores, ∀ b ∈ bs, b < blockLastGeneric xs.length chunk := by
      intro bs hbs b hb'
      have : b ∈ cores.flatten := List.mem_flatten.2 ⟨bs, hbs, hb'⟩
      simpa using hp.mem_iff.1 this
    have hm : ∀ cs : List (List Nat), (∀ bs ∈ cs, bs ∈ cores) → ∃ accs,
        cs.mapM (fun (bs : List Nat) => bs.foldlM (fun a b => blk a (blockElems xs b)) (Acc.zero z)) =
          some accs ∧ accs.length = cs.length ∧
        ∀ (i : Nat) a T, accs[i]? = some a →
          (cs.map fun bs => (bs.map (blockElems xs)).flatten)[i]? = some T → AccOK D P R a T := by
      intro cs
      induction cs with
      | nil => intro _; exact ⟨[], rfl, rfl, by simp⟩
      | cons c cs ih =>
        intro hcs
        obtain ⟨accs, e, hl, hi⟩ := ih (fun bs hbs => hcs bs (by simp [hbs]))
        obtain ⟨a, ea, ha⟩ := core_spec hb xs hP c (Acc.zero z) [] (hblk c (hcs c (by simp)))
          (AccOK.zero z)
        refine ⟨a :: accs, ?_, by simp [hl], ?_⟩
        · rw [List.mapM_cons, ea, e]; rfl
        · intro i a' T h1 h2
          cases i with
          | zero =>
            simp only [List.getElem?_cons_zero, Option.some.injEq] at h1
            simp only [List.map_cons, List.getElem?_cons_zero, Option.some.injEq] at h2
            subst h1 h2
            simpa using ha
          | succ i => exact hi i a' T (by simpa using h1) (by simpa using h2)
    obtain ⟨accs, e, hl, hi⟩ := hm cores (fun _ h => h)
    have hg := gathers_spec (R := R) L accs _ (Acc.zero z, false) []
      (by rw [List.length_map]; exact hl) hi (AccOK.zero z) (by simp [Acc.zero])
    refine ⟨_, by unfold scatterGather; simp only [e, Option.map_some]; rfl, ?_⟩
    rw [List.nil_append] at hg
    exact hg.perm (cores_perm xs hp)

/-! ### Kernels -/

theorem store_spec {D : Dom α} {P} (L : Laws D P) {a : Acc α} {S l : List α} {r : α}
    (h : AccOK D P (fun _ => true) a S) (hne : l ≠ []) (hr : Summ D P [r] l) :
    AccOK D P (fun _ => true) (store D a r l.length) (S ++ l) := by
  have hf : ∀ l : List α, l.filter (fun _ => true) = l := fun l => List.filter_eq_self.2 (by simp)
  obtain ⟨h1, h2, h3⟩ := h
  rw [hf] at h1 h2 h3
  have hl : l.length ≠ 0 := by simpa using hne
  have hv := summ_valid_iff hr
  have hvt : (!D.valid r) = true ↔ ∃ x ∈ l, D.valid x = false := by simpa using hv
  unfold store
  by_cases h0 : a.lenOut = 0
  · have hS := h1.1 h0
    subst hS
    simp only [h0, if_true, List.nil_append]
    refine ⟨?_, ?_, ?_⟩ <;> rw [hf]
    · simp [hl, hne]
    · exact fun _ => hr
    · exact fun _ => hvt
  · have hS : S ≠ [] := fun h => h0 (h1.2 h)
    simp only [h0, if_false]
    refine ⟨?_, ?_, ?_⟩ <;> rw [hf]
    · simp [hS, h0]
    · exact fun _ => summ_pair L (comb_rBest L) (h2 hS) hr
    · intro _
      simp only
      rw [Bool.or_eq_true, h3 hS, hvt]
      constructor
      · rintro (⟨x, hx, h⟩ | ⟨x, hx, h⟩)
        · exact ⟨x, List.mem_append_left _ hx, h⟩
        · exact ⟨x, List.mem_append_right _ hx, h⟩
      · rintro ⟨x, hx, h⟩
        rcases List.mem_append.1 hx with hx | hx
        · exact .inl ⟨x, hx, h⟩
        · exact .inr ⟨x, hx, h⟩

/-- The supported element types. -/
def Supported : Dtype → Prop
  | .int t => t.bits = 8 ∨ t.bits = 16 ∨ t.bits = 32 ∨ t.bits = 64
  | .flt f => f = .f32 ∨ f = .f64

/-- The values of an element type. -/
def Elem : Dtype → Int → Prop
  | .int t => t.InRange
  | .flt _ => fun _ => True

theorem dom_laws (isMax : Bool) (d : Dtype) (h : Supported d) : Laws (dom isMax d) (Elem d) := by
  cases d with
  | int t =>
    have hb : 0 < t.bits := by unfold Supported at h; omega
    refine ⟨⟨?_, ?_⟩, t.inv_inRange hb, by simp [dom]⟩
    · intro a b _ _
      cases isMax <;> simp [dom] <;> omega
    · intro x y z _ _ _
      cases isMax <;> simp [dom] <;> omega
  | flt f =>
    refine ⟨⟨?_, ?_⟩, trivial, by rcases h with rfl | rfl <;> cases isMax <;> decide +kernel⟩
    · intro a b _ _
      cases isMax <;> simp only [dom, FT.lt, Bool.and_eq_true, decide_eq_true_eq, Bool.and_eq_false_iff, decide_eq_false_iff_not, if_true, if_false, Bool.false_eq_true]
      · rintro ⟨_, h⟩; right; omega
      · rintro ⟨_, h⟩; right; omega
    · intro x y z hx hy hz
      simp only [dom] at hx hy hz
      cases isMax <;> simp only [dom, FT.lt, hx, hy, hz, Bool.and_true, Bool.true_and, decide_eq_true_eq, if_true, if_false, Bool.false_eq_true]
      · omega
      · omega

theorem laneOp_comb (isMax : Bool) (d : Dtype) (h : Supported d) (w : Nat)
    (hk : kernelOf isMax d = .avx w false) : Comb (dom isMax d) (Elem d) (laneOp isMax d) := by
  cases d with
  | int t =>
    intro a b ha hb
    simp only [Elem, IT.InRange] at ha hb
    have hs : t.signed ≠ isMax := by
      simp only [kernelOf] at hk
      by_cases h64 : t.bits = 64
      · rw [if_pos h64] at hk; cases hk
      · rw [if_neg h64] at hk
        simp only [Kernel.avx.injEq, beq_eq_false_iff_ne] at hk; exact hk.2
    unfold laneOp stdBest
    simp only [dom, bne_iff_ne, Elem, IT.InRange]
    cases isMax with
    | true =>
      have : t.signed = false := by simpa using hs
      have hi : t.inv = t.hi := by simp [IT.inv, this]
      rw [hi]
      simp only [if_true, decide_eq_true_eq, decide_eq_false_iff_not, bne_eq_false_iff_eq]
      refine ⟨by split <;> assumption, ?_, ?_⟩
      · intro _ _; split <;> simp <;> omega
      · rintro (rfl | rfl)
        · rw [if_neg (by omega)]
        · split <;> omega
    | false =>
      have : t.signed = true := by simpa using hs
      have hi : t.inv = t.lo := by simp [IT.inv, this]
      rw [hi]
      simp only [Bool.false_eq_true, if_false, decide_eq_true_eq, decide_eq_false_iff_not, bne_eq_false_iff_eq]
      refine ⟨by split <;> assumption, ?_, ?_⟩
      · intro _ _; split <;> simp <;> omega
      · rintro (rfl | rfl)
        · rw [if_neg (by omega)]
        · split <;> omega
  | flt f =>
    have L := dom_laws isMax (.flt f) h
    intro a b _ _
    unfold laneOp passthruFloat
    generalize hD : dom isMax (.flt f) = D at *
    have hbv : ∀ x y, D.better x y = true → D.valid x = true ∧ D.valid y = true := by
      intro x y hxy
      subst hD
      cases isMax <;>
        simp only [dom, FT.lt, Bool.and_eq_true, if_true, if_false, Bool.false_eq_true] at hxy ⊢
      · exact ⟨hxy.1.1, hxy.1.2⟩
      · exact ⟨hxy.1.2, hxy.1.1⟩
    refine ⟨trivial, ?_, ?_⟩
    · intro ha hb
      simp only [ha, Bool.not_true, Bool.false_eq_true, if_false]
      cases hx : D.better a b
      · simp
      · simp [L.asymm a b ha hb hx]
    · intro hbad
      cases ha : D.valid a with
      | false =>
        simp only [Bool.not_false, if_true, ite_self]; exact ha
      | true =>
        have hb : D.valid b = false := by rcases hbad with h | h <;> simp_all
        simp only [Bool.not_true, Bool.false_eq_true, if_false]
        cases hx : D.better a b with
        | false => simpa using hb
        | true => have := (hbv a b hx).2; simp_all

theorem block_ok (isMax : Bool) (d : Dtype) (h : Supported d) :
    BlockOK (dom isMax d) (Elem d) (fun _ => true) (block isMax d) := by
  intro a S l ha hne hP
  have L := dom_laws isMax d h
  have hf : ∀ l : List Int, l.filter (fun _ => true) = l := fun l => List.filter_eq_self.2 (by simp)
  unfold block
  cases hk : kernelOf isMax d with
  | scalar =>
    obtain ⟨r, e, hr⟩ := nonVectorValue_spec L hne hP
    exact ⟨_, by simp only [e, Option.map_some], store_spec L ha hne hr⟩
  | avx w scan =>
    have hw : 0 < w := by
      cases d with
      | int t =>
        simp only [kernelOf] at hk
        simp only [Supported] at h
        by_cases h64 : t.bits = 64
        · rw [if_pos h64] at hk; cases hk
        · rw [if_neg h64] at hk
          simp only [Kernel.avx.injEq] at hk
          rw [← hk.1]
          rcases h with h | h | h | h <;> rw [h] <;> decide
      | flt f =>
        simp only [kernelOf, Kernel.avx.injEq] at hk
        rw [← hk.1]
        rcases h with rfl | rfl <;> decide
    simp only
    cases scan with
    | false =>
      simp only [Bool.false_and, Bool.false_eq_true, if_false]
      obtain ⟨r, e, hr⟩ := avxValue_spec L (laneOp_comb isMax d h w hk) (comb_rBest L) hw hne hP
      exact ⟨_, by simp only [e, Option.map_some], store_spec L ha hne hr⟩
    | true =>
      simp only [Bool.true_and]
      cases hci : containsInvalid (dom isMax d) w l with
      | true =>
        simp only [if_true]
        have hx := (containsInvalid_iff _ w l).1 hci
        refine ⟨_, rfl, ?_, ?_, ?_⟩ <;> rw [hf]
        · simp [hne]
        · intro _
          refine ⟨by simpa using L.inv_p, ?_, ?_, fun _ => ⟨_, by simp, L.inv_bad⟩⟩ <;>
            (intro hv; obtain ⟨x, hx, hxb⟩ := hx
             have := hv x (List.mem_append_right _ hx); simp_all)
        · intro _
          simp only [true_iff]
          obtain ⟨x, hx, hxb⟩ := hx
          exact ⟨x, List.mem_append_right _ hx, hxb⟩
      | false =>
        simp only [Bool.false_eq_true, if_false]
        have hall : ∀ x ∈ l, (dom isMax d).valid x = true := by
          intro x hx
          cases hv : (dom isMax d).valid x with
          | true => rfl
          | false =>
            have := (containsInvalid_iff _ w l).2 ⟨x, hx, hv⟩
            rw [hci] at this; cases this
        have hlo : laneOp isMax d = stdBest (dom isMax d) := by
          cases d with
          | int t => rfl
          | flt f => simp [kernelOf] at hk
        rw [hlo]
        -- on valid elements everything stays valid
        obtain ⟨r, e, hr⟩ := avxValue_spec L.toOrd (comb_stdBest_valid (P := Elem d) L.toOrd)
          (comb_rBest_valid L.toOrd) hw hne (fun x hx => ⟨hP x hx, hall x hx⟩)
        exact ⟨_, by simp only [e, Option.map_some],
          store_spec L ha hne (hr.mono fun _ h => h.1)⟩

theorem nanFold_eq (D : Dom α) : ∀ (l : List α) (r : α), D.valid r = true →
    l.foldl (fun r t => if D.valid t then stdBest D r t else r) r =
      (l.filter D.valid).foldl (rBest D) r
  | [], r, _ => rfl
  | t :: ts, r, hr => by
    cases ht : D.valid t with
    | false =>
      rw [List.foldl_cons, List.filter_cons_of_neg (by simp [ht])]
      simp only [ht, Bool.false_eq_true, if_false]
      exact nanFold_eq D ts r hr
    | true =>
      rw [List.foldl_cons, List.filter_cons_of_pos ht, List.foldl_cons]
      have e : rBest D r t = stdBest D r t := by simp [rBest, hr, ht]
      rw [e]
      simp only [ht, if_true]
      apply nanFold_eq
      unfold stdBest
      split <;> assumption

theorem filter_dropWhile_not (p : α → Bool) : ∀ l : List α,
    (l.dropWhile (fun x => !p x)).filter p = l.filter p
  | [] => rfl
  | x :: xs => by
    cases h : p x with
    | true => simp [h]
    | false => simp [h, filter_dropWhile_not p xs]

theorem nanValue_spec {D : Dom α} {P} (L : Laws D P) (l : List α) (hP : ∀ x ∈ l, P x) :
    (l.filter D.valid = [] → nanValue D l = D.inv) ∧
    (l.filter D.valid ≠ [] → Summ D P [nanValue D l] (l.filter D.valid)) := by
  unfold nanValue
  rw [← filter_dropWhile_not]
  have hP' : ∀ x ∈ l.dropWhile (fun x => !D.valid x), P x := fun x hx =>
    hP x ((List.dropWhile_suffix _).mem hx)
  cases hd : l.dropWhile (fun x => !D.valid x) with
  | nil => simp
  | cons x xs =>
    have hx : D.valid x = true := by
      have := List.head_dropWhile_not (fun x => !D.valid x) (l := l) (by rw [hd]; simp)
      simpa [hd] using this
    rw [hd] at hP'
    simp only
    rw [List.filter_cons_of_pos hx]
    refine ⟨by simp, fun _ => ?_⟩
    rw [nanFold_eq D xs x hx]
    exact summ_foldl L.toOrd (comb_rBest L) _ x [x] (Summ.self L.toOrd (by simpa using hP' x (by simp)))
      (fun y hy => hP' y (by simp [(List.mem_filter.1 hy).1]))

theorem nanBlock_ok {D : Dom α} {P} (L : Laws D P) : BlockOK D P D.valid (nanBlock D) := by
  intro a S l ha hne hP
  refine ⟨_, rfl, ?_⟩
  obtain ⟨h1, h2⟩ := nanValue_spec L l hP
  by_cases he : l.filter D.valid = []
  · rw [h1 he, L.inv_bad]
    simp only [Bool.false_eq_true, if_false]
    refine ⟨?_, ?_, ?_⟩ <;> rw [List.filter_append, he, List.append_nil]
    · exact ha.len
    · exact ha.summ
    · exact ha.bad
  · have hs := h2 he
    have hallv : ∀ T : List α, ∀ x ∈ T.filter D.valid, D.valid x = true := fun T x hx =>
      (List.mem_filter.1 hx).2
    have hv : D.valid (nanValue D l) = true := hallv l _ (hs.sub (hallv l) _ (by simp))
    rw [hv]
    simp only [if_true]
    have hno : ∀ T : List α, ¬ ∃ x ∈ T.filter D.valid, D.valid x = false := by
      rintro T ⟨x, hx, hb⟩; have := hallv T x hx; simp_all
    by_cases h0 : a.lenOut = 0
    · have hS := ha.len.1 h0
      simp only [h0, if_true]
      refine ⟨?_, ?_, ?_⟩ <;> rw [List.filter_append, hS, List.nil_append]
      · simpa using he
      · exact fun _ => hs
      · intro _; simp
    · have hS : S.filter D.valid ≠ [] := fun h => h0 (ha.len.2 h)
      simp only [h0, if_false]
      refine ⟨?_, ?_, ?_⟩
      · rw [List.filter_append]; simp only; simp [h0, he]
      · intro _; rw [List.filter_append]
        exact summ_pair L.toOrd (comb_rBest L) (ha.summ hS) hs
      · intro _
        have e1 := ha.bad hS
        simp only
        rw [e1]
        exact ⟨fun h => absurd h (hno _), fun h => absurd h (hno _)⟩

/-! ### Positions -/

/-- Position `p` holds the first element that nothing in `l` beats. -/
def IsFirstBest (D : Dom α) (l : List α) (p : Nat) : Prop :=
  ∃ v, l[p]? = some v ∧ D.valid v = true ∧
    (∀ x ∈ l, D.valid x = true → D.better x v = false) ∧
    ∀ (q : Nat) x, q < p → l[q]? = some x → D.valid x = true → D.better v x = true

theorem IsFirstBest.snoc {D : Dom α} (L : Ord D) {l : List α} {p : Nat} {r t : α}
    (h : IsFirstBest D l p) (hr : l[p]? = some r) (ht : D.valid t = true) :
    if D.better t r then IsFirstBest D (l ++ [t]) l.length else IsFirstBest D (l ++ [t]) p := by
  obtain ⟨v, e, hv, h1, h2⟩ := h
  rw [hr] at e
  cases e
  have hpl : p < l.length := (List.getElem?_eq_some_iff.1 hr).1
  have hrm : r ∈ l := List.mem_of_getElem? hr
  cases hb : D.better t r with
  | true =>
    simp only [if_true]
    refine ⟨t, by simp, ht, ?_, ?_⟩
    · intro x hx hxv
      rcases List.mem_append.1 hx with hx | hx
      · cases hxt : D.better x t with
        | false => rfl
        | true =>
          have h3 := h1 x hx hxv
          -- x better t, t better r, so x better r
          rcases L.ntrans x r t hxv hv ht hxt with h | h
          · rw [h3] at h; cases h
          · have := L.asymm t r ht hv hb; rw [this] at h; cases h
      · simp only [List.mem_singleton] at hx; subst hx; exact better_irrefl L ht
    · intro q x hq hx hxv
      rw [List.getElem?_append_left hq] at hx
      have h3 := h1 x (List.mem_of_getElem? hx) hxv
      rcases L.ntrans t x r ht hxv hv hb with h | h
      · exact h
      · rw [h3] at h; cases h
  | false =>
    simp only [Bool.false_eq_true, if_false]
    refine ⟨r, by rw [List.getElem?_append_left hpl]; exact hr, hv, ?_, ?_⟩
    · intro x hx hxv
      rcases List.mem_append.1 hx with hx | hx
      · exact h1 x hx hxv
      · simp only [List.mem_singleton] at hx; subst hx; exact hb
    · intro q x hq hx hxv
      rw [List.getElem?_append_left (by omega)] at hx
      exact h2 q x hq hx hxv

theorem IsFirstBest.snoc_bad {D : Dom α} {l : List α} {p : Nat} {t : α}
    (h : IsFirstBest D l p) (ht : D.valid t = false) : IsFirstBest D (l ++ [t]) p := by
  obtain ⟨v, e, hv, h1, h2⟩ := h
  have hpl : p < l.length := (List.getElem?_eq_some_iff.1 e).1
  refine ⟨v, by rw [List.getElem?_append_left hpl]; exact e, hv, ?_, ?_⟩
  · intro x hx hxv
    rcases List.mem_append.1 hx with hx | hx
    · exact h1 x hx hxv
    · simp only [List.mem_singleton] at hx; subst hx; rw [ht] at hxv; cases hxv
  · intro q x hq hx hxv
    rw [List.getElem?_append_left (by omega)] at hx
    exact h2 q x hq hx hxv

/-- Position `p` holds the first invalid element. -/
def IsFirstInvalid (D : Dom α) (l : List α) (p : Nat) : Prop :=
  ∃ v, l[p]? = some v ∧ D.valid v = false ∧
    ∀ (q : Nat) x, q < p → l[q]? = some x → D.valid x = true

theorem argBest_go_spec {D : Dom α} (L : Ord D) : ∀ (l done : List α) (r : α) (p : Nat),
    (∀ x ∈ done, D.valid x = true) → IsFirstBest D done p → done[p]? = some r →
    ((∀ x ∈ l, D.valid x = true) → IsFirstBest D (done ++ l) (argBest.go D r p done.length l)) ∧
    ((∃ x ∈ l, D.valid x = false) → IsFirstInvalid D (done ++ l) (argBest.go D r p done.length l))
  | [], done, r, p, _, h, _ => by simpa [argBest.go] using h
  | t :: ts, done, r, p, hd, h, hr => by
    unfold argBest.go
    cases ht : D.valid t with
    | false =>
      simp only [Bool.not_false, if_true]
      refine ⟨fun hv => ?_, fun _ => ⟨t, by simp, ht, ?_⟩⟩
      · have := hv t (by simp); simp_all
      · intro q x hq hx
        rw [List.getElem?_append_left hq] at hx
        exact hd x (List.mem_of_getElem? hx)
    | true =>
      simp only [Bool.not_true, Bool.false_eq_true, if_false]
      have hd' : ∀ x ∈ done ++ [t], D.valid x = true := by
        intro x hx
        rcases List.mem_append.1 hx with h | h
        · exact hd x h
        · simp only [List.mem_singleton] at h; rw [h]; exact ht
      have hs := h.snoc L hr ht
      have hpl : p < done.length := (List.getElem?_eq_some_iff.1 hr).1
      have fin : ∀ k, ((∀ x ∈ ts, D.valid x = true) → IsFirstBest D (done ++ [t] ++ ts) k) ∧
          ((∃ x ∈ ts, D.valid x = false) → IsFirstInvalid D (done ++ [t] ++ ts) k) →
          ((∀ x ∈ t :: ts, D.valid x = true) → IsFirstBest D (done ++ t :: ts) k) ∧
          ((∃ x ∈ t :: ts, D.valid x = false) → IsFirstInvalid D (done ++ t :: ts) k) := by
        intro k hk
        rw [List.append_assoc] at hk
        refine ⟨fun hv => hk.1 fun x hx => hv x (by simp [hx]), ?_⟩
        rintro ⟨x, hx, hb⟩
        rcases List.mem_cons.1 hx with rfl | hx
        · rw [ht] at hb; cases hb
        · exact hk.2 ⟨x, hx, hb⟩
      cases hb : D.better t r with
      | true =>
        rw [hb] at hs
        have := argBest_go_spec L ts (done ++ [t]) t done.length hd' hs (by simp)
        simp only [List.length_append, List.length_cons, List.length_nil] at this
        exact fin _ this
      | false =>
        rw [hb] at hs
        have := argBest_go_spec L ts (done ++ [t]) r p hd' hs
          (by rw [List.getElem?_append_left hpl]; exact hr)
        simp only [List.length_append, List.length_cons, List.length_nil] at this
        exact fin _ this

theorem nanArg_go_spec {D : Dom α} (L : Ord D) : ∀ (l done : List α) (best : Option (α × Nat)),
    (∀ r p, best = some (r, p) → done[p]? = some r ∧ IsFirstBest D done p) →
    (best = none → ∀ x ∈ done, D.valid x = false) →
    (∀ p, nanArgBest.go D best done.length l = some p → IsFirstBest D (done ++ l) p) ∧
    (nanArgBest.go D best done.length l = none → ∀ x ∈ done ++ l, D.valid x = false)
  | [], done, best, h1, h2 => by
    unfold nanArgBest.go
    cases best with
    | none => simpa using h2 rfl
    | some b => simpa using (h1 b.1 b.2 rfl).2
  | t :: ts, done, best, h1, h2 => by
    unfold nanArgBest.go
    have re : done ++ t :: ts = done ++ [t] ++ ts := by simp
    have le : done.length + 1 = (done ++ [t]).length := by simp
    rw [re, le]
    cases ht : D.valid t with
    | true =>
      simp only [if_true]
      cases best with
      | none =>
        simp only
        apply nanArg_go_spec L ts (done ++ [t])
        · intro r p e
          simp only [Option.some.injEq, Prod.mk.injEq] at e
          obtain ⟨rfl, rfl⟩ := e
          refine ⟨by simp, t, by simp, ht, ?_, ?_⟩
          · intro x hx hxv
            rcases List.mem_append.1 hx with hx | hx
            · have := h2 rfl x hx; simp_all
            · simp only [List.mem_singleton] at hx; subst hx; exact better_irrefl L ht
          · intro q x hq hx hxv
            rw [List.getElem?_append_left hq] at hx
            have := h2 rfl x (List.mem_of_getElem? hx); simp_all
        · simp
      | some b =>
        obtain ⟨r, p⟩ := b
        obtain ⟨hr, hb⟩ := h1 r p rfl
        have hs := hb.snoc L hr ht
        have hpl : p < done.length := (List.getElem?_eq_some_iff.1 hr).1
        simp only
        cases hbt : D.better t r with
        | true =>
          rw [hbt] at hs
          simp only [if_true] at hs ⊢
          apply nanArg_go_spec L ts (done ++ [t])
          · intro r' p' e
            simp only [Option.some.injEq, Prod.mk.injEq] at e
            obtain ⟨rfl, rfl⟩ := e
            exact ⟨by simp, hs⟩
          · simp
        | false =>
          rw [hbt] at hs
          simp only [Bool.false_eq_true, if_false] at hs ⊢
          apply nanArg_go_spec L ts (done ++ [t])
          · intro r' p' e
            simp only [Option.some.injEq, Prod.mk.injEq] at e
            obtain ⟨rfl, rfl⟩ := e
            exact ⟨by rw [List.getElem?_append_left hpl]; exact hr, hs⟩
          · simp
    | false =>
      simp only [Bool.false_eq_true, if_false]
      apply nanArg_go_spec L ts (done ++ [t])
      · intro r p e
        obtain ⟨hr, hb⟩ := h1 r p e
        have hpl : p < done.length := (List.getElem?_eq_some_iff.1 hr).1
        exact ⟨by rw [List.getElem?_append_left hpl]; exact hr, hb.snoc_bad ht⟩
      · intro e x hx
        rcases List.mem_append.1 hx with hx | hx
        · exact h2 e x hx
        · simp only [List.mem_singleton] at hx; rw [hx]; exact ht

end Riptide.Reduce
