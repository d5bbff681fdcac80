import Verif.Sort.Model
import Verif.Sort.Stable
/-! # The in-place sorts compute list merges -/
namespace Riptide.Sort
open Spec

variable {α : Type} {P : α → Prop} {lt : α → α → Bool}

theorem get_mid {a l r : List α} {x : α} {p : Nat} (ha : a = l ++ x :: r) (hp : p = l.length) :
    a[p]? = some x := by
  subst ha; subst hp; simp

theorem wr_mid {a l r : List α} {x : α} {p : Nat} (y : α) (ha : a = l ++ x :: r) (hp : p = l.length) :
    wr a p y = some (l ++ y :: r) := by
  subst ha; subst hp
  unfold wr
  rw [if_pos (by simp)]
  simp

theorem sink_spec (pre : List α) (v : α) : ∀ (n : Nat) (S : List α) (g : α) (post : List α), S.length = n →
    ∃ A B, S = A ++ B ∧
      sink lt pre.length v (pre ++ S ++ g :: post) (pre.length + n) = some (pre ++ A ++ v :: B ++ post) ∧
      (∀ x ∈ B, lt v x = true) ∧ ∀ x, A.getLast? = some x → lt v x = false := by
  intro n
  induction n with
  | zero =>
    intro S g post hS
    have : S = [] := List.eq_nil_of_length_eq_zero hS
    subst this
    refine ⟨[], [], rfl, ?_, by simp, by simp⟩
    have hw : wr (pre ++ [] ++ g :: post) (pre.length + 0) v = some (pre ++ [] ++ [v] ++ post) := by
      rw [wr_mid v (l := pre) (x := g) (r := post) (by simp) (by simp)]; simp
    cases hp : pre.length + 0 with
    | zero => rw [hp] at hw; exact hw
    | succ p =>
      unfold sink
      rw [if_neg (by omega), ← hp]
      exact hw
  | succ n ih =>
    intro S g post hS
    obtain ⟨S', x, rfl⟩ : ∃ S' x, S = S' ++ [x] := by
      rcases List.eq_nil_or_concat S with h | ⟨S', x, h⟩
      · subst h; simp at hS
      · exact ⟨S', x, by simpa using h⟩
    have hS' : S'.length = n := by simpa using hS
    rw [show pre.length + (n + 1) = (pre.length + n) + 1 by omega]
    unfold sink
    rw [if_pos (by omega), get_mid (l := pre ++ S') (x := x) (r := g :: post) (by simp) (by simp [hS'])]
    simp only
    cases hlt : lt v x with
    | true =>
      rw [if_pos rfl, wr_mid x (l := pre ++ S' ++ [x]) (x := g) (r := post) (by simp) (by simp [hS']; omega)]
      simp only
      obtain ⟨A, B, hAB, hs, hB, hA⟩ := ih S' x (x :: post) hS'
      refine ⟨A, B ++ [x], by simp [hAB], ?_, ?_, hA⟩
      · have e : pre ++ S' ++ [x] ++ x :: post = pre ++ S' ++ x :: (x :: post) := by simp
        rw [e, hs]
        simp
      · intro y hy
        rcases List.mem_append.mp hy with h | h
        · exact hB y h
        · have : y = x := by simpa using h
          rw [this]; exact hlt
    | false =>
      rw [if_neg (by simp), wr_mid v (l := pre ++ S' ++ [x]) (x := g) (r := post) (by simp) (by simp [hS']; omega)]
      refine ⟨S' ++ [x], [], by simp, by simp, by simp, ?_⟩
      intro y hy
      have : x = y := by simpa using hy
      rw [← this]; exact hlt

theorem lmerge_single (A B : List α) (v : α) (hA : ∀ x ∈ A, lt v x = false) (hB : ∀ x ∈ B, lt v x = true) :
    lmerge lt (A ++ B) [v] = A ++ v :: B := by
  induction A with
  | nil =>
    cases B with
    | nil => simp
    | cons b B => simp only [List.nil_append]; unfold lmerge; rw [if_pos (hB b (by simp)), lmerge_nil]
  | cons a A ih =>
    rw [List.cons_append]
    unfold lmerge
    rw [if_neg (by simp [hA a (by simp)]), ih fun x hx => hA x (by simp [hx])]
    rfl

theorem insertion_spec (W : Weak P lt) (pre post : List α) : ∀ (R X S : List α), (∀ x ∈ X ++ R, P x) →
    StableSort lt X S → ∃ out, insertion lt pre.length R.length (pre.length + S.length) (pre ++ S ++ R ++ post) =
      some (pre ++ out ++ post) ∧ StableSort lt (X ++ R) out := by
  intro R
  induction R with
  | nil => intro X S _ hS; exact ⟨S, by simp [insertion], by simpa using hS⟩
  | cons v R ih =>
    intro X S hP hS
    rw [List.length_cons]
    unfold insertion
    rw [get_mid (l := pre ++ S) (x := v) (r := R ++ post) (by simp) (by simp)]
    simp only
    obtain ⟨A, B, hAB, hs, hB, hA⟩ := sink_spec (lt := lt) pre v S.length S v (R ++ post) rfl
    rw [show pre ++ S ++ v :: R ++ post = pre ++ S ++ v :: (R ++ post) by simp, hs]
    simp only
    have hsorted := hS.sorted
    rw [hAB, List.pairwise_append] at hsorted
    have hPv : P v := hP v (by simp)
    have hPS : ∀ x ∈ S, P x := fun x hx => hP x (List.mem_append_left _ (hS.mem.mp hx))
    have hA' : ∀ x ∈ A, lt v x = false := by
      intro x hx
      rcases List.eq_nil_or_concat A with h | ⟨A', y, h⟩
      · subst h; simp at hx
      · have h : A = A' ++ [y] := by simpa using h
        subst h
        have hy : lt v y = false := hA y (by simp)
        rcases List.mem_append.mp hx with h' | h'
        · have hpw := (List.pairwise_append.mp hsorted.1).2.2 x h' y (by simp)
          exact W.trans x y v (hPS x (by rw [hAB]; simp [h'])) (hPS y (by rw [hAB]; simp)) hPv hpw hy
        · have : x = y := by simpa using h'
          rw [this]; exact hy
    have hst : StableSort lt (X ++ [v]) (A ++ v :: B) := by
      rw [← lmerge_single A B v hA' hB, ← hAB]
      exact lmerge_stable W (fun x hx => hP x (by simp at hx ⊢; grind)) hS (StableSort.refl (by simp))
    obtain ⟨out, h1, h2⟩ := ih (X ++ [v]) (A ++ v :: B) (fun x hx => hP x (by simp at hx ⊢; grind)) hst
    refine ⟨out, ?_, by simpa using h2⟩
    rw [← h1]
    have hl : (A ++ v :: B).length = S.length + 1 := by rw [hAB]; simp; omega
    rw [hl, ← Nat.add_assoc]
    congr 1
    simp

theorem copyOut_spec : ∀ (X G pa qa pw qw : List α), G.length = X.length →
    copyOut (pa ++ X ++ qa) X.length pa.length pw.length (pw ++ G ++ qw) = some (pw ++ X ++ qw) := by
  intro X
  induction X with
  | nil => intro G pa qa pw qw h; have : G = [] := List.eq_nil_of_length_eq_zero h; subst this; simp [copyOut]
  | cons x X ih =>
    intro G pa qa pw qw h
    cases G with
    | nil => simp at h
    | cons g G =>
      rw [List.length_cons]
      unfold copyOut
      rw [get_mid (l := pa) (x := x) (r := X ++ qa) (by simp) rfl]
      simp only
      rw [wr_mid x (l := pw) (x := g) (r := G ++ qw) (by simp) rfl]
      simp only
      have := ih G (pa ++ [x]) qa (pw ++ [x]) qw (by simpa using h)
      simp only [List.length_append, List.length_singleton, List.append_assoc, List.singleton_append] at this
      simpa using this

/-- The merge loop: the array has `G` (as long as what is left of the left half) between what is written
and what is left of the right half. -/
theorem mergeLoop_spec (w qw post : List α) (L R : List α) : ∀ (pw pre G a : List α) (pi pr pj pm pk : Nat),
    G.length = L.length → w = pw ++ L ++ qw → a = pre ++ G ++ R ++ post → pj = pw.length →
    pi = pw.length + L.length → pk = pre.length → pm = pre.length + G.length →
    pr = pre.length + G.length + R.length →
    mergeLoop lt w pi pr pj pm pk a = some (pre ++ lmerge lt L R ++ post) := by
  have done : ∀ (R pw pre G a : List α) (pi pr pj pm pk : Nat),
      G.length = 0 → a = pre ++ G ++ R ++ post → pj = pw.length → pi = pw.length + 0 →
      mergeLoop lt w pi pr pj pm pk a = some (pre ++ R ++ post) := by
    intro R pw pre G a pi pr pj pm pk hG ha hj hi
    unfold mergeLoop
    rw [dif_neg (by omega), ha, List.eq_nil_of_length_eq_zero hG]
    simp
  induction L, R using lmerge.induct (lt := lt) with
  | case1 R =>
    intro pw pre G a pi pr pj pm pk hG hw ha hj hi hk hm hr
    rw [nil_lmerge]
    exact done R pw pre G a pi pr pj pm pk (by simpa using hG) ha hj (by simpa using hi)
  | case2 x L =>
    generalize hLL : x :: L = LL
    clear hLL
    induction LL with
    | nil =>
      intro pw pre G a pi pr pj pm pk hG hw ha hj hi hk hm hr
      rw [nil_lmerge]
      exact done [] pw pre G a pi pr pj pm pk (by simpa using hG) ha hj (by simpa using hi)
    | cons x L ih =>
      intro pw pre G a pi pr pj pm pk hG hw ha hj hi hk hm hr
      cases G with
      | nil => simp at hG
      | cons g G =>
        unfold mergeLoop
        rw [dif_pos (by simp at hi; omega), get_mid (l := pw) (x := x) (r := L ++ qw) (by simp [hw]) hj]
        simp only
        rw [dif_neg (by simp at hr hm; omega), wr_mid x (l := pre) (x := g) (r := G ++ post) (by simp [ha]) hk]
        simp only
        rw [lmerge_nil] at ih ⊢
        have := ih (pw ++ [x]) (pre ++ [x]) G (pre ++ x :: (G ++ post)) pi pr (pj + 1) pm (pk + 1)
          (by simpa using hG) (by simp [hw]) (by simp) (by simp [hj]) (by simp at hi ⊢; omega)
          (by simp [hk]) (by simp at hm ⊢; omega) (by simp at hr ⊢; omega)
        rw [this]; simp
  | case3 x L y R h ih =>
    intro pw pre G a pi pr pj pm pk hG hw ha hj hi hk hm hr
    cases G with
    | nil => simp at hG
    | cons g G =>
      unfold mergeLoop lmerge
      rw [dif_pos (by simp at hi; omega), get_mid (l := pw) (x := x) (r := L ++ qw) (by simp [hw]) hj]
      simp only
      rw [dif_pos (by simp at hr hm; omega),
        get_mid (l := pre ++ g :: G) (x := y) (r := R ++ post) (by simp [ha]) (by simp [hm])]
      simp only
      rw [if_pos h, if_pos h, wr_mid y (l := pre) (x := g) (r := G ++ y :: R ++ post) (by simp [ha]) hk]
      simp only
      have := ih pw (pre ++ [y]) (G ++ [y]) (pre ++ y :: (G ++ y :: R ++ post)) pi pr pj (pm + 1) (pk + 1)
        (by simpa using hG) hw (by simp) hj hi
        (by simp [hk]) (by simp at hm ⊢; omega) (by simp at hr ⊢; omega)
      rw [this]; simp
  | case4 x L y R h ih =>
    intro pw pre G a pi pr pj pm pk hG hw ha hj hi hk hm hr
    cases G with
    | nil => simp at hG
    | cons g G =>
      unfold mergeLoop lmerge
      rw [dif_pos (by simp at hi; omega), get_mid (l := pw) (x := x) (r := L ++ qw) (by simp [hw]) hj]
      simp only
      rw [dif_pos (by simp at hr hm; omega),
        get_mid (l := pre ++ g :: G) (x := y) (r := R ++ post) (by simp [ha]) (by simp [hm])]
      simp only
      rw [if_neg h, if_neg h, wr_mid x (l := pre) (x := g) (r := G ++ y :: R ++ post) (by simp [ha]) hk]
      simp only
      have := ih (pw ++ [x]) (pre ++ [x]) G (pre ++ x :: (G ++ y :: R ++ post)) pi pr (pj + 1) pm (pk + 1)
        (by simpa using hG) (by simp [hw]) (by simp) (by simp [hj]) (by simp at hi ⊢; omega)
        (by simp [hk]) (by simp at hm ⊢; omega) (by simp at hr ⊢; omega)
      rw [this]; simp

theorem split3 (w : List α) (i n : Nat) (h : i + n ≤ w.length) :
    ∃ p g q, w = p ++ g ++ q ∧ p.length = i ∧ g.length = n := by
  refine ⟨w.take i, (w.drop i).take n, (w.drop i).drop n, ?_, by simp; omega, by simp; omega⟩
  rw [List.append_assoc, List.take_append_drop, List.take_append_drop]

/-- The workspace is changed only in `[i, i + n)`. -/
def SameOutside (i n : Nat) (w w' : List α) : Prop :=
  w'.length = w.length ∧ ∀ p, p < i ∨ i + n ≤ p → w'[p]? = w[p]?

theorem SameOutside.refl (i n : Nat) (w : List α) : SameOutside i n w w := ⟨rfl, fun _ _ => rfl⟩

theorem SameOutside.trans {i n : Nat} {w w' w'' : List α} (h1 : SameOutside i n w w') (h2 : SameOutside i n w' w'') :
    SameOutside i n w w'' := ⟨h2.1.trans h1.1, fun p hp => (h2.2 p hp).trans (h1.2 p hp)⟩

theorem SameOutside.mono {i n m : Nat} {w w' : List α} (h : SameOutside i n w w') (hm : n ≤ m) : SameOutside i m w w' :=
  ⟨h.1, fun p hp => h.2 p (by omega)⟩

theorem sameOutside_mid (p g g' q : List α) (h : g'.length = g.length) :
    SameOutside p.length g.length (p ++ g ++ q) (p ++ g' ++ q) := by
  refine ⟨by simp [h], fun k hk => ?_⟩
  rcases hk with hk | hk
  · rw [List.append_assoc, List.append_assoc, List.getElem?_append_left hk, List.getElem?_append_left hk]
  · rw [List.getElem?_append_right (by simp; omega), List.getElem?_append_right (by simp; omega)]
    simp [h]

theorem mergeAt_spec (pre L R post w : List α) (pw : Nat) (hw : pw + L.length ≤ w.length) :
    ∃ w', mergeAt lt pre.length (pre.length + L.length) (pre.length + L.length + R.length) pw
      (pre ++ L ++ R ++ post) w = some (pre ++ lmerge lt L R ++ post, w') ∧ SameOutside pw L.length w w' := by
  obtain ⟨p, g, q, hpgq, hp, hg⟩ := split3 w pw L.length hw
  refine ⟨p ++ L ++ q, ?_, ?_⟩
  · unfold mergeAt
    have hc := copyOut_spec L g pre (R ++ post) p q hg
    rw [show pre.length + L.length - pre.length = L.length by omega]
    rw [hpgq, ← hp, show pre ++ L ++ R ++ post = pre ++ L ++ (R ++ post) by simp, hc]
    simp only
    rw [mergeLoop_spec (lt := lt) (p ++ L ++ q) q post L R p pre L (pre ++ L ++ (R ++ post)) _ _ _ _ _ rfl rfl
      (by simp) rfl rfl rfl rfl rfl]
  · rw [hpgq, ← hp, ← hg]
    exact sameOutside_mid p g L q hg.symm

/-- **The in-place merge sort** of a part of an array: it never leaves the array or the workspace, changes nothing outside
the part, and leaves its stable sort there. -/
theorem msort_spec (W : Weak P lt) (skip : Bool) : ∀ (n : Nat) (xs pre post w : List α) (pw : Nat), xs.length = n →
    (∀ x ∈ xs, P x) → pw + n / 2 ≤ w.length →
    ∃ out w', msort lt skip pre.length (pre.length + n) pw (pre ++ xs ++ post) w = some (pre ++ out ++ post, w') ∧
      StableSort lt xs out ∧ SameOutside pw (n / 2) w w' := by
  intro n
  induction n using Nat.strongRecOn with
  | _ n ih =>
    intro xs pre post w pw hn hP hw
    unfold msort
    by_cases hbig : pre.length + n - pre.length > smallMergesort
    · rw [dif_pos hbig]
      simp only [smallMergesort] at hbig
      obtain ⟨L, R, rfl, hL⟩ : ∃ L R, xs = L ++ R ∧ L.length = n / 2 :=
        ⟨xs.take (n / 2), xs.drop (n / 2), by simp, by simp [hn]; omega⟩
      have hR : R.length = n - n / 2 := by simp at hn; omega
      have hPL : ∀ x ∈ L, P x := fun x hx => hP x (by simp [hx])
      have hPR : ∀ x ∈ R, P x := fun x hx => hP x (by simp [hx])
      rw [show (pre.length + n - pre.length) / 2 = n / 2 by congr 1; omega]
      obtain ⟨s, w1, e1, hs, o1⟩ := ih (n / 2) (by omega) L pre (R ++ post) w pw hL hPL (by omega)
      obtain ⟨t, w2, e2, ht, o2⟩ := ih (n - n / 2) (by omega) R (pre ++ s) post w1 pw hR hPR (by rw [o1.1]; omega)
      have hsl : s.length = n / 2 := hs.length.trans hL
      have htl : t.length = n - n / 2 := ht.length.trans hR
      simp only
      rw [show pre ++ (L ++ R) ++ post = pre ++ L ++ (R ++ post) by simp, e1]
      simp only
      have e2' : msort lt skip (pre.length + n / 2) (pre.length + n) pw (pre ++ s ++ (R ++ post)) w1 =
          some (pre ++ s ++ t ++ post, w2) := by
        rw [← e2]
        congr 1
        · simp [hsl]
        · simp [hsl]; omega
        · simp
      rw [e2']
      simp only
      obtain ⟨y, t', rfl⟩ : ∃ y t', t = y :: t' := by
        cases t with
        | nil => simp at htl; omega
        | cons y t' => exact ⟨y, t', rfl⟩
      obtain ⟨s', x, rfl⟩ : ∃ s' x, s = s' ++ [x] := by
        rcases List.eq_nil_or_concat s with h | ⟨s', x, h⟩
        · subst h; simp at hsl; omega
        · exact ⟨s', x, by simpa using h⟩
      rw [get_mid (l := pre ++ (s' ++ [x])) (x := y) (r := t' ++ post) (by simp) (by simp at hsl ⊢; omega),
        get_mid (l := pre ++ s') (x := x) (r := y :: t' ++ post) (by simp) (by simp at hsl ⊢; omega)]
      simp only
      have hst := lmerge_stable W hP hs ht
      have o1 : SameOutside pw (n / 2) w w1 := o1.mono (by omega)
      have o2 : SameOutside pw (n / 2) w1 w2 := o2.mono (by omega)
      by_cases hskip : (skip && !lt y x) = true
      · rw [if_pos hskip]
        have hyx : lt y x = false := by simp at hskip; exact hskip.2
        have hPs : ∀ z ∈ s' ++ [x], P z := fun z hz => hPL z (hs.mem.mp hz)
        have hPt : ∀ z ∈ y :: t', P z := fun z hz => hPR z (ht.mem.mp hz)
        rw [lmerge_append] at hst
        · exact ⟨_, _, by simp, hst, o1.trans o2⟩
        · intro u hu v hv
          have h1 : lt x u = false := by
            rcases List.mem_append.mp hu with h | h
            · exact (List.pairwise_append.mp hs.sorted).2.2 u h x (by simp)
            · have : u = x := by simpa using h
              rw [this]; exact W.irrefl (hPs x (by simp))
          have h2 : lt v y = false := by
            rcases List.mem_cons.mp hv with h | h
            · rw [h]; exact W.irrefl (hPt y (by simp))
            · exact (List.pairwise_cons.mp ht.sorted).1 v h
          exact W.trans u y v (hPs u hu) (hPt y (by simp)) (hPt v hv)
            (W.trans u x y (hPs u hu) (hPs x (by simp)) (hPt y (by simp)) h1 hyx) h2
      · rw [if_neg hskip]
        obtain ⟨w3, e3, o3⟩ := mergeAt_spec (lt := lt) pre (s' ++ [x]) (y :: t') post w2 pw (by rw [hsl, o2.1, o1.1]; omega)
        rw [hsl] at e3 o3
        rw [htl, show pre.length + n / 2 + (n - n / 2) = pre.length + n by omega] at e3
        exact ⟨_, w3, e3, hst, o1.trans (o2.trans o3)⟩
    · rw [dif_neg hbig]
      cases xs with
      | nil =>
        have : n = 0 := by simpa using hn.symm
        subst this
        refine ⟨[], w, ?_, StableSort.refl (by simp), SameOutside.refl _ _ _⟩
        simp [insertion]
      | cons x R =>
        obtain ⟨out, h1, h2⟩ := insertion_spec W pre post R [x] [x] (by simpa using hP) (StableSort.refl (by simp))
        refine ⟨out, w, ?_, h2, SameOutside.refl _ _ _⟩
        have hl : pre.length + n - pre.length - 1 = R.length := by simp at hn; omega
        rw [hl]
        have : insertion lt pre.length R.length (pre.length + 1) (pre ++ x :: R ++ post) = some (pre ++ out ++ post) := by
          rw [← h1]; simp
        rw [this]

end Riptide.Sort
