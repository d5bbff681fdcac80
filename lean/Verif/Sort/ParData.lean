import Verif.Sort.ParLemmas
/-! # The data part of the invariant of the parallel merge sort -/
namespace Riptide.Sort
open Spec

variable {α : Type} {P : α → Prop} {lt : α → α → Bool}

/-- `a[lo .. hi)`. -/
def sl (a : List α) (lo hi : Nat) : List α := (a.drop lo).take (hi - lo)

theorem sl_length (a : List α) (lo hi : Nat) (h : hi ≤ a.length) : (sl a lo hi).length = hi - lo := by
  simp only [sl, List.length_take, List.length_drop]; omega

theorem sl_all (a : List α) : sl a 0 a.length = a := by simp [sl]

theorem sl_split (a : List α) (lo hi : Nat) (h1 : lo ≤ hi) :
    a = a.take lo ++ sl a lo hi ++ a.drop hi := by
  have e : lo + (hi - lo) = hi := by omega
  have h3 : a.drop hi = (a.drop lo).drop (hi - lo) := by rw [List.drop_drop, e]
  rw [h3, List.append_assoc]
  unfold sl
  rw [List.take_append_drop, List.take_append_drop]

theorem sl_append (a : List α) {lo mid hi : Nat} (h1 : lo ≤ mid) (h2 : mid ≤ hi) :
    sl a lo hi = sl a lo mid ++ sl a mid hi := by
  have e : hi - lo = (mid - lo) + (hi - mid) := by omega
  unfold sl
  rw [e, List.take_add, List.drop_drop]
  have e2 : lo + (mid - lo) = mid := by omega
  rw [e2]

theorem sl_congr {a a' : List α} {lo hi lo' hi' : Nat} (h : ∀ i, (i < lo ∨ hi ≤ i) → a'[i]? = a[i]?)
    (hd : hi' ≤ lo ∨ hi ≤ lo') : sl a' lo' hi' = sl a lo' hi' := by
  apply List.ext_getElem?
  intro i
  unfold sl
  rw [List.getElem?_take, List.getElem?_take, List.getElem?_drop, List.getElem?_drop]
  split
  · apply h; omega
  · rfl

theorem out_of_mid {pre xs out post : List α} (h : out.length = xs.length) (i : Nat)
    (hi : i < pre.length ∨ pre.length + xs.length ≤ i) : (pre ++ out ++ post)[i]? = (pre ++ xs ++ post)[i]? := by
  rcases hi with hi | hi
  · rw [List.append_assoc, List.append_assoc, List.getElem?_append_left hi, List.getElem?_append_left hi]
  · rw [List.getElem?_append_right (by simp; omega), List.getElem?_append_right (by simp; omega)]
    simp [h]

theorem sl_mid (pre out post : List α) {lo hi : Nat} (h1 : lo = pre.length) (h2 : hi = pre.length + out.length) :
    sl (pre ++ out ++ post) lo hi = out := by
  subst h1; subst h2
  unfold sl
  rw [List.append_assoc, List.drop_left]
  have : pre.length + out.length - pre.length = out.length := by omega
  rw [this, List.take_left]

/-- First and last+1 element of node `k` of level `l`. -/
def nlo (n l k : Nat) : Nat := bd n (k * 2 ^ l)
def nhi (n l k : Nat) : Nat := bd n ((k + 1) * 2 ^ l)

theorem node_bound {l j : Nat} (hl : l ≤ 3) (hj : j < 8) : (j / 2 ^ l + 1) * 2 ^ l ≤ 8 := by
  have : l = 0 ∨ l = 1 ∨ l = 2 ∨ l = 3 := by omega
  rcases this with rfl | rfl | rfl | rfl <;> simp <;> omega

theorem nlo_le_nhi (n : Nat) {l j : Nat} (hl : l ≤ 3) (hj : j < 8) : nlo n l (j / 2 ^ l) ≤ nhi n l (j / 2 ^ l) :=
  bd_mono n (Nat.mul_le_mul_right _ (by omega)) (node_bound hl hj)

theorem nhi_le (n : Nat) {l j : Nat} (hl : l ≤ 3) (hj : j < 8) : nhi n l (j / 2 ^ l) ≤ n := by
  rw [← bd_end n]
  conv => rhs; rw [bd_end]
  have := bd_mono n (node_bound hl hj) (Nat.le_refl 8)
  rw [bd_end] at this
  exact this

/-- Nodes of which neither is above the other do not overlap. -/
theorem node_disjoint (n : Nat) {l m j i : Nat} (hl : l ≤ 3) (hj : j < 8) (hi : i < 8) (hm : m ≤ l)
    (h : i / 2 ^ l ≠ j / 2 ^ l) :
    nhi n m (i / 2 ^ m) ≤ nlo n l (j / 2 ^ l) ∨ nhi n l (j / 2 ^ l) ≤ nlo n m (i / 2 ^ m) := by
  have key : (i / 2 ^ m + 1) * 2 ^ m ≤ j / 2 ^ l * 2 ^ l ∨ (j / 2 ^ l + 1) * 2 ^ l ≤ i / 2 ^ m * 2 ^ m := by
    have h1 : l = 0 ∨ l = 1 ∨ l = 2 ∨ l = 3 := by omega
    have h2 : m = 0 ∨ m = 1 ∨ m = 2 ∨ m = 3 := by omega
    rcases h1 with rfl | rfl | rfl | rfl <;> rcases h2 with rfl | rfl | rfl | rfl <;> simp at h hm ⊢ <;> omega
  have b1 := node_bound hl hj
  have b2 := node_bound (l := m) (by omega) hi
  rcases key with h | h
  · exact .inl (bd_mono n h (Nat.le_trans (Nat.mul_le_mul_right _ (by omega)) b1))
  · exact .inr (bd_mono n h (Nat.le_trans (Nat.mul_le_mul_right _ (by omega)) b2))

theorem div_pow_add (i m d : Nat) : i / 2 ^ (m + d) = i / 2 ^ m / 2 ^ d := by
  rw [Nat.pow_add, Nat.div_div_eq_div_mul]

theorem desc_passed {s : ParState α} (I : Proto s) : ∀ (d m c k : Nat), Reached s (m + d + 1) k → c / 2 ^ (d + 1) = k →
    Passed s m c := by
  intro d
  induction d with
  | zero => intro m c k h hc; exact I.kids m k c h (by simpa using hc)
  | succ d ih =>
    intro m c k h hc
    have h1 := I.kids (m + d + 1) k (c / 2 ^ (d + 1)) h (by rw [← div_succ]; exact hc)
    obtain ⟨i, hi, hk, hp⟩ := h1
    exact ih m c _ ⟨i, hi, hk, Pc.finished_reached (Pc.passed_finished hp)⟩ rfl

/-- The whole invariant. -/
structure Inv (lt : α → α → Bool) (a0 : List α) (s : ParState α) : Prop where
  proto : Proto s
  alen : s.a.length = a0.length
  wlen : a0.length ≤ s.w.length
  sorted : ∀ l i, l ≤ 3 → i < 8 → Fin' s l (i / 2 ^ l) → ¬ Fin' s (l + 1) (i / 2 ^ (l + 1)) →
    StableSort lt (sl a0 (nlo a0.length l (i / 2 ^ l)) (nhi a0.length l (i / 2 ^ l)))
      (sl s.a (nlo a0.length l (i / 2 ^ l)) (nhi a0.length l (i / 2 ^ l)))
  same : ∀ i, i < 8 → ¬ Fin' s 0 i → sl s.a (bd a0.length i) (bd a0.length (i + 1)) =
    sl a0 (bd a0.length i) (bd a0.length (i + 1))

theorem inv_init (a0 w : List α) (hw : a0.length ≤ w.length) : Inv lt a0 (parInit a0 w) where
  proto := proto_init a0 w
  alen := rfl
  wlen := hw
  sorted := by rintro l i _ _ ⟨j, _, _, h⟩; exact h.elim
  same := fun _ _ _ => rfl

/-- Steps that leave the data and the finished work alone. -/
theorem inv_idle {a0 : List α} {s s' : ParState α} (I : Inv lt a0 s) (hp : Proto s') (ha : s'.a = s.a) (hw : s'.w = s.w)
    (hf : ∀ l i, (s'.pc i).finished l ↔ (s.pc i).finished l) : Inv lt a0 s' := by
  have hF : ∀ l k, Fin' s' l k ↔ Fin' s l k := fun l k =>
    ⟨fun ⟨i, h1, h2, h3⟩ => ⟨i, h1, h2, (hf l i).mp h3⟩, fun ⟨i, h1, h2, h3⟩ => ⟨i, h1, h2, (hf l i).mpr h3⟩⟩
  refine ⟨hp, by rw [ha]; exact I.alen, by rw [hw]; exact I.wlen, ?_, ?_⟩
  · intro l i hl hi h1 h2
    rw [ha]; exact I.sorted l i hl hi ((hF _ _).mp h1) fun h => h2 ((hF _ _).mpr h)
  · intro i hi h
    rw [ha]; exact I.same i hi fun h' => h ((hF _ _).mpr h')

theorem not_fin_of_work {s : ParState α} (I : Proto s) {j l : Nat} (hj : j < 8) (hpc : s.pc j = .work l) :
    ¬ Fin' s l (j / 2 ^ l) := by
  rintro ⟨i, hi, hk, hf⟩
  have : i = j := I.uniq l i j hi hj (Pc.finished_reached hf) (by rw [hpc]; exact Nat.le_refl l) hk
  rw [this, hpc] at hf
  exact Nat.lt_irrefl l hf

/-- A step that does the work of node `(l, j / 2^l)`. -/
theorem inv_work {a0 : List α} {s s' : ParState α} (I : Inv lt a0 s) {j l : Nat} (hj : j < 8) (hl : l ≤ 3)
    (hpc : s.pc j = .work l) (hp : Proto s') (hwl : s'.w.length = s.w.length) (hal : s'.a.length = s.a.length)
    (hf : ∀ m i, (s'.pc i).finished m ↔ (s.pc i).finished m ∨ (i = j ∧ m = l))
    (hout : ∀ i, (i < nlo a0.length l (j / 2 ^ l) ∨ nhi a0.length l (j / 2 ^ l) ≤ i) → s'.a[i]? = s.a[i]?)
    (hsort : StableSort lt (sl a0 (nlo a0.length l (j / 2 ^ l)) (nhi a0.length l (j / 2 ^ l)))
      (sl s'.a (nlo a0.length l (j / 2 ^ l)) (nhi a0.length l (j / 2 ^ l)))) : Inv lt a0 s' := by
  have hFm : ∀ m k, Fin' s m k → Fin' s' m k := fun m k ⟨i, h1, h2, h3⟩ => ⟨i, h1, h2, (hf m i).mpr (.inl h3)⟩
  have hFn : ∀ m k, Fin' s' m k → Fin' s m k ∨ (m = l ∧ k = j / 2 ^ l) := by
    rintro m k ⟨i, h1, h2, h3⟩
    rcases (hf m i).mp h3 with h | ⟨rfl, rfl⟩
    · exact .inl ⟨i, h1, h2, h⟩
    · exact .inr ⟨rfl, h2.symm⟩
  have hFj : Fin' s' l (j / 2 ^ l) := ⟨j, hj, rfl, (hf l j).mpr (.inr ⟨rfl, rfl⟩)⟩
  have hRj : Reached s l (j / 2 ^ l) := ⟨j, hj, rfl, by rw [hpc]; exact Nat.le_refl l⟩
  refine ⟨hp, by rw [hal]; exact I.alen, by rw [hwl]; exact I.wlen, ?_, ?_⟩
  · intro m i hm hi h1 h2
    rcases hFn _ _ h1 with g1 | ⟨rfl, g1⟩
    · have g2 : ¬ Fin' s (m + 1) (i / 2 ^ (m + 1)) := fun h => h2 (hFm _ _ h)
      have hs := I.sorted m i hm hi g1 g2
      suffices hd : nhi a0.length m (i / 2 ^ m) ≤ nlo a0.length l (j / 2 ^ l) ∨
          nhi a0.length l (j / 2 ^ l) ≤ nlo a0.length m (i / 2 ^ m) by
        rw [sl_congr hout hd]; exact hs
      rcases Nat.lt_or_ge m l with hml | hml
      · apply node_disjoint _ hl hj hi (by omega)
        intro he
        -- `(m, i)` is below the node being worked on
        obtain ⟨d, rfl⟩ : ∃ d, l = m + d + 1 := ⟨l - m - 1, by omega⟩
        cases d with
        | zero => exact h2 (by rw [show m + 1 = m + 0 + 1 from rfl, he]; exact hFj)
        | succ d =>
          have : Passed s (m + 1) (i / 2 ^ (m + 1)) := by
            apply desc_passed I.proto d (m + 1) _ (j / 2 ^ (m + (d + 1) + 1))
            · rw [show m + 1 + d + 1 = m + (d + 1) + 1 by omega]; exact hRj
            · rw [← he, ← div_pow_add, show m + 1 + (d + 1) = m + (d + 1) + 1 by omega]
          obtain ⟨q, hq, hqk, hqp⟩ := this
          exact g2 ⟨q, hq, hqk, Pc.passed_finished hqp⟩
      · by_cases he : j / 2 ^ m = i / 2 ^ m
        · exfalso
          -- the node being worked on is at or below the finished `(m, i)`
          rcases Nat.eq_or_lt_of_le hml with hml | hml
          · subst hml
            exact not_fin_of_work I.proto hj hpc (by rw [he]; exact g1)
          · obtain ⟨d, rfl⟩ : ∃ d, m = l + d + 1 := ⟨m - l - 1, by omega⟩
            obtain ⟨q, hq, hqk, hqf⟩ := g1
            have := desc_passed I.proto d l (j / 2 ^ l) _ ⟨q, hq, hqk, Pc.finished_reached hqf⟩
              (by rw [← he, ← div_pow_add]; rfl)
            obtain ⟨r, hr, hrk, hrp⟩ := this
            exact not_fin_of_work I.proto hj hpc ⟨r, hr, hrk, Pc.passed_finished hrp⟩
        · have := node_disjoint a0.length (l := m) (m := l) hm hi hj hml he
          exact this.symm
    · rw [g1]; exact hsort
  · intro i hi h
    have h0 : ¬ Fin' s 0 i := fun h' => h (hFm _ _ h')
    rw [← I.same i hi h0]
    apply sl_congr hout
    have := node_disjoint a0.length (l := l) (m := 0) (j := j) (i := i) hl hj hi (by omega) ?_
    · simpa [nlo, nhi] using this
    · intro he
      cases l with
      | zero => exact h (by have e : j = i := by simpa using he.symm
                            rw [← e]; simpa using hFj)
      | succ l =>
        have := desc_passed I.proto l 0 i (j / 2 ^ (l + 1)) (by rw [Nat.zero_add]; exact hRj) he
        obtain ⟨q, hq, hqk, hqp⟩ := this
        exact h0 ⟨q, hq, hqk, Pc.passed_finished hqp⟩

theorem sl_mem {a : List α} {lo hi : Nat} {x : α} (h : x ∈ sl a lo hi) : x ∈ a :=
  List.mem_of_mem_drop (List.mem_of_mem_take h)

/-- One step keeps the invariant and stays in bounds. -/
theorem inv_step (W : Weak P lt) (skip : Bool) {a0 : List α} (hP : ∀ x ∈ a0, P x) {s : ParState α} (I : Inv lt a0 s)
    {j : Nat} (hj : j < 8) : ∃ s', stepJob lt skip a0.length s j = some s' ∧ Inv lt a0 s' ∧
      (∀ i, i ≠ j → s'.pc i = s.pc i) := by
  have hlv := I.proto.levels j hj
  cases hpc : s.pc j with
  | todo =>
    refine ⟨s.setPc j (.work 0), by simp only [stepJob, hpc], ?_, fun i hi => by simp [ParState.setPc, hi]⟩
    apply inv_idle I
    · apply proto_move (s' := s.setPc j (.work 0)) I.proto (p := .work 0) rfl (fun i => rfl)
      · exact Nat.zero_le 3
      · intro l hl; rw [hpc]; simp [Pc.reached]; omega
      · intro l hl; rw [hpc]; simp [Pc.passed]
      · intro l hl; simp only [Pc.reached]; omega
    · rfl
    · rfl
    · intro l i
      by_cases hi : i = j
      · subst hi; simp [ParState.setPc, hpc, Pc.finished]
      · simp [ParState.setPc, hi]
  | done l =>
    exact ⟨s, by simp only [stepJob, hpc], I, fun i _ => rfl⟩
  | post l =>
    refine ⟨postBit s l j, by simp only [stepJob, hpc], ?_, fun i hi => by simp [postBit, ParState.setPc, hi]⟩
    apply inv_idle I (proto_post I.proto hj hpc) rfl rfl
    intro m i
    by_cases hi : i = j
    · subst hi
      show (if i = i then _ else s.pc i : Pc).finished m ↔ _
      rw [if_pos rfl, hpc]
      split <;> simp only [Pc.finished] <;> omega
    · show (if i = j then _ else s.pc i : Pc).finished m ↔ _
      rw [if_neg hi]
  | work l =>
    rw [hpc] at hlv
    have hl : l ≤ 3 := hlv
    have hlo := nlo_le_nhi a0.length hl hj
    have hhi := nhi_le a0.length hl hj
    have hseg := segOf_eq a0.length l j hl hj
    change _ = (nlo a0.length l (j / 2 ^ l), nhi a0.length l (j / 2 ^ l)) at hseg
    generalize hLO : nlo a0.length l (j / 2 ^ l) = lo at *
    generalize hHI : nhi a0.length l (j / 2 ^ l) = hi at *
    have hsp := sl_split s.a lo hi hlo
    have hprel : (s.a.take lo).length = lo := by simp only [List.length_take, I.alen]; omega
    have hxsl : (sl s.a lo hi).length = hi - lo := sl_length _ _ _ (by rw [I.alen]; exact hhi)
    have hwl := I.wlen
    -- the work itself
    suffices hwork : ∃ out w', (l = 0 → msort lt skip lo hi lo s.a s.w = some (s.a.take lo ++ out ++ s.a.drop hi, w')) ∧
        (∀ k, l = k + 1 → mergeAt lt lo (lo + (hi - lo) / 2) hi lo s.a s.w =
          some (s.a.take lo ++ out ++ s.a.drop hi, w')) ∧
        StableSort lt (sl a0 lo hi) out ∧ w'.length = s.w.length by
      obtain ⟨out, w', hrun0, hrun1, hst, hwl'⟩ := hwork
      have hol : out.length = (sl s.a lo hi).length := by
        rw [hst.length, hxsl, sl_length _ _ _ hhi]
      generalize hp' : (if l = 3 then Pc.done 3 else Pc.post l) = p'
      refine ⟨{ (s.setPc j p') with a := s.a.take lo ++ out ++ s.a.drop hi, w := w' }, ?_, ?_,
        fun i hi => by simp [ParState.setPc, hi]⟩
      · cases l with
        | zero => simp only [stepJob, hpc, hseg]; simp only [hrun0 rfl]; rw [← hp']; rfl
        | succ l => simp only [stepJob, hpc, hseg]; simp only [hrun1 l rfl, hp']
      · apply inv_work I hj hl hpc
        · apply proto_move (s' := { (s.setPc j p') with a := s.a.take lo ++ out ++ s.a.drop hi, w := w' }) I.proto (p := p') rfl
            (fun i => rfl)
          · rw [← hp']; split <;> simp only [Pc.lvOk] <;> omega
          · intro m hm; rw [hpc, ← hp']; split <;> simp only [Pc.reached] <;> omega
          · intro m hm; rw [hpc, ← hp']; split <;> simp only [Pc.passed] <;> omega
          · intro m hm; rw [← hp']; split <;> simp only [Pc.reached] <;> omega
        · exact hwl'
        · show (s.a.take lo ++ out ++ s.a.drop hi).length = s.a.length
          conv => rhs; rw [hsp]
          simp [hol]
        · intro m i
          show (if i = j then p' else s.pc i).finished m ↔ _
          by_cases hi : i = j
          · subst hi
            rw [if_pos rfl, hpc, ← hp']
            have : (if l = 3 then Pc.done 3 else Pc.post l).finished m ↔ m ≤ l := by
              split <;> simp only [Pc.finished] <;> omega
            rw [this]; simp only [Pc.finished, true_and]; omega
          · rw [if_neg hi]; simp [hi]
        · intro i hi'
          rw [hLO, hHI] at hi'
          show (s.a.take lo ++ out ++ s.a.drop hi)[i]? = _
          conv => rhs; rw [hsp]
          apply out_of_mid hol
          rw [hprel, hxsl]; omega
        · rw [hLO, hHI]
          show StableSort lt _ (sl (s.a.take lo ++ out ++ s.a.drop hi) lo hi)
          rw [sl_mid _ _ _ hprel.symm (by rw [hprel, hol, hxsl]; omega)]
          exact hst
    cases l with
    | zero =>
      have hLO' : bd a0.length j = lo := by rw [← hLO]; simp [nlo]
      have hHI' : bd a0.length (j + 1) = hi := by rw [← hHI]; simp [nhi]
      have hs := I.same j hj (by have := not_fin_of_work I.proto hj hpc; simpa using this)
      rw [hLO', hHI'] at hs
      obtain ⟨out, w', h1, h2, h3⟩ := msort_spec W skip (hi - lo) (sl s.a lo hi) (s.a.take lo) (s.a.drop hi) s.w lo hxsl
        (by rw [hs]; exact fun x hx => hP x (sl_mem hx)) (by omega)
      rw [← hsp, hprel, show lo + (hi - lo) = hi by omega] at h1
      exact ⟨out, w', fun _ => h1, by omega, by rw [← hs]; exact h2, h3.1⟩
    | succ l =>
      have hmid := bd_mid a0.length l j (by omega) hj
      have hLO' : bd a0.length (j / 2 ^ (l + 1) * 2 ^ (l + 1)) = lo := hLO
      have hHI' : bd a0.length ((j / 2 ^ (l + 1) + 1) * 2 ^ (l + 1)) = hi := hHI
      rw [hLO', hHI'] at hmid
      have hnf := not_fin_of_work I.proto hj hpc
      generalize hK : j / 2 ^ (l + 1) = K at *
      have hkid : ∀ c, c / 2 = K → StableSort lt (sl a0 (nlo a0.length l c) (nhi a0.length l c))
          (sl s.a (nlo a0.length l c) (nhi a0.length l c)) := by
        intro c hc
        obtain ⟨q, hq, hqk, hqp⟩ := I.proto.kids l K c ⟨j, hj, hK, by rw [hpc]; exact Nat.le_refl _⟩ hc
        have := I.sorted l q (by omega) hq ⟨q, hq, rfl, Pc.passed_finished hqp⟩ (by rw [div_succ, hqk, hc]; exact hnf)
        rwa [hqk] at this
      have hL := hkid (2 * K) (by omega)
      have hR := hkid (2 * K + 1) (by omega)
      have e1 : nlo a0.length l (2 * K) = lo := by
        rw [← hLO', nlo]; congr 1; rw [Nat.pow_succ]; rw [Nat.mul_comm 2 K, Nat.mul_assoc, Nat.mul_comm 2]
      have e2 : nhi a0.length l (2 * K) = lo + (hi - lo) / 2 := by rw [hmid, nhi]
      have e3 : nlo a0.length l (2 * K + 1) = lo + (hi - lo) / 2 := by rw [hmid, nlo]
      have e4 : nhi a0.length l (2 * K + 1) = hi := by
        rw [← hHI', nhi]; congr 1
        rw [Nat.pow_succ, show 2 * K + 1 + 1 = (K + 1) * 2 by omega, Nat.mul_assoc, Nat.mul_comm 2]
      rw [e1, e2] at hL
      rw [e3, e4] at hR
      generalize hm : lo + (hi - lo) / 2 = mid at *
      have hm1 : lo ≤ mid := by omega
      have hm2 : mid ≤ hi := by omega
      have hsl := sl_append s.a hm1 hm2
      have hLl : (sl s.a lo mid).length = mid - lo := sl_length _ _ _ (by rw [I.alen]; omega)
      have hRl : (sl s.a mid hi).length = hi - mid := sl_length _ _ _ (by rw [I.alen]; omega)
      obtain ⟨w', h1, h2⟩ := mergeAt_spec (lt := lt) (s.a.take lo) (sl s.a lo mid) (sl s.a mid hi) (s.a.drop hi) s.w lo
        (by rw [hLl]; omega)
      refine ⟨lmerge lt (sl s.a lo mid) (sl s.a mid hi), w', by omega, fun _ _ => ?_, ?_, h2.1⟩
      · rw [hprel, hLl, hRl, show lo + (mid - lo) = mid by omega, show mid + (hi - mid) = hi by omega] at h1
        have hs4 : s.a = s.a.take lo ++ sl s.a lo mid ++ sl s.a mid hi ++ s.a.drop hi := by
          rw [hsl, ← List.append_assoc] at hsp
          exact hsp
        rw [← hs4] at h1
        exact h1
      · rw [sl_append a0 hm1 hm2]
        apply lmerge_stable W ?_ hL hR
        intro x hx
        rcases List.mem_append.mp hx with h | h <;> exact hP x (sl_mem h)

end Riptide.Sort
