import Verif.Cat.Model
import Verif.Common.Lists
/-! # Theorems about `IsMemberCategoricalFixup` -/
namespace Riptide.Cat

/-- Row `j` of the second array is the first one whose category is `c`. -/
def IsFirst (rows2 : List Int) (base2 c : Int) (j : Nat) : Prop :=
  rows2[j]? = some (c + base2) ∧ ∀ k : Nat, k < j → rows2[k]? ≠ some (c + base2)

/-- What a row of the first array should give: its category `k` is category `uniq[k]` of the second array. -/
def RowSpec (rows2 uniq : List Int) (base1 base2 v : Int) (r : Bool × Int) : Prop :=
  (r.1 = true ∧ ∃ k j : Nat, ∃ c : Int, v = k + base1 ∧ uniq[k]? = some c ∧ c ≠ inv32 ∧ IsFirst rows2 base2 c j ∧ r.2 = j) ∨
  (r.1 = false ∧ r.2 = inv32 ∧
    (v < base1 ∨ ∃ k : Nat, ∃ c : Int, v = k + base1 ∧ uniq[k]? = some c ∧ (c = inv32 ∨ ∀ j : Nat, rows2[j]? ≠ some (c + base2))))

/-! ### The reverse map -/

/-- The matched categories are different and exist. -/
def Good (uniq : List Int) (n2 : Nat) : Prop :=
  (∀ c ∈ uniq, c = inv32 ∨ (0 ≤ c ∧ c < (n2 : Int))) ∧
  ∀ (i j : Nat) (c : Int), uniq[i]? = some c → uniq[j]? = some c → c ≠ inv32 → i = j

/-- The map from categories of the second array to the first `n` of the first. -/
def RevOK (uniq : List Int) (n2 n : Nat) (rev : List Int) : Prop :=
  rev.length = n2 ∧ ∀ c : Nat, c < n2 →
    (∃ k : Nat, k < n ∧ uniq[k]? = some (c : Int) ∧ rev[c]? = some (k : Int)) ∨
    (rev[c]? = some (-1) ∧ ∀ k : Nat, k < n → uniq[k]? ≠ some (c : Int))

/-- The number of categories of the first array which exist in the second and are not found yet. -/
def opened : List Int → List Int → Nat
  | u :: us, r :: rs => (if u ≠ inv32 ∧ r = inv32 then 1 else 0) + opened us rs
  | _, _ => 0

theorem inv32_neg : inv32 = -2147483648 := by decide

theorem revLoop_ok (uniq : List Int) (n2 : Nat) (hg : Good uniq n2) :
    ∀ (vs : List Int) (i : Nat) (rev : List Int) (m : Nat), uniq.drop i = vs → i ≤ uniq.length →
    RevOK uniq n2 i rev → m = opened (uniq.take i) (List.replicate i inv32) →
    ∃ rev', revLoop i vs rev m = .ok (rev', opened uniq (List.replicate uniq.length inv32)) ∧ RevOK uniq n2 uniq.length rev' := by
  intro vs
  induction vs with
  | nil =>
    intro i rev m hd hi hr hm
    have : i = uniq.length := by
      have := congrArg List.length hd
      rw [List.length_drop] at this
      simp at this; omega
    subst this
    rw [List.take_length] at hm
    exact ⟨rev, by rw [revLoop, hm], hr⟩
  | cons v vs ih =>
    intro i rev m hd hi hr hm
    have hlt : i < uniq.length := by
      have := congrArg List.length hd
      rw [List.length_drop] at this
      simp at this; omega
    have hv : uniq[i]? = some v := by
      have := congrArg (·[0]?) hd
      simpa using this
    have hd' : uniq.drop (i + 1) = vs := by
      have := congrArg (List.drop 1) hd
      rw [List.drop_drop] at this
      simpa using this
    have htake : uniq.take (i + 1) = uniq.take i ++ [v] := by
      rw [List.take_add_one, hv]; rfl
    have hop : ∀ (a : List Int) (b : Int), opened (a ++ [b]) (List.replicate (a.length + 1) inv32) =
        opened a (List.replicate a.length inv32) + if b ≠ inv32 then 1 else 0 := by
      intro a b
      induction a with
      | nil => simp [opened, List.replicate]
      | cons x a iha =>
        have : List.replicate ((x :: a).length + 1) inv32 = inv32 :: List.replicate (a.length + 1) inv32 := rfl
        rw [this, List.cons_append, opened, iha]
        have : List.replicate (x :: a).length inv32 = inv32 :: List.replicate a.length inv32 := rfl
        rw [this, opened]
        omega
    have hlen : (uniq.take i).length = i := by rw [List.length_take]; omega
    have hop' := hop (uniq.take i) v
    rw [hlen, ← htake] at hop'
    rw [revLoop]
    by_cases hvi : v = inv32
    · rw [if_pos hvi]
      refine ih (i + 1) rev m hd' (by omega) ⟨hr.1, fun c hc => ?_⟩ (by rw [hop', if_neg (by simp [hvi])]; exact hm)
      rcases hr.2 c hc with ⟨k, h1, h2, h3⟩ | ⟨h1, h2⟩
      · exact .inl ⟨k, by omega, h2, h3⟩
      · refine .inr ⟨h1, fun k hk => ?_⟩
        by_cases hki : k = i
        · subst hki
          rw [hv, hvi]
          intro h
          have := Option.some.inj h
          rw [inv32_neg] at this
          omega
        · exact h2 k (by omega)
    · rw [if_neg hvi]
      have hvr := (hg.1 v (List.mem_iff_getElem?.2 ⟨i, hv⟩)).resolve_left hvi
      rw [if_pos (by rw [hr.1]; exact hvr)]
      refine ih (i + 1) _ (m + 1) hd' (by omega) ⟨by simp [hr.1], fun c hc => ?_⟩ (by rw [hop', if_pos hvi, hm])
      by_cases hcv : c = v.toNat
      · subst hcv
        refine .inl ⟨i, by omega, ?_, ?_⟩
        · rw [hv]; congr 1; omega
        · rw [List.getElem?_set_self (by rw [hr.1]; exact hc)]
      · rw [List.getElem?_set_ne (fun h => hcv h.symm)]
        rcases hr.2 c hc with ⟨k, h1, h2, h3⟩ | ⟨h1, h2⟩
        · exact .inl ⟨k, by omega, h2, h3⟩
        · refine .inr ⟨h1, fun k hk => ?_⟩
          by_cases hki : k = i
          · subst hki
            rw [hv]
            intro h
            have := Option.some.inj h
            omega
          · exact h2 k (by omega)

/-! ### First occurrences -/

/-- What is known after the first `n` rows of the second array. -/
def ReOK (rows2 uniq : List Int) (base2 : Int) (n : Nat) (re : List Int) : Prop :=
  re.length = uniq.length ∧ ∀ (k : Nat) (c : Int), uniq[k]? = some c →
    (c ≠ inv32 ∧ ∃ j : Nat, j < n ∧ IsFirst rows2 base2 c j ∧ re[k]? = some (j : Int)) ∨
    (re[k]? = some inv32 ∧ (c = inv32 ∨ ∀ j : Nat, j < n → rows2[j]? ≠ some (c + base2)))

theorem opened_set : ∀ (us re : List Int) (k : Nat) (u x : Int), us[k]? = some u → u ≠ inv32 → re[k]? = some inv32 → x ≠ inv32 →
    opened us (re.set k x) + 1 = opened us re
  | u' :: us, r :: re, 0, u, x, h1, h2, h3, h4 => by
    simp only [List.getElem?_cons_zero, Option.some.injEq] at h1 h3
    subst h1 h3
    simp [opened, h2, h4]; omega
  | u' :: us, r :: re, k + 1, u, x, h1, h2, h3, h4 => by
    have := opened_set us re k u x (by simpa using h1) h2 (by simpa using h3) h4
    rw [List.set_cons_succ, opened, opened]
    omega
  | [], _, k, _, _, h1, _, _, _ => by simp at h1
  | _ :: _, [], k, _, _, _, _, h3, _ => by simp at h3

theorem opened_zero : ∀ (us re : List Int), opened us re = 0 → ∀ (k : Nat) (u : Int), us[k]? = some u → u ≠ inv32 →
    re[k]? ≠ some inv32
  | u' :: us, r :: re, h, 0, u, h1, h2 => by
    rw [opened] at h
    simp only [List.getElem?_cons_zero, Option.some.injEq] at h1
    subst h1
    intro h3
    simp only [List.getElem?_cons_zero, Option.some.injEq] at h3
    rw [if_pos ⟨h2, h3⟩] at h
    omega
  | u' :: us, r :: re, h, k + 1, u, h1, h2 => by
    rw [opened] at h
    have := opened_zero us re (by omega) k u (by simpa using h1) h2
    simpa using this
  | [], _, _, k, _, h1, _ => by simp at h1
  | _ :: _, [], _, k, _, _, _ => by simp

theorem idx_nat (l : List Int) (n : Nat) : idx l (n : Int) = l[n]? := by
  unfold idx; rw [if_pos (by omega)]; rfl

theorem wrap_sub {t : IT} (hb : 0 < t.bits) {v base : Int} (h0 : 0 ≤ base) (hv : base ≤ v) (hr : t.InRange v) :
    t.wrap (v - base) = v - base := by
  refine IT.wrap_of_inRange t hb ⟨?_, ?_⟩
  · have : t.lo ≤ 0 := by
      unfold IT.lo
      split
      · have := IT.pow_pos (t.bits - 1); omega
      · omega
    omega
  · have := hr.2; omega

theorem occLoop_ok (t : IT) (hb : 0 < t.bits) (rows2 uniq : List Int) (n2 : Nat) (base2 : Int) (rev : List Int) (h0 : 0 ≤ base2)
    (hg : Good uniq n2) (hrev : RevOK uniq n2 uniq.length rev) (hr2 : ∀ v ∈ rows2, t.InRange v ∧ v < base2 + (n2 : Int))
    (hl : rows2.length < 2147483648) :
    ∀ (vs : List Int) (i : Nat) (re : List Int) (left : Nat), rows2.drop i = vs → i ≤ rows2.length →
    ReOK rows2 uniq base2 i re → left = opened uniq re → 0 < left →
    ∃ re', occLoop t base2 rev i vs re left = some (.ok re') ∧ ReOK rows2 uniq base2 rows2.length re' := by
  intro vs
  induction vs with
  | nil =>
    intro i re left hd hi hre hleft hpos
    have : i = rows2.length := by
      have := congrArg List.length hd
      rw [List.length_drop] at this
      simp at this; omega
    subst this
    exact ⟨re, by rw [occLoop], hre⟩
  | cons v vs ih =>
    intro i re left hd hi hre hleft hpos
    have hlt : i < rows2.length := by
      have := congrArg List.length hd
      rw [List.length_drop] at this
      simp at this; omega
    have hv : rows2[i]? = some v := by
      have := congrArg (·[0]?) hd
      simpa using this
    have hd' : rows2.drop (i + 1) = vs := by
      have := congrArg (List.drop 1) hd
      rw [List.drop_drop] at this
      simpa using this
    have hmem : v ∈ rows2 := List.mem_iff_getElem?.2 ⟨i, hv⟩
    obtain ⟨hvr, hvn⟩ := hr2 v hmem
    -- nothing new is known when the row's category is not one of the open ones
    have hkeep : (∀ (k : Nat) (c : Int), uniq[k]? = some c → c ≠ inv32 → re[k]? = some inv32 → v ≠ c + base2) →
        ReOK rows2 uniq base2 (i + 1) re := by
      intro hno
      refine ⟨hre.1, fun k c hk => ?_⟩
      rcases hre.2 k c hk with ⟨hc, j, hj, hf, he⟩ | ⟨he, hc⟩
      · exact .inl ⟨hc, j, by omega, hf, he⟩
      · refine .inr ⟨he, ?_⟩
        by_cases hci : c = inv32
        · exact .inl hci
        · refine .inr fun j hj => ?_
          by_cases hji : j = i
          · subst hji
            rw [hv]
            intro h
            exact hno k c hk hci he (Option.some.inj h)
          · exact hc.resolve_left hci j (by omega)
    rw [occLoop]
    by_cases hbv : base2 ≤ v
    · rw [if_pos hbv, wrap_sub hb h0 hbv hvr]
      obtain ⟨c, hc⟩ : ∃ c : Nat, v - base2 = (c : Int) := ⟨(v - base2).toNat, by omega⟩
      have hcn : c < n2 := by omega
      rw [hc, idx_nat]
      rcases hrev.2 c hcn with ⟨k, hkn, hk, he⟩ | ⟨he, hno⟩
      · rw [he]
        simp only
        rw [if_pos (by omega), idx_nat]
        have hcne : (c : Int) ≠ inv32 := by rw [inv32_neg]; omega
        rcases hre.2 k c hk with ⟨_, j, hj, hf, hej⟩ | ⟨hei, hcc⟩
        · rw [hej]
          simp only
          have : (j : Int) ≠ inv32 := by rw [inv32_neg]; omega
          rw [if_neg this]
          refine ih (i + 1) re left hd' (by omega) (hkeep fun k' c' hk' hc' hr' hv' => ?_) hleft hpos
          have : c' = (c : Int) := by omega
          subst this
          have := hg.2 k k' c hk hk' hcne
          subst this
          rw [hej] at hr'
          exact this (Option.some.inj hr')
        · rw [hei]
          simp only [if_true]
          rw [if_neg (by omega)]
          have hfirst : IsFirst rows2 base2 (c : Int) i := by
            refine ⟨by rw [hv]; congr 1; omega, fun k' hk' => hcc.resolve_left hcne k' hk'⟩
          have hset : ReOK rows2 uniq base2 (i + 1) (re.set k i) := by
            refine ⟨by simp [hre.1], fun k' c' hk' => ?_⟩
            by_cases hkk : k' = k
            · subst hkk
              rw [hk] at hk'
              cases hk'
              refine .inl ⟨hcne, i, by omega, hfirst, ?_⟩
              rw [List.getElem?_set_self (by rw [hre.1]; exact hkn)]
            · rw [List.getElem?_set_ne (fun h => hkk h.symm)]
              rcases hre.2 k' c' hk' with ⟨hc, j, hj, hf, he⟩ | ⟨he, hc⟩
              · exact .inl ⟨hc, j, by omega, hf, he⟩
              · refine .inr ⟨he, ?_⟩
                by_cases hci : c' = inv32
                · exact .inl hci
                · refine .inr fun j hj => ?_
                  by_cases hji : j = i
                  · subst hji
                    rw [hv]
                    intro h
                    have : c' = (c : Int) := by
                      have := Option.some.inj h; omega
                    subst this
                    exact hkk (hg.2 k' k c hk' hk hcne)
                  · exact hc.resolve_left hci j (by omega)
          have hop := opened_set uniq re k c (i : Int) hk hcne hei (by rw [inv32_neg]; omega)
          have htn : ((k : Int)).toNat = k := by omega
          rw [htn]
          split
          · rename_i hz
            refine ⟨_, rfl, hset.1, fun k' c' hk' => ?_⟩
            rcases hset.2 k' c' hk' with ⟨hc, j, hj, hf, he⟩ | ⟨he, hc⟩
            · exact .inl ⟨hc, j, by omega, hf, he⟩
            · by_cases hci : c' = inv32
              · exact .inr ⟨he, .inl hci⟩
              · exact absurd he (opened_zero uniq _ (by omega) k' c' hk' hci)
          · rename_i hz
            exact ih (i + 1) _ (left - 1) hd' (by omega) hset (by omega) (by omega)
      · rw [he]
        simp only
        rw [if_neg (by omega)]
        refine ih (i + 1) re left hd' (by omega) (hkeep fun k' c' hk' hc' hr' hv' => ?_) hleft hpos
        have : c' = (c : Int) := by omega
        subst this
        have hkl : k' < uniq.length := (List.getElem?_eq_some_iff.1 hk').1
        exact hno k' hkl hk'
    · rw [if_neg hbv]
      refine ih (i + 1) re left hd' (by omega) (hkeep fun k' c' hk' hc' hr' hv' => ?_) hleft hpos
      have := (hg.1 c' (List.mem_iff_getElem?.2 ⟨k', hk'⟩)).resolve_left hc'
      omega

theorem opened_replicate : ∀ us : List Int, opened us (List.replicate us.length inv32) = 0 → ∀ u ∈ us, u = inv32 := by
  intro us h u hu
  obtain ⟨k, hk⟩ := List.mem_iff_getElem?.1 hu
  by_cases hne : u = inv32
  · exact hne
  · have := opened_zero us _ h k u hk hne
    rw [List.getElem?_replicate_of_lt (List.getElem?_eq_some_iff.1 hk).1] at this
    exact absurd rfl this

theorem findFirst_ok (t : IT) (hb : 0 < t.bits) (rows2 uniq : List Int) (n2 : Nat) (base2 : Int) (h0 : 0 ≤ base2) (ht : t.InRange base2)
    (hg : Good uniq n2) (hr2 : ∀ v ∈ rows2, t.InRange v ∧ v < base2 + (n2 : Int)) (hl : rows2.length < 2147483648) :
    ∃ re, findFirst t rows2 uniq n2 base2 = some (.ok re) ∧ ReOK rows2 uniq base2 rows2.length re := by
  obtain ⟨rev, h1, h2⟩ := revLoop_ok uniq n2 hg uniq 0 (List.replicate n2 (-1)) 0 (by simp) (by omega)
    ⟨by simp, fun c hc => .inr ⟨by simp [hc], fun k hk => by omega⟩⟩ (by simp [opened])
  unfold findFirst
  rw [h1]
  simp only
  rw [IT.wrap_of_inRange t hb ht]
  have hre : ReOK rows2 uniq base2 0 (List.replicate uniq.length inv32) := by
    refine ⟨by simp, fun k c hk => .inr ⟨?_, .inr fun j hj => by omega⟩⟩
    rw [List.getElem?_replicate_of_lt (List.getElem?_eq_some_iff.1 hk).1]
  split
  · rename_i hpos
    exact occLoop_ok t hb rows2 uniq n2 base2 rev h0 hg h2 hr2 hl rows2 0 _ _ (by simp) (by omega) hre rfl hpos
  · rename_i hz
    refine ⟨_, rfl, hre.1, fun k c hk => ?_⟩
    have := opened_replicate uniq (by omega) c (List.mem_iff_getElem?.2 ⟨k, hk⟩)
    refine .inr ⟨?_, .inl this⟩
    rw [List.getElem?_replicate_of_lt (List.getElem?_eq_some_iff.1 hk).1]

theorem matchRow_ok (t : IT) (hb : 0 < t.bits) (rows2 uniq : List Int) (base1 base2 : Int) (re : List Int) (h0 : 0 ≤ base1)
    (hre : ReOK rows2 uniq base2 rows2.length re) (v : Int) (hv : t.InRange v ∧ v < base1 + (uniq.length : Int)) :
    ∃ r, matchRow t re base1 v = some r ∧ RowSpec rows2 uniq base1 base2 v r := by
  unfold matchRow
  by_cases hbv : base1 ≤ v
  · rw [if_pos hbv, wrap_sub hb h0 hbv hv.1]
    obtain ⟨k, hk⟩ : ∃ k : Nat, v - base1 = (k : Int) := ⟨(v - base1).toNat, by omega⟩
    have hkl : k < uniq.length := by omega
    have hc : uniq[k]? = some uniq[k] := List.getElem?_eq_getElem hkl
    rw [hk, idx_nat]
    rcases hre.2 k _ hc with ⟨hcn, j, hj, hf, he⟩ | ⟨he, hcc⟩
    · rw [he]
      refine ⟨_, rfl, .inl ⟨?_, k, j, _, by omega, hc, hcn, hf, rfl⟩⟩
      have : (j : Int) ≠ inv32 := by rw [inv32_neg]; omega
      simpa using this
    · rw [he]
      refine ⟨_, rfl, .inr ⟨by simp, rfl, .inr ⟨k, _, by omega, hc, hcc.imp id fun h j => ?_⟩⟩⟩
      by_cases hj : j < rows2.length
      · exact h j hj
      · rw [List.getElem?_eq_none (by omega)]; simp
  · rw [if_neg hbv]
    exact ⟨_, rfl, .inr ⟨rfl, rfl, .inl (by omega)⟩⟩

/-- C106 (partial: rows refer to categories that exist, matched categories are different and exist, at most `2^31 - 1` rows): each row
says whether its category occurs in the second array, and where it does so first. -/
theorem fixup_partial (t1 t2 : IT) (hb1 : 0 < t1.bits) (hb2 : 0 < t2.bits) (rows1 rows2 uniq : List Int) (n2 : Nat) (base1 base2 : Int)
    (h1 : 0 ≤ base1) (h2 : 0 ≤ base2) (ht : t2.InRange base2) (hg : Good uniq n2)
    (hr1 : ∀ v ∈ rows1, t1.InRange v ∧ v < base1 + (uniq.length : Int))
    (hr2 : ∀ v ∈ rows2, t2.InRange v ∧ v < base2 + (n2 : Int)) (hl : rows2.length < 2147483648) :
    ∃ out, fixup t1 t2 rows1 rows2 uniq n2 base1 base2 = some (.ok out) ∧ out.length = rows1.length ∧
      ∀ (i : Nat) v, rows1[i]? = some v → ∃ r, out[i]? = some r ∧ RowSpec rows2 uniq base1 base2 v r := by
  obtain ⟨re, e, hre⟩ := findFirst_ok t2 hb2 rows2 uniq n2 base2 h2 ht hg hr2 hl
  unfold fixup
  rw [e]
  simp only [Option.bind_some]
  clear e
  induction rows1 with
  | nil => exact ⟨[], rfl, rfl, by simp⟩
  | cons v rows1 ih =>
    obtain ⟨out, e, hlen, hi⟩ := ih fun x hx => hr1 x (by simp [hx])
    obtain ⟨r, er, hr⟩ := matchRow_ok t1 hb1 rows2 uniq base1 base2 re h1 hre v (hr1 v (by simp))
    have e' : rows1.mapM (matchRow t1 re base1) = some out := by
      cases h : rows1.mapM (matchRow t1 re base1) with
      | none => rw [h] at e; simp at e
      | some o => rw [h] at e; simp at e; rw [e]
    refine ⟨r :: out, ?_, by simp [hlen], ?_⟩
    · rw [List.mapM_cons, er, e']; rfl
    · intro i w hw
      cases i with
      | zero =>
        simp only [List.getElem?_cons_zero, Option.some.injEq] at hw
        subst hw
        exact ⟨r, by simp, hr⟩
      | succ i =>
        obtain ⟨r', h1', h2'⟩ := hi i w (by simpa using hw)
        exact ⟨r', by simpa using h1', h2'⟩

/-- The example in the comment of `FindFirstOccurence`. -/
example : fixup .i8 .i8 [0, 3, 0, 4, 3, 2, 0, 2, 3] [0, 2, 3, 0, 1, 1, 4] [4, 2, 1, 0, 3] 5 0 0 =
    some (.ok [(true, 6), (true, 0), (true, 6), (true, 2), (true, 0), (true, 4), (true, 6), (true, 4), (true, 0)]) := by decide

example : Good [4, -2147483648, 1, 0, 3] 5 := by
  refine ⟨by decide, fun i j c hi hj hc => ?_⟩
  have h1 := (List.getElem?_eq_some_iff.1 hi)
  have h2 := (List.getElem?_eq_some_iff.1 hj)
  obtain ⟨h1, e1⟩ := h1
  obtain ⟨h2, e2⟩ := h2
  have hall : ∀ a b : Fin 5, ([4, -2147483648, 1, 0, 3] : List Int)[a] = ([4, -2147483648, 1, 0, 3] : List Int)[b] → a = b := by decide
  have := hall ⟨i, h1⟩ ⟨j, h2⟩ (e1.trans e2.symm)
  exact congrArg Fin.val this

/-- C106: rows with base 1, a filtered row (0) and a category that is missing. -/
example : fixup .i8 .i16 [1, 0, 2] [2, 1] [1, -2147483648] 2 1 1 = some (.ok [(true, 0), (false, -2147483648), (false, -2147483648)]) := by
  decide

/-- C106 does not hold when two categories of the first array are the same one of the second: only the last of them is found; … -/
theorem fixup_duplicate_wrong :
    fixup .i8 .i8 [0, 1] [0] [0, 0] 1 0 0 = some (.ok [(false, -2147483648), (true, 0)]) := by decide

/-- … a row of the second array beyond its categories reads outside of the reverse map, … -/
theorem fixup_rows2_undefined : fixup .i8 .i8 [0] [1] [0] 1 0 0 = none := by decide

/-- … and a row of the first array beyond its categories reads outside of the new index. -/
theorem fixup_rows1_undefined : fixup .i8 .i8 [1] [0] [0] 1 0 0 = none := by decide

/-- A negative offset lets the difference wrap around to a place before the reverse map. -/
theorem fixup_offset_undefined : fixup .i8 .i8 [0] [100] [0] 1 0 (-128) = none := by decide

/-- C106: a matched category that does not exist is reported. -/
theorem fixup_category_error : fixup .i8 .i8 [0] [0] [1] 1 0 0 = some .error := by decide

end Riptide.Cat
