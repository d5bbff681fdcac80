import Verif.Asof.Model
import Verif.Asof.Spec
import Verif.Hash.LoopLemmas
/-! # The merge walk finds the last handled row -/
namespace Riptide.Asof
open Riptide.Hash

variable {K V : Type}

/-- The right rows (of those listed) that left row `a` may be matched with. -/
def elig [DecidableEq K] [Inhabited K] (valid : V → Bool) (before : V → V → Bool) (key1 key2 : List K)
    (a b : Nat × V) : Bool :=
  valid b.2 && !before a.2 b.2 && decide (key2.getD b.1 default = key1.getD a.1 default)

/-- The answer for left row `a`: the last of them. -/
def answer [DecidableEq K] [Inhabited K] (valid : V → Bool) (before : V → V → Bool) (key1 key2 : List K)
    (bs : List (Nat × V)) (a : Nat × V) : Option Nat :=
  if valid a.2 then ((bs.filter (elig valid before key1 key2 a)).getLast?).map Prod.fst else none

/-- What the map holds after the right rows `pb`. -/
def stored [DecidableEq K] [Inhabited K] (valid : V → Bool) (key2 : List K) (pb : List (Nat × V)) (k : K) :
    Option Nat :=
  ((pb.filter fun b => valid b.2 && decide (key2.getD b.1 default = k)).getLast?).map Prod.fst

theorem walk_spec [DecidableEq K] [Inhabited K] (valid : V → Bool) (before : V → V → Bool) (key1 key2 : List K)
    (as bs : List (Nat × V)) :
    ∀ (pb : List (Nat × V)) (m : K → Option Nat) (out : List (Nat × Option Nat)),
    (∀ k, m k = stored valid key2 pb k) →
    (∀ b ∈ pb, valid b.2 = true → ∀ a ∈ as, valid a.2 = true → before a.2 b.2 = false) →
    as.Pairwise (fun a a' => valid a.2 = true → valid a'.2 = true →
      ∀ y, valid y = true → before a'.2 y = true → before a.2 y = true) →
    bs.Pairwise (fun b b' => valid b.2 = true → valid b'.2 = true →
      ∀ x, valid x = true → before x b.2 = true → before x b'.2 = true) →
    (mapLoop (asofPlan key1 key2) asofNext m out (walk valid before as bs)).2 =
      out ++ as.map fun a => (a.1, answer valid before key1 key2 (pb ++ bs) a) := by
  induction as, bs using walk.induct (valid := valid) (before := before) with
  | case1 bs => intro pb m out _ _ _ _; simp [walk, mapLoop]
  | case2 a as ih =>
    intro pb m out hm hpb hA hB
    have hpb' : ∀ b ∈ pb, valid b.2 = true → ∀ a ∈ as, valid a.2 = true → before a.2 b.2 = false :=
      fun b hb hv a' ha' => hpb b hb hv a' (by simp [ha'])
    have ih := fun out => ih pb m out hm hpb' (List.pairwise_cons.mp hA).2 hB
    unfold walk
    cases hv : valid a.2 with
    | false =>
      rw [if_neg (by simp)]
      show (mapLoop _ _ m (out ++ [(a.1, none)]) _).2 = _
      rw [ih]
      simp [answer, hv]
    | true =>
      rw [if_pos rfl]
      show (mapLoop _ _ m (out ++ [(a.1, m (key1.getD a.1 default))]) _).2 = _
      rw [ih, hm]
      have : answer valid before key1 key2 (pb ++ []) a = stored valid key2 pb (key1.getD a.1 default) := by
        unfold answer stored
        rw [if_pos hv, List.append_nil]
        congr 2
        apply List.filter_congr
        intro b hb
        unfold elig
        cases hvb : valid b.2 with
        | false => simp
        | true => simp [hpb b hb hvb a (by simp) hv]
      rw [List.map_cons, this, List.append_assoc]; rfl
  | case3 a as b bs hv ih =>
    intro pb m out hm hpb hA hB
    have hv : valid a.2 = false := by simpa using hv
    unfold walk
    rw [if_pos (by simp [hv])]
    show (mapLoop _ _ m (out ++ [(a.1, none)]) _).2 = _
    rw [ih pb m _ hm (fun b hb hv a' ha' => hpb b hb hv a' (by simp [ha'])) (List.pairwise_cons.mp hA).2 hB]
    simp [answer, hv]
  | case4 a as b bs hv hvb ih =>
    intro pb m out hm hpb hA hB
    have hvb : valid b.2 = false := by simpa using hvb
    unfold walk
    rw [if_neg (by simpa using hv), if_pos (by simp [hvb])]
    rw [ih (pb ++ [b]) m out ?_ ?_ hA (List.pairwise_cons.mp hB).2]
    · simp
    · intro k; rw [hm k]; unfold stored; simp [hvb]
    · intro b' hb' hv'
      rcases List.mem_append.mp hb' with h | h
      · exact hpb b' h hv'
      · have : b' = b := by simpa using h
        subst this; rw [hvb] at hv'; simp at hv'
  | case5 a as b bs hv hvb hbef ih =>
    intro pb m out hm hpb hA hB
    have hv : valid a.2 = true := by simpa using hv
    have hvb : valid b.2 = true := by simpa using hvb
    unfold walk
    rw [if_neg (by simp [hv]), if_neg (by simp [hvb]), if_pos hbef]
    show (mapLoop _ _ m (out ++ [(a.1, m (key1.getD a.1 default))]) _).2 = _
    rw [ih pb m _ hm (fun b hb hv a' ha' => hpb b hb hv a' (by simp [ha'])) (List.pairwise_cons.mp hA).2 hB, hm]
    have : answer valid before key1 key2 (pb ++ b :: bs) a = stored valid key2 pb (key1.getD a.1 default) := by
      unfold answer stored
      rw [if_pos hv, List.filter_append]
      have hnil : (b :: bs).filter (elig valid before key1 key2 a) = [] := by
        rw [List.filter_eq_nil_iff]
        intro b' hb'
        unfold elig
        rcases List.mem_cons.mp hb' with rfl | hb'
        · simp [hbef]
        · cases hvb' : valid b'.2 with
          | false => simp
          | true => simp [(List.pairwise_cons.mp hB).1 b' hb' hvb hvb' a.2 hv hbef]
      rw [hnil, List.append_nil]
      congr 2
      apply List.filter_congr
      intro b hb
      unfold elig
      cases hvb : valid b.2 with
      | false => simp
      | true => simp [hpb b hb hvb a (by simp) hv]
    simp [this]
  | case6 a as b bs hv hvb hbef ih =>
    intro pb m out hm hpb hA hB
    have hv : valid a.2 = true := by simpa using hv
    have hvb : valid b.2 = true := by simpa using hvb
    have hbef : before a.2 b.2 = false := by simpa using hbef
    unfold walk
    rw [if_neg (by simp [hv]), if_neg (by simp [hvb]), if_neg (by simp [hbef])]
    show (mapLoop _ _ (mapPut m (key2.getD b.1 default) b.1 (fun _ => b.1)) out _).2 = _
    rw [ih (pb ++ [b]) _ out ?_ ?_ hA (List.pairwise_cons.mp hB).2]
    · simp
    · intro k
      unfold mapPut stored
      rw [List.filter_append]
      by_cases hk : k = key2.getD b.1 default
      · subst hk
        rw [if_pos rfl]
        have : ((m (key2.getD b.1 default)).map fun _ => b.1).getD b.1 = b.1 := by
          cases m (key2.getD b.1 default) <;> rfl
        rw [this]
        have e : List.filter (fun b_1 : Nat × V => valid b_1.2 && decide (key2.getD b_1.1 default = key2.getD b.1 default)) [b] = [b] := by
          simp [hvb]
        rw [e]; simp
      · rw [if_neg hk, hm k]
        have e : List.filter (fun b_1 : Nat × V => valid b_1.2 && decide (key2.getD b_1.1 default = k)) [b] = [] := by
          simp only [List.filter_cons, List.filter_nil]
          rw [if_neg]; simp only [hvb, Bool.true_and, decide_eq_true_eq]; exact fun h => hk h.symm
        rw [e, List.append_nil]; rfl
    · intro b' hb' hv' a' ha' hva'
      rcases List.mem_append.mp hb' with h | h
      · exact hpb b' h hv' a' ha' hva'
      · have : b' = b := by simpa using h
        subst this
        rcases List.mem_cons.mp ha' with rfl | ha'
        · exact hbef
        · cases hc : before a'.2 b'.2 with
          | false => rfl
          | true =>
            have := (List.pairwise_cons.mp hA).1 a' ha' hv hva' b'.2 hv' hc
            rw [hbef] at this; simp at this

end Riptide.Asof
