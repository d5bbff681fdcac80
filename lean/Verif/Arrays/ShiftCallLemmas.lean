import Verif.Arrays.ShiftCallSpec
import Verif.Common.Lists
import Verif.Sds.SaveLemmas
/-! # Lemmas about `ShiftArrays` -/
namespace Riptide.Nums.Shift
open Riptide.Nums Riptide.Binary Spec
open Riptide.Mask.Call.Spec (inC)

/-! ### Moves which are not in the way of each other -/

/-- The move writes the byte. -/
def Writes (v : Move) (p : Int) : Prop := v.dst ≤ p ∧ p < v.dst + v.n

/-- The move reads the byte. -/
def Reads (v : Move) (p : Int) : Prop := v.src ≤ p ∧ p < v.src + v.n

theorem move_ok {M : Mem} {v : Move} (h : ∀ p, Writes v p ∨ Reads v p → (M p).isSome = true) :
    move M v = some fun p => if v.dst ≤ p ∧ p < v.dst + v.n then M (v.src + (p - v.dst)) else M p := by
  unfold move
  rw [if_pos]
  rw [List.all_eq_true]
  intro i hi
  have hi := List.mem_range.1 hi
  rw [Bool.and_eq_true]
  exact ⟨h _ (.inr ⟨by omega, by omega⟩), h _ (.inl ⟨by omega, by omega⟩)⟩

theorem harmless_writes {v w : Move} (h : harmless v w = true) (p : Int) : Writes v p → ¬ Writes w p ∧ ¬ Reads w p := by
  simp only [harmless, apart, Bool.and_eq_true, decide_eq_true_eq] at h
  unfold Writes Reads
  omega

theorem harmless_reads {v w : Move} (h : harmless v w = true) (p : Int) : Writes w p → ¬ Reads v p := by
  simp only [harmless, apart, Bool.and_eq_true, decide_eq_true_eq] at h
  unfold Writes Reads
  omega

/-- Moves which are not in the way of each other, in any order: every one of them moves what was there at first. -/
theorem moves_all : ∀ (vs : List Move) (M : Mem), (∀ v ∈ vs, ∀ p, Writes v p ∨ Reads v p → (M p).isSome = true) →
    vs.Pairwise (fun v w => harmless v w = true) →
    ∃ M', vs.foldlM move M = some M' ∧ (∀ p, (∀ v ∈ vs, ¬ Writes v p) → M' p = M p) ∧
      ∀ v ∈ vs, ∀ p, Writes v p → M' p = M (v.src + (p - v.dst))
  | [], M, _, _ => ⟨M, rfl, fun _ _ => rfl, by simp⟩
  | v :: vs, M, h, hp => by
    have hp := List.pairwise_cons.1 hp
    obtain ⟨M', h1, h2, h3⟩ := moves_all vs (fun p => if v.dst ≤ p ∧ p < v.dst + v.n then M (v.src + (p - v.dst)) else M p)
      (by
        intro w hw p hwp
        split
        · exact h v (by simp) _ (.inr ⟨by omega, by omega⟩)
        · exact h w (by simp [hw]) p hwp) hp.2
    refine ⟨M', ?_, ?_, ?_⟩
    · rw [List.foldlM_cons, move_ok (h v (by simp))]
      exact h1
    · intro p hn
      rw [h2 p fun w hw => hn w (by simp [hw])]
      have := hn v (by simp)
      unfold Writes at this
      rw [if_neg this]
    · intro w hw p hwp
      rcases List.mem_cons.1 hw with rfl | hw
      · rw [h2 p fun u hu => (harmless_writes (hp.1 u hu) p hwp).1]
        exact if_pos hwp
      · rw [h3 w hw p hwp]
        have := (fun hv => (harmless_writes (hp.1 w hw) (w.src + (p - w.dst)) hv).2)
        unfold Writes at this hwp
        rw [if_neg]
        intro hc
        exact this hc ⟨by omega, by omega⟩

theorem harmless_symm {v w : Move} (h : harmless v w = true) : harmless w v = true := by
  simp only [harmless, apart, Bool.and_eq_true, decide_eq_true_eq] at h ⊢
  omega

/-- What is written is only what the moves write, also when they are in the way of each other. -/
theorem moves_only : ∀ (vs : List Move) (M M' : Mem), vs.foldlM move M = some M' → ∀ p, (∀ v ∈ vs, ¬ Writes v p) → M' p = M p
  | [], M, M', h, p, _ => by rw [← Option.some.inj h]
  | v :: vs, M, M', h, p, hn => by
    rw [List.foldlM_cons] at h
    obtain ⟨M1, h1, h2⟩ := Option.bind_eq_some_iff.1 h
    rw [moves_only vs M1 M' h2 p fun w hw => hn w (by simp [hw])]
    unfold move at h1
    split at h1
    · rw [← Option.some.inj h1]
      exact if_neg (hn v (by simp))
    · cases h1

/-! ### The moves of one array -/

/-- The moves of an array stay inside of its bytes. -/
def Stays (l : Lay) (vs : List Move) : Prop := ∀ v ∈ vs, ∀ p, Writes v p ∨ Reads v p → 0 ≤ p ∧ p < ((l.len * l.item : Nat) : Int)

theorem flat_stays (l : Lay) (k : Int) (vs : List Move) (h : flat l.len l.item k = some vs) : Stays l vs ∧ vs.Pairwise (fun v w => harmless v w = true) := by
  unfold flat at h
  split at h
  · split at h
    · rename_i hm
      rw [← Option.some.inj h]
      refine ⟨?_, by simp⟩
      intro v hv p hp
      rw [List.mem_singleton.1 hv] at hp
      unfold Writes Reads ends at hp
      unfold moved at hm hp
      generalize l.len = n at *
      generalize hi : l.item = I at *
      by_cases hk : k < 0
      · obtain ⟨j, rfl⟩ : ∃ j : Nat, k = -(j : Int) := ⟨(-k).toNat, by omega⟩
        simp only [if_pos hk] at hp hm
        obtain ⟨r, hr⟩ : ∃ r : Nat, n = r + j := ⟨n - j, by omega⟩
        subst hr
        have e : (((r + j : Nat) : Int) + -(j : Int)).toNat = r := by omega
        rw [e] at hp
        have e2 : (r + j) * I = r * I + j * I := Nat.add_mul ..
        have e3 : -(-(j : Int) * (I : Int)) = ((j * I : Nat) : Int) := by simp [Int.neg_mul]
        rw [e2]
        rw [e3] at hp
        omega
      · obtain ⟨j, rfl⟩ : ∃ j : Nat, k = (j : Int) := ⟨k.toNat, by omega⟩
        simp only [if_neg hk] at hp hm
        obtain ⟨r, hr⟩ : ∃ r : Nat, n = r + j := ⟨n - j, by omega⟩
        subst hr
        have e : (((r + j : Nat) : Int) - (j : Int)).toNat = r := by omega
        rw [e] at hp
        have e2 : (r + j) * I = r * I + j * I := Nat.add_mul ..
        have e3 : ((j : Int) * (I : Int)) = ((j * I : Nat) : Int) := by simp
        rw [e2]
        rw [e3] at hp
        omega
    · rw [← Option.some.inj h]
      exact ⟨by simp [Stays], .nil⟩
  · cases h

/-- The columns, with numbers which are not negative: `r` rows of `n` are moved by `j`, down or up. -/
theorem columns_eq {rows cols item : Nat} {k : Int} {vs : List Move} (h : columns rows cols item k = some vs) :
    vs = [] ∧ moved rows k ≤ 0 ∨ ∃ r : Nat, rows = r + k.natAbs ∧ 0 < r ∧ vs = (List.range cols).map fun (i : Nat) =>
      ⟨(((if k < 0 then k.natAbs * item else 0) + i * (rows * item) : Nat) : Int), (((if k < 0 then 0 else k.natAbs * item) + i * (rows * item) : Nat) : Int), r * item⟩ := by
  unfold columns at h
  split at h
  · split at h
    · rename_i hm
      right
      unfold moved at hm h
      unfold ends at h
      by_cases hk : k < 0
      · obtain ⟨j, rfl⟩ : ∃ j : Nat, k = -(j : Int) := ⟨(-k).toNat, by omega⟩
        have ea : (-(j : Int)).natAbs = j := by omega
        simp only [if_pos hk] at hm h
        refine ⟨rows - j, by omega, by omega, ?_⟩
        rw [← Option.some.inj h]
        refine List.map_congr_left fun i _ => ?_
        have e : ((rows : Int) + -(j : Int)).toNat = rows - j := by omega
        have e3 : -(-(j : Int) * (item : Int)) = ((j * item : Nat) : Int) := by simp [Int.neg_mul]
        rw [e, e3, if_pos hk, if_pos hk, ea]
        simp only [Move.mk.injEq]
        generalize i * (rows * item) = z
        refine ⟨by omega, by omega, trivial⟩
      · obtain ⟨j, rfl⟩ : ∃ j : Nat, k = (j : Int) := ⟨k.toNat, by omega⟩
        have ea : (j : Int).natAbs = j := by omega
        simp only [if_neg hk] at hm h
        refine ⟨rows - j, by omega, by omega, ?_⟩
        rw [← Option.some.inj h]
        refine List.map_congr_left fun i _ => ?_
        have e : ((rows : Int) - (j : Int)).toNat = rows - j := by omega
        have e3 : ((j : Int) * (item : Int)) = ((j * item : Nat) : Int) := by simp
        rw [e, e3, if_neg hk, if_neg hk, ea]
        simp only [Move.mk.injEq]
        generalize i * (rows * item) = z
        refine ⟨by omega, by omega, trivial⟩
    · rename_i hm
      exact .inl ⟨(Option.some.inj h).symm, by omega⟩
  · cases h

theorem flat_eq {len item : Nat} {k : Int} {vs : List Move} (h : flat len item k = some vs) :
    vs = [] ∧ moved len k ≤ 0 ∨ ∃ r : Nat, len = r + k.natAbs ∧ 0 < r ∧
      vs = [⟨((if k < 0 then k.natAbs * item else 0 : Nat) : Int), ((if k < 0 then 0 else k.natAbs * item : Nat) : Int), r * item⟩] := by
  have hc : flat len item k = some vs → vs = [] ∧ moved len k ≤ 0 ∨ 0 < moved len k ∧ vs = [⟨(ends k item).1, (ends k item).2, (moved len k).toNat * item⟩] := by
    intro h
    unfold flat at h
    split at h
    · split at h
      · rename_i hm
        exact .inr ⟨hm, (Option.some.inj h).symm⟩
      · exact .inl ⟨(Option.some.inj h).symm, by omega⟩
    · cases h
  rcases hc h with h | ⟨hm, h⟩
  · exact .inl h
  · right
    rw [h]
    unfold moved at hm ⊢
    unfold ends
    by_cases hk : k < 0
    · obtain ⟨j, rfl⟩ : ∃ j : Nat, k = -(j : Int) := ⟨(-k).toNat, by omega⟩
      have ea : (-(j : Int)).natAbs = j := by omega
      simp only [if_pos hk] at hm ⊢
      refine ⟨len - j, by omega, by omega, ?_⟩
      have e : ((len : Int) + -(j : Int)).toNat = len - j := by omega
      have e3 : -(-(j : Int) * (item : Int)) = ((j * item : Nat) : Int) := by simp [Int.neg_mul]
      rw [e, e3, ea]
      rfl
    · obtain ⟨j, rfl⟩ : ∃ j : Nat, k = (j : Int) := ⟨k.toNat, by omega⟩
      have ea : (j : Int).natAbs = j := by omega
      simp only [if_neg hk] at hm ⊢
      refine ⟨len - j, by omega, by omega, ?_⟩
      have e : ((len : Int) - (j : Int)).toNat = len - j := by omega
      have e3 : ((j : Int) * (item : Int)) = ((j * item : Nat) : Int) := by simp
      rw [e, e3, ea]
      rfl

/-- Column `i` is inside of the bytes. -/
theorem column_in {i cols z : Nat} (h : i < cols) : i * z + z ≤ cols * z := by
  rw [← Nat.succ_mul]
  exact Nat.mul_le_mul_right z h

theorem columns_stays {rows cols item : Nat} {k : Int} {vs : List Move} (h : columns rows cols item k = some vs) :
    Stays ⟨[rows, cols], [], item⟩ vs ∧ vs.Pairwise (fun v w => harmless v w = true) := by
  rcases columns_eq h with ⟨rfl, _⟩ | ⟨r, hr, h0, rfl⟩
  · exact ⟨by simp [Stays], .nil⟩
  · have e2 : rows * item = r * item + k.natAbs * item := by rw [hr, Nat.add_mul]
    constructor
    · intro v hv p hp
      obtain ⟨i, hi, rfl⟩ := List.mem_map.1 hv
      have hc := column_in (z := rows * item) (List.mem_range.1 hi)
      have e : Lay.len ⟨[rows, cols], [], item⟩ * item = cols * (rows * item) := by
        simp only [Lay.len, prod, Nat.mul_one]
        rw [Nat.mul_comm rows cols, Nat.mul_assoc]
      simp only [Writes, Reads] at hp
      rw [e]
      generalize i * (rows * item) = z at *
      generalize cols * (rows * item) = y at *
      split at hp <;> omega
    · rw [List.pairwise_map]
      refine List.Pairwise.imp ?_ (List.pairwise_lt_range (n := cols))
      intro i j hij
      have := column_in (z := rows * item) hij
      simp only [harmless, apart, Bool.and_eq_true, decide_eq_true_eq]
      generalize i * (rows * item) = z at *
      generalize j * (rows * item) = y at *
      split <;> omega

theorem plan_stays {l : Lay} {k : Int} {vs : List Move} (h : plan l k = some vs) : Stays l vs ∧ vs.Pairwise (fun v w => harmless v w = true) := by
  unfold plan at h
  split at h
  · split at h
    · rename_i rows cols hd
      have := columns_stays h
      unfold Stays Lay.len at this ⊢
      rw [hd]
      exact this
    · rw [← Option.some.inj h]
      exact ⟨by simp [Stays], .nil⟩
  · exact flat_stays l k vs h

/-- The moves of an item of the list, in the memory. -/
theorem moves_stays {M : Mem} {k : Int} {x : Item} {vs : List Move} (h : moves M k x = some vs) :
    vs.Pairwise (fun v w => harmless v w = true) ∧ ∀ v ∈ vs, ∀ p, Writes v p ∨ Reads v p →
      ∃ a base, x = .array a base ∧ (a.lay.cContig || a.lay.fContig) = true ∧ Inside a.lay base p := by
  cases x with
  | pyNone => rw [← Option.some.inj h]; exact ⟨.nil, by simp⟩
  | other => rw [← Option.some.inj h]; exact ⟨.nil, by simp⟩
  | array a base =>
    unfold moves at h
    simp only at h
    by_cases hc : (a.lay.cContig || a.lay.fContig) = true
    · have ht : Info.taken true true a (fun o => M (base + o)) = some (a, (fun o => M (base + o)), false) := by
        simp only [Info.taken, Info.ensure, hc, if_pos]
      rw [ht] at h
      obtain ⟨l, hl, rfl⟩ := Option.map_eq_some_iff.1 h
      obtain ⟨h1, h2⟩ := plan_stays hl
      constructor
      · simp only [Bool.false_eq_true, if_false]
        rw [List.pairwise_map]
        refine h2.imp ?_
        intro v w hvw
        simp only [harmless, apart, Bool.and_eq_true, decide_eq_true_eq] at hvw ⊢
        omega
      · intro v hv p hp
        simp only [Bool.false_eq_true, if_false] at hv
        obtain ⟨u, hu, rfl⟩ := List.mem_map.1 hv
        refine ⟨a, base, rfl, hc, ?_⟩
        have := h1 u hu (p - base) (by unfold Writes Reads at hp ⊢; simp only at hp; omega)
        unfold Inside
        omega
    · have ht : Info.taken true true a (fun o => M (base + o)) = some ((Info.copyOf a (fun o => M (base + o))).1, (Info.copyOf a (fun o => M (base + o))).2, true) := by
        simp only [Info.taken, Info.ensure, hc]
        rfl
      rw [ht] at h
      obtain ⟨l, hl, rfl⟩ := Option.map_eq_some_iff.1 h
      exact ⟨.nil, by simp⟩

/-! ### The moves of all arrays -/

theorem harmless_of_zones {v w : Move} (h : ∀ p, Writes v p ∨ Reads v p → ¬ (Writes w p ∨ Reads w p)) : harmless v w = true := by
  have h1 := h v.dst
  have h2 := h w.dst
  have h3 := h v.src
  have h4 := h w.src
  unfold Writes Reads at *
  simp only [harmless, apart, Bool.and_eq_true, decide_eq_true_eq]
  omega

theorem mapM_cons_some {α β : Type} {f : α → Option β} {x : α} {l : List α} {r : List β} (h : (x :: l).mapM f = some r) :
    ∃ y s, f x = some y ∧ l.mapM f = some s ∧ r = y :: s := by
  rw [List.mapM_cons] at h
  obtain ⟨y, hy, h⟩ := Option.bind_eq_some_iff.1 h
  obtain ⟨s, hs, h⟩ := Option.bind_eq_some_iff.1 h
  exact ⟨y, s, hy, hs, (Option.some.inj h).symm⟩

theorem mapM_mem {α β : Type} {f : α → Option β} : ∀ {l : List α} {r : List β}, l.mapM f = some r → ∀ y ∈ r, ∃ x ∈ l, f x = some y
  | [], r, h => by
    rw [← Option.some.inj h]
    simp
  | x :: l, r, h => by
    obtain ⟨z, s, hz, hs, rfl⟩ := mapM_cons_some h
    intro y hy
    rcases List.mem_cons.1 hy with rfl | hy
    · exact ⟨x, by simp, hz⟩
    · obtain ⟨u, hu, e⟩ := mapM_mem hs y hy
      exact ⟨u, by simp [hu], e⟩

theorem mapM_mem' {α β : Type} {f : α → Option β} : ∀ {l : List α} {r : List β}, l.mapM f = some r → ∀ x ∈ l, ∃ y ∈ r, f x = some y
  | [], r, h => by simp
  | x :: l, r, h => by
    obtain ⟨z, s, hz, hs, rfl⟩ := mapM_cons_some h
    intro y hy
    rcases List.mem_cons.1 hy with rfl | hy
    · exact ⟨z, by simp, hz⟩
    · obtain ⟨u, hu, e⟩ := mapM_mem' hs y hy
      exact ⟨u, by simp [hu], e⟩

theorem mapM_all {α β : Type} {f : α → Option β} : ∀ (l : List α), (∀ x ∈ l, ∃ y, f x = some y) → ∃ r, l.mapM f = some r ∧ r.length = l.length
  | [], _ => ⟨[], rfl, rfl⟩
  | x :: l, h => by
    obtain ⟨y, hy⟩ := h x (by simp)
    obtain ⟨r, hr, e⟩ := mapM_all l fun z hz => h z (by simp [hz])
    exact ⟨y :: r, by rw [List.mapM_cons, hy, hr]; rfl, by simp [e]⟩

theorem jobs_harmless {M : Mem} {k : Int} : ∀ {l : List Item} {ls : List (List Move)}, l.mapM (moves M k) = some ls → Separate l →
    ls.Pairwise fun r s => ∀ v ∈ r, ∀ w ∈ s, harmless v w = true
  | [], ls, h, _ => by
    rw [← Option.some.inj h]
    exact .nil
  | x :: l, ls, h, hs => by
    obtain ⟨y, s, hy, hl, rfl⟩ := mapM_cons_some h
    have hs := List.pairwise_cons.1 hs
    refine List.pairwise_cons.2 ⟨?_, jobs_harmless hl hs.2⟩
    intro r hr v hv w hw
    obtain ⟨z, hz, e⟩ := mapM_mem hl r hr
    refine harmless_of_zones fun p hp hq => ?_
    obtain ⟨a, b, hx, _, hi⟩ := (moves_stays hy).2 v hv p hp
    obtain ⟨c, d, hx', _, hi'⟩ := (moves_stays e).2 w hw p hq
    exact hs.1 z hz a c b d hx hx' p hi hi'

theorem no_races : ∀ {ls : List (List Move)}, (ls.Pairwise fun r s => ∀ v ∈ r, ∀ w ∈ s, harmless v w = true) → races ls = false
  | [], _ => rfl
  | r :: ls, h => by
    have h := List.pairwise_cons.1 h
    unfold races
    rw [no_races h.2, Bool.or_false, List.any_eq_false]
    intro s hs
    simp only [Bool.not_eq_true, List.any_eq_false, Bool.not_eq_false']
    intro v hv w hw
    simp [h.1 s hs v hv w hw]

theorem flatten_harmless : ∀ {ls : List (List Move)}, (ls.Pairwise fun r s => ∀ v ∈ r, ∀ w ∈ s, harmless v w = true) →
    (∀ r ∈ ls, r.Pairwise fun v w => harmless v w = true) → ls.flatten.Pairwise fun v w => harmless v w = true := by
  intro ls h h1
  rw [List.pairwise_flatten]
  exact ⟨h1, h⟩

theorem order_flatten (ls : List (List Move)) (order : List Nat) (ho : order.Perm (List.range ls.length)) :
    (order.flatMap fun (i : Nat) => ls.getD i []).Perm ls.flatten := by
  have h1 := Mask.Call.flatMap_perm_left (fun (i : Nat) => ls.getD i []) ho
  have h2 : (List.range ls.length).map (fun (i : Nat) => ls.getD i []) = ls := by
    apply List.ext_getElem
    · simp
    · intro i h h'
      simp [List.getD, h']
  have h3 : (List.range ls.length).flatMap (fun (i : Nat) => ls.getD i []) = ls.flatten := by
    rw [List.flatMap_def, h2]
  rw [← h3]
  exact h1

/-- The call when every array is taken and they lie in different places. -/
theorem shift_runs (threads : Bool) (room : Nat → Bool) (M : Mem) (l : List Item) (k : Int) (order : List Nat) (hk : fits k = true)
    (hb : ∃ es t, Info.build true room false true (.items (l.map (Item.arg M))) = .ok es t) (hm : ∀ x ∈ l, ∃ vs, moves M k x = some vs)
    (ht : ∀ a base, .array a base ∈ l → (a.lay.cContig || a.lay.fContig) = true → There M a.lay base) (hs : Separate l)
    (ho : order.Perm (List.range l.length)) :
    ∃ M', shift threads true room M (.items l) k order = .done M' ∧
      (∀ x ∈ l, ∀ vs, moves M k x = some vs → ∀ v ∈ vs, ∀ p, Writes v p → M' p = M (v.src + (p - v.dst))) ∧
      ∀ p, (∀ x ∈ l, ∀ vs, moves M k x = some vs → ∀ v ∈ vs, ¬ Writes v p) → M' p = M p := by
  obtain ⟨es, t, hb⟩ := hb
  obtain ⟨ls, hls, hlen⟩ := mapM_all l hm
  have hj := jobs_harmless hls hs
  have hp := order_flatten ls order (by rw [hlen]; exact ho)
  have hw : ∀ v ∈ ls.flatten, ∃ x ∈ l, ∃ vs, moves M k x = some vs ∧ v ∈ vs := by
    intro v hv
    obtain ⟨vs, hvs, hv⟩ := List.mem_flatten.1 hv
    obtain ⟨x, hx, e⟩ := mapM_mem hls vs hvs
    exact ⟨x, hx, vs, e, hv⟩
  obtain ⟨M', h1, h2, h3⟩ := moves_all (order.flatMap fun (i : Nat) => ls.getD i []) M
    (by
      intro v hv p hvp
      obtain ⟨x, hx, vs, e, hv⟩ := hw v (hp.mem_iff.1 hv)
      obtain ⟨a, base, rfl, hc, hi⟩ := (moves_stays e).2 v hv p hvp
      exact ht a base hx hc p hi)
    (by
      refine (hp.pairwise_iff fun h => harmless_symm h).2 (flatten_harmless hj ?_)
      intro r hr
      obtain ⟨x, hx, e⟩ := mapM_mem hls r hr
      exact (moves_stays e).1)
  refine ⟨M', ?_, ?_, ?_⟩
  · unfold shift
    rw [if_pos hk]
    simp only [Given.list, hb, hls, runJobs, no_races hj, Bool.and_false, h1]
    rfl
  · intro x hx vs e v hv p hpv
    obtain ⟨ws, hws, e'⟩ := mapM_mem' hls x hx
    rw [e] at e'
    rw [← Option.some.inj e'] at hws
    exact h3 v (hp.mem_iff.2 (List.mem_flatten.2 ⟨vs, hws, hv⟩)) p hpv
  · intro p hn
    refine h2 p fun v hv => ?_
    obtain ⟨x, hx, vs, e, hv⟩ := hw v (hp.mem_iff.1 hv)
    exact hn x hx vs e v hv

/-! ### Taking the arrays -/

theorem entries_ok {room : Nat → Bool} : ∀ (l : List Info.Arg) (i : Nat), (∀ x ∈ l, ∀ r, ∃ e, Info.entry false true r x = .ok e) →
    ∃ es, Info.entries false true room i l = .ok es
  | [], _, _ => ⟨[], rfl⟩
  | x :: l, i, h => by
    obtain ⟨e, he⟩ := h x (by simp) (room i)
    obtain ⟨es, hes⟩ := entries_ok (room := room) l (i + 1) fun y hy => h y (by simp [hy])
    exact ⟨e :: es, by simp only [Info.entries, he, hes]⟩

theorem build_ok {room : Nat → Bool} {l : List Info.Arg} (h : ∀ x ∈ l, ∀ r, ∃ e, Info.entry false true r x = .ok e) :
    ∃ es t, Info.build true room false true (.items l) = .ok es t := by
  obtain ⟨es, hes⟩ := entries_ok (room := room) l 0 h
  refine ⟨es, (es.map (·.item)).sum, ?_⟩
  unfold Info.build
  have : Info.sameRows false es = true := by
    cases es <;> rfl
  simp only [Info.Obj.list, hes, this]
  rfl

/-- The array itself is taken. -/
theorem taken_self {a : Arr} {m : Mem} {r : Bool} (h : (a.lay.cContig || a.lay.fContig) = true) : Info.taken true r a m = some (a, m, false) := by
  simp only [Info.taken, Info.ensure, h, if_pos]

theorem entry_ok {M : Mem} {a : Arr} {base : Int} {r : Bool} (hc : (a.lay.cContig || a.lay.fContig) = true) (ht : a.type ≤ 20)
    (hs : ∃ s ss, a.lay.strides = s :: ss ∧ (a.lay.dims.length = 1 → s = a.lay.item)) :
    ∃ e, Info.entry false true r (Item.arg M (.array a base)) = .ok e := by
  obtain ⟨s, ss, hs, h1⟩ := hs
  simp only [Item.arg, Info.entry, taken_self hc, Info.entryOf, hs]
  rw [if_neg (by omega), if_neg (by simp), if_neg (by intro ⟨h, _, h2⟩; exact h (h1 h2))]
  exact ⟨_, rfl⟩

end Riptide.Nums.Shift
