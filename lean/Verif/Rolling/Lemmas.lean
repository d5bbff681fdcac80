import Verif.Rolling.Spec
import Verif.Rolling.Model
/-! Lemmas about loops over packed groups. -/
namespace Riptide.Rolling
open Spec Pack.Spec

variable {T U S : Type}

/-! ## Groups -/

theorem rowsOf_mem {keys : List Int} {b r : Nat} :
    r ∈ rowsOf keys b ↔ keys[r]? = some (b : Int) := by
  unfold rowsOf
  rw [List.mem_filter, List.mem_range]
  constructor
  · intro h; simpa using h.2
  · intro h; exact ⟨(List.getElem?_eq_some_iff.1 h).1, by simpa using h⟩

theorem rowsOf_nodup (keys : List Int) (b : Nat) : (rowsOf keys b).Nodup :=
  List.nodup_range.sublist List.filter_sublist

theorem rowsOf_get {keys : List Int} {b k r : Nat} (h : (rowsOf keys b)[k]? = some r) :
    keys[r]? = some (b : Int) := rowsOf_mem.1 (List.mem_of_getElem? h)

theorem rowsOf_lt {keys : List Int} {b k r : Nat} (h : (rowsOf keys b)[k]? = some r) :
    r < keys.length := (List.getElem?_eq_some_iff.1 (rowsOf_get h)).1

theorem nodup_pos {l : List Nat} (h : l.Nodup) {i j r : Nat} (hi : l[i]? = some r)
    (hj : l[j]? = some r) : i = j := by
  obtain ⟨h1, e1⟩ := List.getElem?_eq_some_iff.1 hi
  obtain ⟨h2, e2⟩ := List.getElem?_eq_some_iff.1 hj
  rcases Nat.lt_trichotomy i j with hij | hij | hij
  · exact absurd (e1.trans e2.symm) (List.pairwise_iff_getElem.1 h i j h1 h2 hij)
  · exact hij
  · exact absurd (e2.trans e1.symm) (List.pairwise_iff_getElem.1 h j i h2 h1 hij)

theorem rowsOf_unique {keys : List Int} {b b' k k' r : Nat} (h : (rowsOf keys b)[k]? = some r)
    (h' : (rowsOf keys b')[k']? = some r) : b = b' ∧ k = k' := by
  have e1 := rowsOf_get h
  have e2 := rowsOf_get h'
  rw [e1] at e2
  have hb : b = b' := by have := Option.some.inj e2; omega
  subst hb
  exact ⟨rfl, nodup_pos (rowsOf_nodup keys b) h h'⟩

theorem pick_eq {src : List T} {rows : List Nat} (h : ∀ r ∈ rows, r < src.length) :
    (pick src rows).length = rows.length ∧
    ∀ (k r : Nat), rows[k]? = some r → (pick src rows)[k]? = src[r]? := by
  unfold pick
  induction rows with
  | nil => exact ⟨rfl, fun k r hk => by simp at hk⟩
  | cons a rows ih =>
    obtain ⟨h1, h2⟩ := ih fun r hr => h r (by simp [hr])
    have ha := h a (by simp)
    rw [List.filterMap_cons, List.getElem?_eq_getElem ha]
    refine ⟨by simp [h1], fun k r hk => ?_⟩
    cases k with
    | zero =>
      have : a = r := by simpa using hk
      subst this
      simp [List.getElem?_eq_getElem ha]
    | succ k =>
      have := h2 k r (by simpa using hk)
      simpa using this

theorem groupVals_eq {keys : List Int} {src : List T} (h : src.length = keys.length) (b : Nat) :
    (groupVals keys src b).length = (rowsOf keys b).length ∧
    ∀ (k r : Nat), (rowsOf keys b)[k]? = some r → (groupVals keys src b)[k]? = src[r]? :=
  pick_eq fun r hr => by
    have := (List.getElem?_eq_some_iff.1 (rowsOf_mem.1 hr)).1
    omega

/-- Bin `i` of the packed arrays lists `rows`, starting at position `f`. -/
structure BinAt (P : Packed) (i : Int) (rows : List Nat) (f : Int) : Prop where
  first : rd P.first i = some f
  count : rd P.count i = some (rows.length : Int)
  group : ∀ (k r : Nat), rows[k]? = some r → rd P.group (f + k) = some (r : Int)

theorem rd_nat {a : List (Option Int)} {p : Nat} {v : Int} (h : a[p]? = some (some v)) :
    rd a (p : Int) = some v := by
  unfold rd
  rw [if_pos (by omega)]
  simp [h]

theorem binAt_of_slices {keys : List Int} {bins : Nat} {P : Packed}
    (h : Slices keys bins P.group P.first P.count) {b : Nat} (hb : b < bins) :
    ∃ f, BinAt P (b : Int) (rowsOf keys b) f := by
  obtain ⟨f, h1, h2, h3⟩ := h b hb
  refine ⟨f, rd_nat h1, rd_nat h2, fun k r hk => ?_⟩
  obtain ⟨p, e, hp⟩ := h3 k r hk
  rw [← e]
  exact rd_nat hp

theorem rdS_nat {src : List T} {r : Nat} : rdS src (r : Int) = src[r]? := by
  unfold rdS
  rw [if_pos (by omega)]
  simp

/-! ## Loops -/

/-- A loop visiting positions `q 0, q 1, …` of a bin. -/
theorem emitLoop_run {P : Packed} {g : S → Int → Int → Option (S × U)} {rows : List Nat} {f : Int}
    {i : Int} (hB : BinAt P i rows f) (St : Nat → S → Prop) (val : Nat → U) (q : Nat → Nat) (m : Nat)
    (hq : ∀ t, t < m → q t < rows.length)
    (hstep : ∀ t, t < m → ∀ s r, rows[q t]? = some r → St t s →
      ∃ s', g s (f + (q t : Int)) (r : Int) = some (s', val (q t)) ∧ St (t + 1) s')
    (s : S) (ws : List (Int × U)) (hs : St 0 s) :
    ∃ s' l, emitLoop P g ((List.range m).map fun t => f + (q t : Int)) (s, ws) = some (s', ws ++ l) ∧
      St m s' ∧ ∀ x, x ∈ l ↔ ∃ t r, t < m ∧ rows[q t]? = some r ∧ x = ((r : Int), val (q t)) := by
  induction m with
  | zero => exact ⟨s, [], by simp [emitLoop], hs, by simp⟩
  | succ m ih =>
    obtain ⟨s1, l, h1, h2, h3⟩ := ih (fun t ht => hq t (by omega)) (fun t ht => hstep t (by omega))
    have hlt := hq m (by omega)
    have hr : rows[q m]? = some rows[q m] := List.getElem?_eq_getElem hlt
    obtain ⟨s2, e, h4⟩ := hstep m (by omega) s1 _ hr h2
    refine ⟨s2, l ++ [((rows[q m] : Int), val (q m))], ?_, h4, ?_⟩
    · unfold emitLoop at h1 ⊢
      rw [List.range_succ, List.map_append, List.foldlM_append, h1]
      show List.foldlM (emitStep P g) (s1, ws ++ l) [f + (q m : Int)] = _
      rw [List.foldlM_cons]
      have : emitStep P g (s1, ws ++ l) (f + (q m : Int)) =
          some (s2, ws ++ l ++ [((rows[q m] : Int), val (q m))]) := by
        unfold emitStep
        rw [hB.group _ _ hr]
        show Option.map _ (g s1 _ _) = _
        rw [e]
        rfl
      rw [this]
      show some _ = _
      rw [List.append_assoc]
    · intro x
      rw [List.mem_append, h3]
      constructor
      · rintro (⟨t, r, ht, hr, e⟩ | h)
        · exact ⟨t, r, by omega, hr, e⟩
        · exact ⟨m, _, by omega, hr, by simpa using h⟩
      · rintro ⟨t, r, ht, hr', e⟩
        by_cases h : t = m
        · subst h
          rw [hr] at hr'
          cases hr'
          exact .inr (by simp [e])
        · exact .inl ⟨t, r, by omega, hr', e⟩

/-- The positions `a … c-1` upwards. -/
theorem emitLoop_up {P : Packed} {g : S → Int → Int → Option (S × U)} {rows : List Nat} {f : Int}
    {i : Int} (hB : BinAt P i rows f) (St : Nat → S → Prop) (val : Nat → U) (a c : Nat) (hac : a ≤ c)
    (hc : c ≤ rows.length)
    (hstep : ∀ k, a ≤ k → k < c → ∀ s r, rows[k]? = some r → St k s →
      ∃ s', g s (f + (k : Int)) (r : Int) = some (s', val k) ∧ St (k + 1) s')
    (s : S) (ws : List (Int × U)) (hs : St a s) :
    ∃ s' l, emitLoop P g (upTo (f + a) (f + c)) (s, ws) = some (s', ws ++ l) ∧ St c s' ∧
      ∀ x, x ∈ l ↔ ∃ k r, a ≤ k ∧ k < c ∧ rows[k]? = some r ∧ x = ((r : Int), val k) := by
  have e : upTo (f + a) (f + c) = (List.range (c - a)).map fun t => f + ((a + t : Nat) : Int) := by
    unfold upTo
    have : (f + (c : Int) - (f + a)).toNat = c - a := by omega
    rw [this]
    apply List.map_congr_left
    intro t _
    omega
  rw [e]
  obtain ⟨s', l, h1, h2, h3⟩ := emitLoop_run hB (fun t => St (a + t)) val (fun t => a + t) (c - a)
    (fun t ht => by omega) (fun t ht s r hr hs => hstep (a + t) (by omega) (by omega) s r hr hs) s ws hs
  refine ⟨s', l, h1, ?_, fun x => ?_⟩
  · have : a + (c - a) = c := by omega
    rw [this] at h2; exact h2
  · rw [h3]
    constructor
    · rintro ⟨t, r, ht, hr, e⟩
      exact ⟨a + t, r, by omega, by omega, hr, e⟩
    · rintro ⟨k, r, h1, h2, hr, e⟩
      have ek : a + (k - a) = k := by omega
      exact ⟨k - a, r, by omega, by rw [ek]; exact hr, by rw [ek]; exact e⟩

/-- The positions `c-1 … a` downwards. -/
theorem emitLoop_down {P : Packed} {g : S → Int → Int → Option (S × U)} {rows : List Nat} {f : Int}
    {i : Int} (hB : BinAt P i rows f) (St : Nat → S → Prop) (val : Nat → U) (a c : Nat) (hac : a ≤ c)
    (hc : c ≤ rows.length)
    (hstep : ∀ k, a ≤ k → k < c → ∀ s r, rows[k]? = some r → St (k + 1) s →
      ∃ s', g s (f + (k : Int)) (r : Int) = some (s', val k) ∧ St k s')
    (s : S) (ws : List (Int × U)) (hs : St c s) :
    ∃ s' l, emitLoop P g (downTo (f + c - 1) (f + a - 1)) (s, ws) = some (s', ws ++ l) ∧ St a s' ∧
      ∀ x, x ∈ l ↔ ∃ k r, a ≤ k ∧ k < c ∧ rows[k]? = some r ∧ x = ((r : Int), val k) := by
  have e : downTo (f + c - 1) (f + a - 1) =
      (List.range (c - a)).map fun t => f + ((c - 1 - t : Nat) : Int) := by
    unfold downTo
    have : (f + (c : Int) - 1 - (f + a - 1)).toNat = c - a := by omega
    rw [this]
    apply List.map_congr_left
    intro t ht
    have : t < c - a := by simpa using ht
    omega
  rw [e]
  obtain ⟨s', l, h1, h2, h3⟩ := emitLoop_run hB (fun t => St (c - t)) val (fun t => c - 1 - t) (c - a)
    (fun t ht => by omega) (fun t ht s r hr hs => by
      have e1 : c - t = c - 1 - t + 1 := by omega
      have e2 : c - (t + 1) = c - 1 - t := by omega
      rw [e1] at hs
      show ∃ s', g s _ _ = _ ∧ St (c - (t + 1)) s'
      rw [e2]
      exact hstep (c - 1 - t) (by omega) (by omega) s r hr hs) s ws hs
  refine ⟨s', l, h1, ?_, fun x => ?_⟩
  · have : c - (c - a) = a := by omega
    rw [this] at h2; exact h2
  · rw [h3]
    constructor
    · rintro ⟨t, r, ht, hr, e⟩
      exact ⟨c - 1 - t, r, by omega, by omega, hr, e⟩
    · rintro ⟨k, r, h1, h2, hr, e⟩
      have ek : c - 1 - (c - 1 - k) = k := by omega
      exact ⟨c - 1 - k, r, by omega, by rw [ek]; exact hr, by rw [ek]; exact e⟩

theorem upTo_nil {a b : Int} (h : b ≤ a) : upTo a b = [] := by
  unfold upTo
  have : (b - a).toNat = 0 := by omega
  rw [this]; rfl

theorem downTo_nil {a b : Int} (h : a ≤ b) : downTo a b = [] := by
  unfold downTo
  have : (a - b).toNat = 0 := by omega
  rw [this]; rfl

/-- The writes of a bin: every row once, with the value of its position. -/
def BinWrites (rows : List Nat) (val : Nat → U) (l : List (Int × U)) : Prop :=
  ∀ x, x ∈ l ↔ ∃ (k r : Nat), rows[k]? = some r ∧ x = ((r : Int), val k)

theorem add64_some {a b : Int} (h : IT.i64.lo ≤ a + b ∧ a + b ≤ IT.i64.hi) :
    add64 a b = some (a + b) := if_pos h

/-- The two loops of a forward kernel. -/
theorem forward_run {P : Packed} {g1 g2 : S → Int → Int → Option (S × U)} {rows : List Nat} {f : Int}
    {i : Int} (hB : BinAt P i rows f) (w : Nat)
    (h64 : IT.i64.lo ≤ f + w ∧ f + w ≤ IT.i64.hi) (hV : P.vt.wrap (f + w) = f + w)
    (St : Nat → S → Prop) (val : Nat → U) (s0 : S) (hs : St 0 s0)
    (h1 : ∀ k, k < w → ∀ s r, rows[k]? = some r → St k s →
      ∃ s', g1 s (f + (k : Int)) (r : Int) = some (s', val k) ∧ St (k + 1) s')
    (h2 : ∀ k, w ≤ k → ∀ s r, rows[k]? = some r → St k s →
      ∃ s', g2 s (f + (k : Int)) (r : Int) = some (s', val k) ∧ St (k + 1) s') :
    ∃ l, forward P g1 g2 s0 w i = some l ∧ BinWrites rows val l := by
  unfold forward
  rw [hB.first, hB.count]
  simp only [Option.bind_some]
  rw [add64_some h64]
  simp only [Option.bind_some]
  rw [hV]
  by_cases hw : w ≤ rows.length
  · have em : min (f + (rows.length : Int)) (f + w) = f + (w : Int) := by omega
    rw [em]
    obtain ⟨s1, l1, e1, hs1, m1⟩ := emitLoop_up (g := g1) hB St val 0 w (by omega) hw
      (fun k _ hk s r => h1 k hk s r) s0 [] hs
    have e0 : f + ((0 : Nat) : Int) = f := by omega
    rw [e0] at e1
    rw [e1]
    obtain ⟨s2, l2, e2, _, m2⟩ := emitLoop_up (g := g2) hB St val w rows.length hw (by omega)
      (fun k hk _ s r => h2 k hk s r) s1 ([] ++ l1) hs1
    simp only [Option.bind_some]
    rw [e2]
    refine ⟨_, rfl, fun x => ?_⟩
    rw [List.nil_append, List.mem_append, m1, m2]
    constructor
    · rintro (⟨k, r, _, _, hr, e⟩ | ⟨k, r, _, _, hr, e⟩) <;> exact ⟨k, r, hr, e⟩
    · rintro ⟨k, r, hr, e⟩
      have := (List.getElem?_eq_some_iff.1 hr).1
      by_cases hk : k < w
      · exact .inl ⟨k, r, by omega, hk, hr, e⟩
      · exact .inr ⟨k, r, by omega, this, hr, e⟩
  · have em : min (f + (rows.length : Int)) (f + w) = f + (rows.length : Int) := by omega
    rw [em, upTo_nil (show f + (rows.length : Int) ≤ f + w by omega)]
    obtain ⟨s1, l1, e1, _, m1⟩ := emitLoop_up (g := g1) hB St val 0 rows.length (by omega) (by omega)
      (fun k _ hk s r => h1 k (by omega) s r) s0 [] hs
    have e0 : f + ((0 : Nat) : Int) = f := by omega
    rw [e0] at e1
    rw [e1]
    refine ⟨[] ++ l1, rfl, fun x => ?_⟩
    rw [List.nil_append, m1]
    constructor
    · rintro ⟨k, r, _, _, hr, e⟩; exact ⟨k, r, hr, e⟩
    · rintro ⟨k, r, hr, e⟩
      exact ⟨k, r, by omega, (List.getElem?_eq_some_iff.1 hr).1, hr, e⟩

/-- The two loops of a backward kernel without state. -/
theorem backward_run {P : Packed} {g1 g2 : Unit → Int → Int → Option (Unit × U)} {rows : List Nat}
    {f : Int} {i : Int} (hB : BinAt P i rows f) (w : Nat)
    (h64 : IT.i64.lo ≤ f + rows.length - 1 + -(w : Int) ∧ f + rows.length - 1 + -(w : Int) ≤ IT.i64.hi)
    (hV : P.vt.wrap (f + rows.length - 1 + -(w : Int)) = f + rows.length - 1 + -(w : Int))
    (val : Nat → U)
    (h1 : ∀ k, rows.length ≤ k + w → ∀ r, rows[k]? = some r →
      g1 () (f + (k : Int)) (r : Int) = some ((), val k))
    (h2 : ∀ k, k + w < rows.length → ∀ r, rows[k]? = some r →
      g2 () (f + (k : Int)) (r : Int) = some ((), val k)) :
    ∃ l, backward P g1 g2 () w i = some l ∧ BinWrites rows val l := by
  unfold backward
  rw [hB.first, hB.count]
  simp only [Option.bind_some]
  rw [add64_some h64]
  simp only [Option.bind_some]
  rw [hV]
  have hn : (f + (rows.length : Int) - 1) = f + ((rows.length : Nat) : Int) - 1 := rfl
  by_cases hw : w ≤ rows.length
  · have em : max (f - 1) (f + (rows.length : Int) - 1 + -(w : Int)) =
        f + ((rows.length - w : Nat) : Int) - 1 := by omega
    have el : f + (rows.length : Int) - 1 + -(w : Int) = f + ((rows.length - w : Nat) : Int) - 1 := by
      omega
    have e0 : f - 1 = f + ((0 : Nat) : Int) - 1 := by omega
    rw [em, el, e0]
    obtain ⟨s1, l1, e1, hs1, m1⟩ := emitLoop_down (g := g1) hB (fun _ _ => True) val
      (rows.length - w) rows.length (by omega) (by omega)
      (fun k hk _ s r hr _ => ⟨(), h1 k (by omega) r hr, trivial⟩) () [] trivial
    rw [e1]
    obtain ⟨s2, l2, e2, _, m2⟩ := emitLoop_down (g := g2) hB (fun _ _ => True) val 0
      (rows.length - w) (by omega) (by omega)
      (fun k _ hk s r hr _ => ⟨(), h2 k (by omega) r hr, trivial⟩) s1 ([] ++ l1) trivial
    simp only [Option.bind_some]
    rw [e2]
    refine ⟨_, rfl, fun x => ?_⟩
    rw [List.nil_append, List.mem_append, m1, m2]
    constructor
    · rintro (⟨k, r, _, _, hr, e⟩ | ⟨k, r, _, _, hr, e⟩) <;> exact ⟨k, r, hr, e⟩
    · rintro ⟨k, r, hr, e⟩
      have := (List.getElem?_eq_some_iff.1 hr).1
      by_cases hk : k < rows.length - w
      · exact .inr ⟨k, r, by omega, hk, hr, e⟩
      · exact .inl ⟨k, r, by omega, this, hr, e⟩
  · have em : max (f - 1) (f + (rows.length : Int) - 1 + -(w : Int)) = f + ((0 : Nat) : Int) - 1 := by
      omega
    rw [em, downTo_nil (show f + (rows.length : Int) - 1 + -(w : Int) ≤ f - 1 by omega)]
    obtain ⟨s1, l1, e1, hs1, m1⟩ := emitLoop_down (g := g1) hB (fun _ _ => True) val
      0 rows.length (by omega) (by omega)
      (fun k hk _ s r hr _ => ⟨(), h1 k (by omega) r hr, trivial⟩) () [] trivial
    rw [e1]
    refine ⟨[] ++ l1, rfl, fun x => ?_⟩
    rw [List.nil_append, m1]
    constructor
    · rintro ⟨k, r, _, _, hr, e⟩; exact ⟨k, r, hr, e⟩
    · rintro ⟨k, r, hr, e⟩
      exact ⟨k, r, by omega, (List.getElem?_eq_some_iff.1 hr).1, hr, e⟩

theorem zeroBin_run {P : Packed} {rows : List Nat} {f : Int} (hB : BinAt P 0 rows f) (inv : U) :
    ∃ l, zeroBin P inv = some l ∧ BinWrites rows (fun _ => inv) l := by
  unfold zeroBin
  rw [hB.first, hB.count]
  simp only [Option.bind_some]
  obtain ⟨s1, l1, e1, _, m1⟩ := emitLoop_up (g := invStep inv) hB (fun _ _ => True) (fun _ => inv) 0
    rows.length (by omega) (by omega) (fun k _ _ s r _ _ => ⟨s, rfl, trivial⟩) () [] trivial
  have e0 : f + ((0 : Nat) : Int) = f := by omega
  rw [e0] at e1
  rw [e1]
  refine ⟨[] ++ l1, rfl, fun x => ?_⟩
  rw [List.nil_append, m1]
  constructor
  · rintro ⟨k, r, _, _, hr, e⟩; exact ⟨k, r, hr, e⟩
  · rintro ⟨k, r, hr, e⟩
    exact ⟨k, r, by omega, (List.getElem?_eq_some_iff.1 hr).1, hr, e⟩

/-! ## All bins -/

theorem overBins_run {bin : Int → Option (List (Int × U))} {lo hi : Nat} {M : Nat → List (Int × U) → Prop}
    (h : ∀ b, lo ≤ b → b < hi → ∃ l, bin (b : Int) = some l ∧ M b l) :
    ∃ ws, overBins bin lo hi = some ws ∧
      ∃ L : Nat → List (Int × U), (∀ b, lo ≤ b → b < hi → M b (L b)) ∧
      ∀ x, x ∈ ws ↔ ∃ b, lo ≤ b ∧ b < hi ∧ x ∈ L b := by
  let L : Nat → List (Int × U) := fun b => (bin (b : Int)).getD []
  have hL : ∀ b, lo ≤ b → b < hi → bin (b : Int) = some (L b) ∧ M b (L b) := by
    intro b h1 h2
    obtain ⟨l, e, hl⟩ := h b h1 h2
    have : L b = l := by show (bin (b : Int)).getD [] = l; rw [e]; rfl
    rw [this]; exact ⟨e, hl⟩
  have hm : (upTo (lo : Int) (hi : Int)).mapM bin = some ((upTo (lo : Int) (hi : Int)).map fun i => L i.toNat) := by
    apply mapM_some
    intro i hi'
    unfold upTo at hi'
    obtain ⟨k, hk, rfl⟩ := List.mem_map.1 hi'
    have hk : k < ((hi : Int) - (lo : Int)).toNat := by simpa using hk
    have e : (lo : Int) + (k : Int) = ((lo + k : Nat) : Int) := by omega
    rw [e]
    have := (hL (lo + k) (by omega) (by omega)).1
    have e2 : ((lo : Int) + (k : Int)).toNat = lo + k := by omega
    rw [this]
    show some (L (lo + k)) = some (L ((lo + k : Nat) : Int).toNat)
    rw [Int.toNat_natCast]
  refine ⟨((upTo (lo : Int) (hi : Int)).map fun i => L i.toNat).flatten, ?_, L,
    fun b h1 h2 => (hL b h1 h2).2, ?_⟩
  · unfold overBins
    rw [hm]; rfl
  · intro x
    rw [List.mem_flatten]
    constructor
    · rintro ⟨l, hl, hx⟩
      obtain ⟨i, hi', rfl⟩ := List.mem_map.1 hl
      unfold upTo at hi'
      obtain ⟨k, hk, rfl⟩ := List.mem_map.1 hi'
      have hk : k < ((hi : Int) - (lo : Int)).toNat := by simpa using hk
      have e : ((lo : Int) + (k : Int)).toNat = lo + k := by omega
      rw [e] at hx
      exact ⟨lo + k, by omega, by omega, hx⟩
    · rintro ⟨b, h1, h2, hx⟩
      refine ⟨L b, List.mem_map.2 ⟨(b : Int), ?_, by simp⟩, hx⟩
      unfold upTo
      exact List.mem_map.2 ⟨b - lo, by simp; omega, by omega⟩

/-- A run of writes that agree on every slot. -/
theorem runWrites_get {n : Nat} {ws : List (Nat × U)} (h1 : ∀ w ∈ ws, w.1 < n)
    (h2 : ∀ w ∈ ws, ∀ w' ∈ ws, w.1 = w'.1 → w.2 = w'.2) :
    ∃ out, runWrites n ws = some out ∧ out.length = n ∧ (∀ w ∈ ws, out[w.1]? = some (some w.2)) ∧
      ∀ i, i < n → (∀ w ∈ ws, w.1 ≠ i) → out[i]? = some none := by
  cases ws with
  | nil =>
    refine ⟨List.replicate n none, rfl, by simp, by simp, fun i hi _ => ?_⟩
    rw [List.getElem?_replicate, if_pos hi]
  | cons w0 ws0 =>
    generalize hws : w0 :: ws0 = ws at *
    let f : Nat → U := fun i => ((ws.find? fun w => w.1 == i).map Prod.snd).getD w0.2
    have hf : ∀ w ∈ ws, w.2 = f w.1 := by
      intro w hw
      show w.2 = ((ws.find? fun w' => w'.1 == w.1).map Prod.snd).getD w0.2
      cases hfd : ws.find? fun w' => w'.1 == w.1 with
      | none =>
        have := List.find?_eq_none.1 hfd w hw
        simp at this
      | some w' =>
        have hm := List.mem_of_find?_eq_some hfd
        have he := List.find?_some hfd
        exact h2 w hw w' hm (by simpa using he : w'.1 = w.1).symm
    rw [runWrites_eq f h1 hf]
    refine ⟨_, rfl, by simp, fun w hw => ?_, fun i hi hn => ?_⟩
    · rw [List.getElem?_map, List.getElem?_range (h1 w hw)]
      show some (if w.1 ∈ ws.map Prod.fst then _ else _) = _
      rw [if_pos (List.mem_map.2 ⟨w, hw, rfl⟩), hf w hw]
    · rw [List.getElem?_map, List.getElem?_range hi]
      show some (if i ∈ ws.map Prod.fst then _ else _) = _
      rw [if_neg]
      intro hm
      obtain ⟨w, hw, e⟩ := List.mem_map.1 hm
      exact hn w hw e

theorem store_get {n : Nat} {ws : List (Int × U)} (h1 : ∀ w ∈ ws, ∃ r : Nat, w.1 = (r : Int) ∧ r < n)
    (h2 : ∀ w ∈ ws, ∀ w' ∈ ws, w.1 = w'.1 → w.2 = w'.2) :
    ∃ out, store n ws = some out ∧ out.length = n ∧
      (∀ (r : Nat) v, ((r : Int), v) ∈ ws → out[r]? = some (some v)) ∧
      ∀ i : Nat, i < n → (∀ w ∈ ws, w.1 ≠ (i : Int)) → out[i]? = some none := by
  unfold store
  rw [if_pos]
  · obtain ⟨out, e, hl, h3, h4⟩ := runWrites_get (n := n) (ws := ws.map fun w => (w.1.toNat, w.2))
      (fun w hw => by
        obtain ⟨x, hx, rfl⟩ := List.mem_map.1 hw
        obtain ⟨r, e, hr⟩ := h1 x hx
        show x.1.toNat < n
        omega)
      (fun w hw w' hw' he => by
        obtain ⟨x, hx, rfl⟩ := List.mem_map.1 hw
        obtain ⟨x', hx', rfl⟩ := List.mem_map.1 hw'
        obtain ⟨r, e, hr⟩ := h1 x hx
        obtain ⟨r', e', hr'⟩ := h1 x' hx'
        have he : x.1.toNat = x'.1.toNat := he
        exact h2 x hx x' hx' (by omega))
    refine ⟨out, e, hl, fun r v hv => ?_, fun i hi hn => h4 i hi ?_⟩
    · have := h3 (r, v) (List.mem_map.2 ⟨_, hv, by simp⟩)
      exact this
    · intro w hw he
      obtain ⟨x, hx, rfl⟩ := List.mem_map.1 hw
      obtain ⟨r, e, hr⟩ := h1 x hx
      have he : x.1.toNat = i := he
      exact hn x hx (by omega)
  · rw [List.all_eq_true]
    intro w hw
    obtain ⟨r, e, hr⟩ := h1 w hw
    simp [e]

/-- A kernel over all bins of packed groups: every row gets the value of its bin and position. -/
theorem rolling_run {keys : List Int} {bins : Nat} {P : Packed} (hb0 : 0 < bins)
    (hS : Slices keys bins P.group P.first P.count)
    (hk : ∀ (i : Nat) (k : Int), keys[i]? = some k → 0 ≤ k ∧ k < (bins : Int))
    (inv : U) (bin : Int → Option (List (Int × U))) (val : Nat → Nat → U)
    (hbin : ∀ b, 1 ≤ b → b < bins → ∃ l, bin (b : Int) = some l ∧ BinWrites (rowsOf keys b) (val b) l) :
    ∃ ws, rolling P inv bin 0 bins = some ws ∧
      ∃ out, store keys.length ws = some out ∧ out.length = keys.length ∧
        (∀ b k r, b < bins → (rowsOf keys b)[k]? = some r →
          out[r]? = some (some (if b = 0 then inv else val b k))) ∧
        ∀ r, r < keys.length → ∃ v, out[r]? = some (some v) := by
  obtain ⟨f0, hB0⟩ := binAt_of_slices hS hb0
  obtain ⟨l0, e0, m0⟩ := zeroBin_run hB0 inv
  obtain ⟨ws, e, L, hL, hm⟩ := overBins_run (lo := 1) (hi := bins)
    (M := fun b l => BinWrites (rowsOf keys b) (val b) l) hbin
  have hmem : ∀ x, x ∈ l0 ++ ws ↔ ∃ (b k r : Nat), b < bins ∧ (rowsOf keys b)[k]? = some r ∧
      x = ((r : Int), if b = 0 then inv else val b k) := by
    intro x
    rw [List.mem_append, m0, hm]
    constructor
    · rintro (⟨k, r, hr, rfl⟩ | ⟨b, h1, h2, hx⟩)
      · exact ⟨0, k, r, hb0, hr, by simp⟩
      · obtain ⟨k, r, hr, rfl⟩ := (hL b h1 h2 x).1 hx
        exact ⟨b, k, r, h2, hr, by rw [if_neg (by omega)]⟩
    · rintro ⟨b, k, r, h2, hr, rfl⟩
      by_cases hb : b = 0
      · subst hb
        exact .inl ⟨k, r, hr, by simp⟩
      · refine .inr ⟨b, by omega, h2, (hL b (by omega) h2 _).2 ⟨k, r, hr, by rw [if_neg hb]⟩⟩
  refine ⟨l0 ++ ws, ?_, ?_⟩
  · unfold rolling
    rw [if_pos rfl, e0]
    simp only [Option.bind_some]
    have : overBins bin 1 (bins : Int) = some ws := e
    rw [this]; rfl
  · obtain ⟨out, ho, hl, hg, _⟩ := store_get (n := keys.length) (ws := l0 ++ ws)
      (fun w hw => by
        obtain ⟨b, k, r, _, hr, rfl⟩ := (hmem w).1 hw
        exact ⟨r, rfl, rowsOf_lt hr⟩)
      (fun w hw w' hw' he => by
        obtain ⟨b, k, r, _, hr, rfl⟩ := (hmem w).1 hw
        obtain ⟨b', k', r', _, hr', rfl⟩ := (hmem w').1 hw'
        have he : (r : Int) = (r' : Int) := he
        have : r = r' := by omega
        subst this
        obtain ⟨rfl, rfl⟩ := rowsOf_unique hr hr'
        rfl)
    have key : ∀ b k r, b < bins → (rowsOf keys b)[k]? = some r →
          out[r]? = some (some (if b = 0 then inv else val b k)) := fun b k r hb hr =>
      hg r _ ((hmem _).2 ⟨b, k, r, hb, hr, rfl⟩)
    refine ⟨out, ho, hl, key, fun r hr => ?_⟩
    have hkr : keys[r]? = some keys[r] := List.getElem?_eq_getElem hr
    obtain ⟨h1, h2⟩ := hk r _ hkr
    have hmr : r ∈ rowsOf keys (keys[r]).toNat := rowsOf_mem.2 (by
      rw [hkr]; congr 1; omega)
    obtain ⟨k, hk'⟩ := List.mem_iff_getElem?.1 hmr
    exact ⟨_, key _ k r (by omega) hk'⟩

end Riptide.Rolling
