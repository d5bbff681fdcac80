import Verif.Median.Model
import Verif.Median.Spec
import Verif.Quick.Props
import Verif.Rolling.Props
/-! Lemmas on order statistics, and on copying the groups. -/
namespace Riptide.Median
open Spec
open Rolling (Packed rd srcAt upTo overBins store BinAt perBin_run srcAt_group groupVals_eq binAt_of_slices)
open Rolling.Spec (groupVals)
open Pack.Spec (rowsOf Slices)
open Riptide.Sort.Spec (Weak)

variable {α U : Type} {P : α → Prop} {lt : α → α → Bool}

/-! ## Ranks -/

theorem Rank.perm {l l' : List α} {k : Nat} {x : α} (h : Rank lt l k x) (hp : l.Perm l') : Rank lt l' k x :=
  ⟨hp.mem_iff.1 h.1, by rw [← hp.countP_eq]; exact h.2.1, by rw [← hp.countP_eq]; exact h.2.2⟩

theorem rank_of_split (W : Weak P lt) {l : List α} {k : Nat} {x : α} (hP : ∀ y ∈ l, P y) (hx : l[k]? = some x)
    (h1 : ∀ y ∈ l.take k, lt x y = false) (h2 : ∀ y ∈ l.drop k, lt y x = false) : Rank lt l k x := by
  have hk := (List.getElem?_eq_some_iff.1 hx).1
  have hm := List.mem_of_getElem? hx
  have hirr : lt x x = false := Quick.irrefl W (hP x hm)
  refine ⟨hm, ?_, ?_⟩
  · rw [← List.take_append_drop k l, List.countP_append]
    have e : (l.drop k).countP (fun y => lt y x) = 0 := by
      rw [List.countP_eq_zero]
      intro y hy
      rw [h2 y hy]; exact Bool.false_ne_true
    have : (l.take k).countP (fun y => lt y x) ≤ (l.take k).length := List.countP_le_length
    rw [List.length_take] at this
    omega
  · have e : (l.take (k + 1)).countP (fun y => !lt x y) = (l.take (k + 1)).length := by
      rw [List.countP_eq_length]
      intro y hy
      rw [List.take_add_one, List.mem_append] at hy
      rcases hy with hy | hy
      · rw [h1 y hy]; rfl
      · rw [hx] at hy
        have : y = x := by simpa using hy
        rw [this, hirr]; rfl
    have h3 : l.countP (fun y => !lt x y) =
        (l.take (k + 1)).countP (fun y => !lt x y) + (l.drop (k + 1)).countP (fun y => !lt x y) := by
      rw [← List.countP_append, List.take_append_drop]
    rw [List.length_take] at e
    omega

/-- In a sorted list the element at `k` has rank `k`. -/
theorem rank_sorted (W : Weak P lt) {s : List α} (hP : ∀ y ∈ s, P y) (hs : s.Pairwise fun x y => lt y x = false)
    {k : Nat} {x : α} (hx : s[k]? = some x) : Rank lt s k x := by
  obtain ⟨hk, he⟩ := List.getElem?_eq_some_iff.1 hx
  rw [List.pairwise_iff_getElem] at hs
  refine rank_of_split W hP hx ?_ ?_
  · intro y hy
    obtain ⟨i, hi, rfl⟩ := List.mem_iff_getElem.1 hy
    rw [List.length_take] at hi
    rw [List.getElem_take, ← he]
    exact hs i k (by omega) hk (by omega)
  · intro y hy
    obtain ⟨i, hi, rfl⟩ := List.mem_iff_getElem.1 hy
    rw [List.length_drop] at hi
    rw [List.getElem_drop, ← he]
    by_cases h0 : i = 0
    · subst h0
      exact Quick.irrefl W (hP _ (List.getElem_mem ..))
    · exact hs k (k + i) hk (by omega) (by omega)

theorem countP_le_of_imp (p q : α → Bool) (l : List α) (h : ∀ x ∈ l, p x = true → q x = true) :
    l.countP p ≤ l.countP q := List.countP_mono_left h

theorem Rank.le (W : Weak P lt) {l : List α} (hP : ∀ y ∈ l, P y) {k k' : Nat} {x y : α} (hx : Rank lt l k x)
    (hy : Rank lt l k' y) (h : k ≤ k') : lt y x = false := by
  cases hc : lt y x with
  | false => rfl
  | true =>
    have : l.countP (fun z => !lt y z) ≤ l.countP (fun z => lt z x) := countP_le_of_imp _ _ l fun z hz hq => by
      cases hd : lt z x with
      | true => rfl
      | false =>
        have e : lt y z = false := by simpa using hq
        have h1 := W.trans x z y (hP x hx.1) (hP z hz) (hP y hy.1) hd e
        rw [hc] at h1; exact h1.symm
    have h1 := hx.2.1
    have h2 := hy.2.2
    omega

theorem getNth_spec {nth : List α → Nat → List α} (W : Weak P lt) (hn : NthElement P lt nth) {l : List α} {n : Nat}
    (hP : ∀ x ∈ l, P x) (h : n < l.length) :
    ∃ x, getNth nth l n = some x ∧ Rank lt l n x ∧ (nth l n).Perm l ∧ (nth l n)[n]? = some x ∧
      (∀ y ∈ (nth l n).take n, lt x y = false) ∧ ∀ y ∈ (nth l n).drop n, lt y x = false := by
  obtain ⟨h1, h2⟩ := hn l n hP h
  have hl : n < (nth l n).length := by rw [h1.length_eq]; exact h
  have hx := List.getElem?_eq_getElem hl
  obtain ⟨h3, h4⟩ := h2 _ hx
  have hP' : ∀ y ∈ nth l n, P y := fun y hy => hP y (h1.mem_iff.1 hy)
  refine ⟨_, ?_, Rank.perm (rank_of_split W hP' hx h3 h4) h1, h1, hx, h3, h4⟩
  unfold getNth
  rw [if_pos h, hx]

theorem maxElem_spec (W : Weak P lt) {l : List α} (hP : ∀ x ∈ l, P x) (h : l ≠ []) :
    ∃ m, maxElem lt l = some m ∧ m ∈ l ∧ ∀ y ∈ l, lt m y = false := by
  cases l with
  | nil => exact absurd rfl h
  | cons x xs =>
    refine ⟨_, rfl, ?_⟩
    have gen : ∀ (ys pre : List α) (m : α), (∀ y ∈ pre ++ ys, P y) → m ∈ pre → (∀ y ∈ pre, lt m y = false) →
        ys.foldl (fun m y => if lt m y then y else m) m ∈ pre ++ ys ∧
          ∀ y ∈ pre ++ ys, lt (ys.foldl (fun m y => if lt m y then y else m) m) y = false := by
      intro ys
      induction ys with
      | nil => intro pre m _ hm hle; simpa using ⟨hm, hle⟩
      | cons y ys ih =>
        intro pre m hP hm hle
        rw [List.foldl_cons]
        have e : pre ++ y :: ys = (pre ++ [y]) ++ ys := by simp
        rw [e] at hP ⊢
        have hPm := hP m (by simp [hm])
        have hPy := hP y (by simp)
        by_cases hc : lt m y = true
        · rw [if_pos hc]
          refine ih _ _ hP (by simp) fun z hz => ?_
          rcases List.mem_append.1 hz with hz | hz
          · exact W.trans z m y (hP z (by simp [hz])) hPm hPy (hle z hz) (W.asymm m y hPm hPy hc)
          · rw [List.mem_singleton.1 hz]; exact Quick.irrefl W hPy
        · rw [if_neg hc]
          refine ih _ _ hP (by simp [hm]) fun z hz => ?_
          rcases List.mem_append.1 hz with hz | hz
          · exact hle z hz
          · rw [List.mem_singleton.1 hz]; simpa using hc
    exact gen xs [x] x hP (by simp) fun y hy => by
      rw [List.mem_singleton.1 hy]; exact Quick.irrefl W (hP x (by simp))

/-- The largest value before position `u` has the rank before. -/
theorem lower_rank {nth : List α → Nat → List α} (W : Weak P lt) (hn : NthElement P lt nth) {l : List α} {d : Nat}
    (hP : ∀ x ∈ l, P x) (h : d + 1 < l.length) :
    ∃ y, maxElem lt ((nth l (d + 1)).take (d + 1)) = some y ∧ Rank lt l d y := by
  obtain ⟨x, _, _, hp, hx, h1, h2⟩ := getNth_spec W hn hP h
  generalize nth l (d + 1) = a at hp hx h1 h2
  have hlen := hp.length_eq
  have hPa : ∀ y ∈ a, P y := fun y hy => hP y (hp.mem_iff.1 hy)
  have hPt : ∀ y ∈ a.take (d + 1), P y := fun y hy => hPa y (List.mem_of_mem_take hy)
  obtain ⟨y, e, hm, hmax⟩ := maxElem_spec W hPt (by
    intro hc
    have := congrArg List.length hc
    rw [List.length_take, List.length_nil] at this
    omega)
  refine ⟨y, e, Rank.perm (l := a) ⟨List.mem_of_mem_take hm, ?_, ?_⟩ hp⟩
  · rw [← List.take_append_drop (d + 1) a, List.countP_append]
    have e0 : (a.drop (d + 1)).countP (fun z => lt z y) = 0 := by
      rw [List.countP_eq_zero]
      intro z hz
      have hPx := hPa x (List.mem_of_getElem? hx)
      have := W.trans y x z (hPt y hm) hPx (hPa z (List.mem_of_mem_drop hz)) (h1 y hm) (h2 z hz)
      rw [this]; exact Bool.false_ne_true
    have e1 : (a.take (d + 1)).countP (fun z => lt z y) < (a.take (d + 1)).length := by
      rw [Nat.lt_iff_le_and_ne]
      refine ⟨List.countP_le_length, fun hc => ?_⟩
      rw [List.countP_eq_length] at hc
      have := hc y hm
      rw [Quick.irrefl W (hPt y hm)] at this
      cases this
    rw [List.length_take] at e1
    omega
  · have e1 : (a.take (d + 1)).countP (fun z => !lt y z) = (a.take (d + 1)).length := by
      rw [List.countP_eq_length]
      intro z hz
      rw [hmax z hz]; rfl
    have h3 : a.countP (fun z => !lt y z) =
        (a.take (d + 1)).countP (fun z => !lt y z) + (a.drop (d + 1)).countP (fun z => !lt y z) := by
      rw [← List.countP_append, List.take_append_drop]
    rw [List.length_take] at e1
    omega

/-! ## NaNs at the end -/

theorem stripTail_eq {eq : α → α → Bool} {s : List α}
    (h : s.Pairwise fun x y => eq x x = false → eq y y = false) :
    stripTail eq s = s.filter fun x => eq x x := by
  unfold stripTail
  have hr : s.reverse.Pairwise fun y x => eq x x = false → eq y y = false := by
    rw [List.pairwise_reverse]; exact h
  have gen : ∀ r : List α, (r.Pairwise fun y x => eq x x = false → eq y y = false) →
      r.dropWhile (fun x => !eq x x) = r.filter fun x => eq x x := by
    intro r
    induction r with
    | nil => intro _; rfl
    | cons y r ih =>
      intro hp
      rw [List.pairwise_cons] at hp
      cases hy : eq y y with
      | false =>
        rw [List.dropWhile_cons_of_pos (by rw [hy]; rfl), List.filter_cons_of_neg (by rw [hy]; exact Bool.false_ne_true)]
        exact ih hp.2
      | true =>
        rw [List.dropWhile_cons_of_neg (by rw [hy]; exact Bool.false_ne_true), List.filter_cons_of_pos (p := fun x => eq x x) hy]
        congr 1
        refine (List.filter_eq_self.2 fun x hx => ?_).symm
        cases hc : eq x x with
        | true => rfl
        | false => have := hp.1 x hx hc; rw [hy] at this; cases this
  rw [gen _ hr, List.filter_reverse, List.reverse_reverse]

/-! ## Copying the groups -/

theorem mapM_some {β γ : Type} (f : β → Option γ) (g : β → γ) (l : List β) (h : ∀ x ∈ l, f x = some (g x)) :
    l.mapM f = some (l.map g) := by
  induction l with
  | nil => rfl
  | cons x l ih =>
    rw [List.mapM_cons, h x (by simp), ih fun y hy => h y (by simp [hy])]
    rfl

theorem copy_eq {keys : List Int} {src : List α} {Q : Packed} {b : Nat} {f : Int} (hl : src.length = keys.length)
    (hB : BinAt Q (b : Int) (rowsOf keys b) f) :
    (upTo f (f + ((rowsOf keys b).length : Int))).mapM (srcAt src Q) = some (groupVals keys src b) := by
  have hlen := (groupVals_eq (src := src) hl b).1
  have e : upTo f (f + ((rowsOf keys b).length : Int)) =
      (List.range (groupVals keys src b).length).map fun (k : Nat) => f + (k : Int) := by
    unfold upTo
    rw [hlen, show (f + ((rowsOf keys b).length : Int) - f).toNat = (rowsOf keys b).length by omega]
  cases hg : groupVals keys src b with
  | nil => rw [e, hg]; rfl
  | cons d t =>
    rw [e, ← hg, List.mapM_map]
    rw [mapM_some _ (fun k => (groupVals keys src b).getD k d)]
    · congr 1
      apply List.ext_getElem?
      intro i
      rw [List.getElem?_map]
      by_cases hi : i < (groupVals keys src b).length
      · rw [List.getElem?_range hi, List.getElem?_eq_getElem hi, Option.map_some, List.getD_eq_getElem?_getD,
          List.getElem?_eq_getElem hi]; rfl
      · rw [List.getElem?_eq_none (by simpa using hi), List.getElem?_eq_none (by omega)]; rfl
    · intro k hk
      have hk : k < (groupVals keys src b).length := by simpa using hk
      obtain ⟨v, h1, h2⟩ := srcAt_group (src := src) hl hB (k := k) (by omega)
      show srcAt src Q (f + (k : Int)) = _
      rw [h1, List.getD_eq_getElem?_getD, h2]; rfl

theorem rowsOf_length (keys : List Int) (b : Nat) : (rowsOf keys b).length ≤ keys.length := by
  unfold rowsOf
  exact Nat.le_trans (List.length_filter_le ..) (by simp)

theorem groupBin_eq {keys : List Int} {src : List α} {Q : Packed} {b : Nat} {f : Int} {cap : Nat}
    (hl : src.length = keys.length) (hcap : keys.length ≤ cap)
    (hB : BinAt Q (b : Int) (rowsOf keys b) f) (inv : U) (g : List α → Option U) (v : U)
    (hg : if groupVals keys src b = [] then v = inv else g (groupVals keys src b) = some v) :
    groupBin cap src Q inv g (b : Int) = some [((b : Int), v)] := by
  have hlen := (groupVals_eq (src := src) hl b).1
  have hle := rowsOf_length keys b
  unfold groupBin
  rw [hB.count, Option.bind_some]
  by_cases h0 : groupVals keys src b = []
  · rw [if_pos h0] at hg
    rw [h0, List.length_nil] at hlen
    rw [if_pos (by omega), hg]
  · rw [if_neg h0] at hg
    have : (groupVals keys src b).length ≠ 0 := fun hc => h0 (List.eq_nil_of_length_eq_zero hc)
    rw [if_neg (by omega), if_neg (by omega), hB.first, Option.bind_some, copy_eq hl hB, Option.bind_some, hg]
    rfl

/-- The result for the values of a group: invalid for an empty group. -/
def Result (inv : U) (g : List α → Option U) (l : List α) (v : U) : Prop :=
  if l = [] then v = inv else g l = some v

/-- One thread, any range of bins. -/
theorem accumGroups_run {keys : List Int} {src : List α} {Q : Packed} {bins uniq lo hi cap : Nat}
    (hS : Slices keys bins Q.group Q.first Q.count) (hl : src.length = keys.length) (hcap : keys.length ≤ cap)
    (hu : hi ≤ uniq) (hb : hi ≤ bins) (inv : U) (g : List α → Option U) (val : Nat → U)
    (hg : ∀ b, lo ≤ b → b < hi → Result inv g (groupVals keys src b) (val b)) :
    ∃ out, accumGroups cap src Q inv g uniq lo hi = some out ∧ out.length = uniq ∧
      (∀ b, lo ≤ b → b < hi → out[b]? = some (some (val b))) ∧
      ∀ b, b < uniq → b < lo ∨ hi ≤ b → out[b]? = some none :=
  perBin_run hu fun b h1 h2 => by
    obtain ⟨f, hB⟩ := binAt_of_slices hS (show b < bins by omega)
    exact groupBin_eq hl hcap hB inv g _ (hg b h1 h2)

/-- Any number of threads, any order of completion. -/
theorem accumBanded_run {keys : List Int} {src : List α} {Q : Packed} {bins uniq cap cores : Nat} {calls : List Nat}
    (hS : Slices keys bins Q.group Q.first Q.count) (hl : src.length = keys.length) (hcap : keys.length ≤ cap)
    (hb : uniq ≤ bins) (hc : 0 < cores)
    (hcalls : calls.Perm (List.range cores)) (inv : U) (g : List α → Option U) (val : Nat → U)
    (hg : ∀ b, b < uniq → Result inv g (groupVals keys src b) (val b)) :
    accumBanded cap src Q inv g uniq cores calls = some ((List.range uniq).map fun b => some (val b)) := by
  have hT : Work.Tiles 0 uniq (Work.segLoop (uniq / cores) cores 0 (uniq % cores)) := by
    have := Work.segLoop_tiles (uniq / cores) cores 0 (uniq % cores) (Nat.le_of_lt (Nat.mod_lt _ hc))
    rw [Nat.zero_add, Nat.mul_comm, Nat.div_add_mod] at this
    exact this
  have hlen : ∀ (d k low rem : Nat), (Work.segLoop d k low rem).length = k := by
    intro d k
    induction k with
    | zero => intro _ _; rfl
    | succ k ih => intro low rem; simp only [Work.segLoop]; split <;> rw [List.length_cons, ih]
  have hL := hlen (uniq / cores) cores 0 (uniq % cores)
  unfold accumBanded
  generalize Work.segLoop (uniq / cores) cores 0 (uniq % cores) = segs at hT hL
  have hbin : ∀ b : Nat, b < uniq → groupBin cap src Q inv g (b : Int) = some [((b : Int), val b)] := fun b h => by
    obtain ⟨f, hB⟩ := binAt_of_slices hS (show b < bins by omega)
    exact groupBin_eq hl hcap hB inv g _ (hg b h)
  have hseg : ∀ k ∈ calls, (segs[k]?.bind fun (s : Nat × Nat) => overBins (groupBin cap src Q inv g) s.1 s.2) =
      some ((List.range ((segs.getD k (0, 0)).2 - (segs.getD k (0, 0)).1)).map
        fun t => ((((segs.getD k (0, 0)).1 + t : Nat) : Int), val ((segs.getD k (0, 0)).1 + t))) := by
    intro k hk
    have hk : k < segs.length := by
      have := hcalls.mem_iff.1 hk
      rw [hL]; simpa using this
    have hs := List.getElem?_eq_getElem hk
    rw [hs, Option.bind_some, List.getD_eq_getElem?_getD, hs, Option.getD_some]
    have hle := Pack.tiles_le hT segs[k] (List.getElem_mem _)
    generalize segs[k] = s at hle
    unfold overBins
    have e : upTo (s.1 : Int) (s.2 : Int) = (List.range (s.2 - s.1)).map fun (t : Nat) => (s.1 : Int) + (t : Int) := by
      unfold upTo
      rw [show ((s.2 : Int) - s.1).toNat = s.2 - s.1 by omega]
    rw [e, List.mapM_map, mapM_some _ (fun t => [(((s.1 + t : Nat) : Int), val (s.1 + t))])]
    · rw [Option.map_some]
      congr 1
      generalize List.range (s.2 - s.1) = r
      induction r with
      | nil => rfl
      | cons t r ih => rw [List.map_cons, List.flatten_cons, ih]; rfl
    · intro t ht
      have ht : t < s.2 - s.1 := by simpa using ht
      have := hbin (s.1 + t) (by omega)
      rw [← this]
      show groupBin cap src Q inv g ((s.1 : Int) + (t : Int)) = _
      congr 1
  rw [mapM_some _ _ calls hseg, Option.map_some, Option.bind_some]
  generalize hws : (List.map _ calls).flatten = ws
  have hmem : ∀ x : Int × U, x ∈ ws ↔ ∃ b : Nat, b < uniq ∧ x = ((b : Int), val b) := by
    intro x
    rw [← hws, List.mem_flatten]
    constructor
    · rintro ⟨l, hl', hx⟩
      obtain ⟨k, hk, rfl⟩ := List.mem_map.1 hl'
      have hk' : k < segs.length := by
        have := hcalls.mem_iff.1 hk
        rw [hL]; simpa using this
      have hs := List.getElem?_eq_getElem hk'
      rw [List.getD_eq_getElem?_getD, hs, Option.getD_some] at hx
      have hle := Pack.tiles_le hT segs[k] (List.getElem_mem _)
      obtain ⟨t, ht, rfl⟩ := List.mem_map.1 hx
      have ht := List.mem_range.1 ht
      exact ⟨_, by omega, rfl⟩
    · rintro ⟨b, hb', rfl⟩
      obtain ⟨t, s, hs, h1, h2, _⟩ := Pack.tiles_find hT (Nat.zero_le b) hb'
      have htl := (List.getElem?_eq_some_iff.1 hs).1
      refine ⟨_, List.mem_map.2 ⟨t, hcalls.mem_iff.2 (by rw [← hL]; simpa using htl), rfl⟩, ?_⟩
      rw [List.getD_eq_getElem?_getD, hs, Option.getD_some]
      refine List.mem_map.2 ⟨b - s.1, List.mem_range.2 (by omega), ?_⟩
      rw [show s.1 + (b - s.1) = b by omega]
  obtain ⟨out, ho, hol, hget, _⟩ := Rolling.store_get (n := uniq) (ws := ws)
    (fun w hw => by
      obtain ⟨b, h, rfl⟩ := (hmem w).1 hw
      exact ⟨b, rfl, h⟩)
    (fun w hw w' hw' he => by
      obtain ⟨b, _, rfl⟩ := (hmem w).1 hw
      obtain ⟨b', _, rfl⟩ := (hmem w').1 hw'
      have he : (b : Int) = (b' : Int) := he
      have : b = b' := by omega
      rw [this])
  rw [ho]
  congr 1
  apply List.ext_getElem?
  intro i
  rw [List.getElem?_map]
  by_cases hi : i < uniq
  · rw [List.getElem?_range hi, hget i _ ((hmem _).2 ⟨i, hi, rfl⟩)]; rfl
  · rw [List.getElem?_eq_none (by omega), List.getElem?_eq_none (by simpa using hi)]; rfl

end Riptide.Median
