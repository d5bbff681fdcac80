import Verif.Pack.Model
import Verif.Pack.Spec
import Verif.Work.Props
/-! Lemmas for counting and for the counting sort. -/
namespace Riptide.Pack
open Riptide.Work Spec

/-- The rows of bin `b` among `[lo, hi)`. -/
def rowsIn (keys : List Int) (lo hi b : Nat) : List Nat :=
  (List.range' lo (hi - lo)).filter fun i => keys[i]? == some (b : Int)

theorem rowsIn_all (keys : List Int) (b : Nat) : rowsIn keys 0 keys.length b = rowsOf keys b := by
  unfold rowsIn rowsOf
  rw [List.range_eq_range']; rfl

theorem rowsIn_append (keys : List Int) {lo mid hi : Nat} (b : Nat) (h1 : lo ≤ mid)
    (h2 : mid ≤ hi) : rowsIn keys lo hi b = rowsIn keys lo mid b ++ rowsIn keys mid hi b := by
  unfold rowsIn
  rw [← List.filter_append]
  congr 1
  have := List.range'_append (s := lo) (m := mid - lo) (n := hi - mid) (step := 1)
  rw [show hi - lo = (mid - lo) + (hi - mid) by omega]
  rw [← this]
  congr 2
  omega

theorem mem_rowsIn {keys : List Int} {lo hi b i : Nat} (h : i ∈ rowsIn keys lo hi b) :
    lo ≤ i ∧ i < hi ∧ keys[i]? = some (b : Int) := by
  unfold rowsIn at h
  obtain ⟨h1, h2⟩ := List.mem_filter.1 h
  have := List.mem_range'_1.1 h1
  exact ⟨this.1, by omega, by simpa using h2⟩

/-- Bands that tile a range split the rows of a bin. -/
theorem rowsIn_tiles (keys : List Int) (b : Nat) {lo hi : Nat} {segs : List (Nat × Nat)}
    (h : Tiles lo hi segs) : lo ≤ hi ∧
      segs.flatMap (fun s => rowsIn keys s.1 s.2 b) = rowsIn keys lo hi b := by
  induction h with
  | nil lo => simp [rowsIn]
  | cons h ht ih =>
    refine ⟨by omega, ?_⟩
    rw [List.flatMap_cons, ih.2, rowsIn_append keys b h ih.1]

theorem tiles_le {lo hi : Nat} {segs : List (Nat × Nat)} (h : Tiles lo hi segs) :
    ∀ s ∈ segs, lo ≤ s.1 ∧ s.1 ≤ s.2 ∧ s.2 ≤ hi := by
  induction h with
  | nil => simp
  | cons h ht ih =>
    intro s hs
    have hle : _ ≤ _ := (rowsIn_tiles [] 0 ht).1
    rcases List.mem_cons.1 hs with rfl | hs
    · simp only; omega
    · have := ih s hs; omega

/-! ## Counting -/

/-- The counts of `BinCountAlgo` on `[lo, hi)`. -/
def countsIn (keys : List Int) (bins : Nat) (s : Nat × Nat) : List Nat :=
  (List.range bins).map fun b => (rowsIn keys s.1 s.2 b).length

theorem binCount_step {keys : List Int} {bins i : Nat} {count : List Nat} {key : Int}
    (hl : count.length = bins) (hk : keys[i]? = some key) :
    ∃ c' : List Nat, countStep keys bins count i = some c' ∧ c'.length = bins ∧
      ∀ b, b < bins → ∃ v, count[b]? = some v ∧
        c'[b]? = some (v + if keys[i]? == some (b : Int) then 1 else 0) := by
  simp only [countStep, hk]
  by_cases hr : 0 ≤ key ∧ key < (bins : Int)
  · refine ⟨_, if_pos hr, by simpa using hl, ?_⟩
    intro b hb
    refine ⟨count[b], by simp, ?_⟩
    rw [List.getElem?_modify]
    have : (key.toNat = b) ↔ (key = (b : Int)) := by omega
    by_cases hkb : key = (b : Int)
    · subst hkb; simp
    · have h2 : key.toNat ≠ b := fun h => hkb (this.1 h)
      simp [h2, hkb]
  · refine ⟨_, if_neg hr, hl, ?_⟩
    intro b hb
    refine ⟨count[b], by simp, ?_⟩
    have : key ≠ (b : Int) := by omega
    simp [this]

theorem binCountAlgo_eq {keys : List Int} {lo hi bins : Nat} (h : hi ≤ keys.length) :
    binCountAlgo keys lo hi bins = some (countsIn keys bins (lo, hi)) := by
  have gen : ∀ (l : List Nat) (count : List Nat), count.length = bins →
      (∀ i ∈ l, i < keys.length) →
      ∃ c', l.foldlM (countStep keys bins) count = some c' ∧ c'.length = bins ∧ ∀ b, b < bins → ∃ v, count[b]? = some v ∧
          c'[b]? = some (v + (l.filter fun i => keys[i]? == some (b : Int)).length) := by
    intro l
    induction l with
    | nil =>
      intro count hl _
      exact ⟨count, rfl, hl, fun b hb => ⟨count[b], by simp, by simp⟩⟩
    | cons i l ih =>
      intro count hl hm
      have hi := hm i (by simp)
      obtain ⟨c1, h1, h2, h3⟩ := binCount_step (bins := bins) hl (List.getElem?_eq_getElem hi)
      obtain ⟨c2, h4, h5, h6⟩ := ih c1 h2 (fun x hx => hm x (by simp [hx]))
      refine ⟨c2, ?_, h5, ?_⟩
      · rw [List.foldlM_cons]
        simp only [h1, Option.bind_eq_bind, Option.bind_some]
        exact h4
      · intro b hb
        obtain ⟨v, hv, hv'⟩ := h3 b hb
        obtain ⟨w, hw, hw'⟩ := h6 b hb
        refine ⟨v, hv, ?_⟩
        rw [hv'] at hw
        have := Option.some.inj hw
        rw [hw', ← this, List.filter_cons]
        by_cases hk : (keys[i]? == some (b : Int)) = true
        · rw [if_pos hk, if_pos hk, List.length_cons]; congr 1; omega
        · rw [if_neg hk, if_neg hk]; congr 1
  obtain ⟨c, h1, h2, h3⟩ := gen (List.range' lo (hi - lo)) (List.replicate bins 0) (by simp)
    (fun i hi' => by have := List.mem_range'_1.1 hi'; omega)
  unfold binCountAlgo
  rw [h1]
  congr 1
  apply List.ext_getElem?
  intro b
  by_cases hb : b < bins
  · obtain ⟨v, hv, hv'⟩ := h3 b hb
    rw [hv']
    simp only [List.getElem?_replicate, hb, if_true, Option.some.injEq] at hv
    subst hv
    unfold countsIn rowsIn
    simp [hb]
  · rw [List.getElem?_eq_none (by omega), List.getElem?_eq_none (by unfold countsIn; simp; omega)]

theorem perCore_eq {keys : List Int} {segs : List (Nat × Nat)} {bins : Nat} {calls : List Nat}
    (ht : Tiles 0 keys.length segs) (hc : calls.Perm (List.range segs.length)) :
    perCore keys segs bins calls = some (segs.map (countsIn keys bins)) := by
  have hs := tiles_le ht
  have gen : ∀ (l : List Nat) (mem : List (Option (List Nat))), (∀ t ∈ l, t < segs.length) →
      l.foldlM (coreStep keys segs bins) mem =
      some (l.foldl (fun a t => a.set t (some (countsIn keys bins (segs[t]?.getD (0, 0))))) mem) := by
    intro l
    induction l with
    | nil => intro mem _; rfl
    | cons t l ih =>
      intro mem hm
      have htl := hm t (by simp)
      have := hs segs[t] (List.getElem_mem htl)
      rw [List.foldlM_cons]
      simp only [coreStep, List.getElem?_eq_getElem htl, binCountAlgo_eq this.2.2, Option.map_some,
        Option.bind_eq_bind, Option.bind_some, List.foldl_cons, Option.getD_some]
      exact ih _ (fun x hx => hm x (by simp [hx]))
  unfold perCore
  rw [gen calls _ (fun t h => List.mem_range.1 (hc.mem_iff.1 h))]
  rw [foldl_set_perm (fun t => some (countsIn keys bins (segs[t]?.getD (0, 0)))) hc _ (by simp)]
  rw [Option.bind_some]
  rw [List.mapM_map, mapM_some _ (fun t => countsIn keys bins (segs[t]?.getD (0, 0)))]
  · congr 1
    apply List.ext_getElem?
    intro i
    by_cases hi : i < segs.length <;> simp [hi]
  · intros; rfl

theorem sumCores_eq {bins : Nat} {f : Nat × Nat → Nat → Nat} {segs : List (Nat × Nat)}
    (hne : segs ≠ []) :
    sumCores (segs.map fun s => (List.range bins).map (f s)) =
      some ((List.range bins).map fun b => (segs.map fun s => f s b).sum) := by
  have gen : ∀ (segs : List (Nat × Nat)) (g : Nat → Nat),
      (segs.map fun s => (List.range bins).map (f s)).foldl
        (fun (acc : List Nat) d => List.zipWith (· + ·) acc d) ((List.range bins).map g) =
      (List.range bins).map fun b => g b + (segs.map fun s => f s b).sum := by
    intro segs
    induction segs with
    | nil => intro g; simp
    | cons s segs ih =>
      intro g
      rw [List.map_cons, List.foldl_cons, List.zipWith_map]
      rw [show List.zipWith (fun x y => g x + f s y) (List.range bins) (List.range bins) =
        (List.range bins).map (fun b => g b + f s b) by
          rw [List.zipWith_self]]
      rw [ih]
      apply List.map_congr_left
      intro b _
      simp [Nat.add_assoc]
  match segs, hne with
  | s :: segs, _ =>
    rw [List.map_cons, sumCores, gen]
    simp

end Riptide.Pack
