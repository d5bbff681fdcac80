import Verif.Arrays.AssignCallSpec
import Verif.Arrays.AssignProps
import Verif.Arrays.StackCallLemmas
import Verif.Mask.CallLemmas
/-! How rows which are written one by one change memory (for C158). -/
namespace Riptide.Nums.Assign
open Spec Riptide.Nums Riptide.Arrays Riptide.Binary Riptide.Work
open Riptide.Mask.Call.Spec (inC)
open Riptide.Nums.Shift (Move move apart)

/-- Outside of the `size` bytes from `D` on memory is as it was, and the same bytes are there. -/
structure Frame (M : Mem) (D : Int) (size : Nat) (M' : Mem) : Prop where
  out : ∀ p, p < D ∨ D + size ≤ p → M' p = M p
  there : ∀ p, (M' p).isSome = (M p).isSome

/-- An item of `k` bytes is written, or not. -/
def over (M : Mem) (o : Int) (k : Nat) : Option (Nat → BitVec 8) → Mem
  | none => M
  | some w => fun p => if o ≤ p ∧ p < o + k then some (w (p - o).toNat) else M p

theorem mul_apart {item j n : Nat} (h : j < n) : item * j + item ≤ item * n := by
  have := Nat.mul_le_mul_left item (show j + 1 ≤ n by omega)
  rw [Nat.mul_add, Nat.mul_one] at this
  exact this

theorem over_frame {M M' : Mem} {D : Int} {item n j : Nat} (g : Option (Nat → BitVec 8)) (hM : ∀ p, D ≤ p → p < D + ((item * n : Nat) : Int) → (M p).isSome = true)
    (h : Frame M D (item * n) M') (hj : j < n) : Frame M D (item * n) (over M' (D + ((item * j : Nat) : Int)) item g) := by
  have ha := mul_apart (item := item) hj
  cases g with
  | none => exact h
  | some w =>
    refine ⟨?_, ?_⟩
    · intro p hp
      show (if _ ∧ _ then _ else _) = _
      rw [if_neg (by omega)]
      exact h.out p hp
    · intro p
      show Option.isSome (if _ ∧ _ then _ else _) = _
      by_cases hp : D + ((item * j : Nat) : Int) ≤ p ∧ p < D + ((item * j : Nat) : Int) + item
      · rw [if_pos hp, hM p (by omega) (by omega)]; rfl
      · rw [if_neg hp]; exact h.there p

/-- Rows which are written one by one, each at most once. -/
theorem fold_rows {M : Mem} {D : Int} {item n : Nat} {f : Mem → Nat → Option Mem} {g : Nat → Option (Nat → BitVec 8)}
    (hM : ∀ p, D ≤ p → p < D + ((item * n : Nat) : Int) → (M p).isSome = true)
    (hf : ∀ M' (j : Nat), Frame M D (item * n) M' → j < n → f M' j = some (over M' (D + ((item * j : Nat) : Int)) item (g j))) :
    ∀ (js : List Nat), js.Nodup → (∀ j ∈ js, j < n) → ∀ M0, Frame M D (item * n) M0 → ∃ M', js.foldlM f M0 = some M' ∧ Frame M D (item * n) M' ∧
      ∀ (j : Nat), j < n → ∀ (q : Nat), q < item → M' (D + ((item * j : Nat) : Int) + q) =
        if j ∈ js then (g j).elim (M0 (D + ((item * j : Nat) : Int) + q)) (fun w => some (w q)) else M0 (D + ((item * j : Nat) : Int) + q)
  | [], _, _, M0, h0 => ⟨M0, rfl, h0, by intro j _ q _; rw [if_neg (by simp)]⟩
  | k :: js, hn, hl, M0, h0 => by
    have hk := hl k (by simp)
    have hnd := List.nodup_cons.1 hn
    obtain ⟨M', h1, h2, h3⟩ := fold_rows hM hf js hnd.2 (fun j hj => hl j (by simp [hj])) _ (over_frame (g k) hM h0 hk)
    refine ⟨M', ?_, h2, ?_⟩
    · rw [List.foldlM_cons, hf M0 k h0 hk]; exact h1
    · intro j hj q hq
      rw [h3 j hj q hq]
      by_cases hjk : j = k
      · subst hjk
        rw [if_neg hnd.1, if_pos (by simp)]
        cases hg : g j with
        | none => rfl
        | some w =>
          show (if _ ∧ _ then _ else _) = _
          rw [if_pos (by omega)]
          rw [Option.elim_some]
          congr 2; omega
      · have hov : over M0 (D + ((item * k : Nat) : Int)) item (g k) (D + ((item * j : Nat) : Int) + q) = M0 (D + ((item * j : Nat) : Int) + q) := by
          cases hg : g k with
          | none => rfl
          | some w =>
            show (if _ ∧ _ then _ else _) = _
            rw [if_neg]
            rcases Nat.lt_or_gt_of_ne hjk with hlt | hlt
            · have := mul_apart (item := item) hlt; omega
            · have := mul_apart (item := item) hlt; omega
        rw [hov]
        by_cases hmem : j ∈ js
        · rw [if_pos hmem, if_pos (by simp [hmem])]
        · rw [if_neg hmem, if_neg (by simp [hmem, hjk])]

/-! ### Packed arrays -/

theorem places_length {M : Mem} {a : View} (h : Packed M a) : (places a).length = a.lay.len := by
  unfold places
  rw [List.length_map, Riptide.Mask.Call.inC_length _ _ h.shape]
  rfl

theorem places_at {M : Mem} {a : View} (h : Packed M a) {k : Nat} (hk : k < a.lay.len) : (places a)[k]? = some (a.base + ((a.lay.item * k : Nat) : Int)) := by
  have hl : (inC a.lay.dims a.lay.strides).length = a.lay.len := Riptide.Mask.Call.inC_length _ _ h.shape
  unfold places
  rw [List.getElem?_map, h.even k (by omega)]
  simp only [Option.map_some, Option.some.injEq]
  rw [Int.natCast_mul, Int.mul_comm]

theorem truth_length {M M0 : Mem} {a : View} (h : Packed M a) : (truth M0 a).length = a.lay.len := by
  unfold truth; rw [List.length_map, places_length h]

/-- A packed mask in memory. -/
theorem mask_at {M : Mem} {a : View} (h : Packed M a) (hi : a.lay.item = 1) {k : Nat} (hk : k < a.lay.len) :
    ∃ b, M (a.base + k) = some b ∧ (truth M a)[k]? = some (decide (b ≠ 0#8)) := by
  have ht := h.there (a.base + k) (by omega) (by rw [hi]; omega)
  obtain ⟨b, hb⟩ := Option.isSome_iff_exists.1 ht
  refine ⟨b, hb, ?_⟩
  unfold truth
  rw [List.getElem?_map, places_at h hk, hi, Nat.one_mul, Option.map_some, hb]
  simp

/-- The bytes which are there, as a function. -/
def byteAt (M : Mem) (o : Int) (q : Nat) : BitVec 8 := (M (o + q)).getD 0#8

theorem byteAt_some {M : Mem} {o : Int} {q : Nat} (h : (M (o + q)).isSome = true) : some (byteAt M o q) = M (o + q) := by
  unfold byteAt
  obtain ⟨b, hb⟩ := Option.isSome_iff_exists.1 h
  rw [hb]; rfl

theorem move_over {M' : Mem} {dst src : Int} {k : Nat} (hs : ∀ (i : Nat), i < k → (M' (src + i)).isSome = true) (hd : ∀ (i : Nat), i < k → (M' (dst + i)).isSome = true) :
    move M' ⟨dst, src, k⟩ = some (over M' dst k (some (byteAt M' src))) := by
  unfold move
  simp only
  rw [if_pos (by
    rw [List.all_eq_true]
    intro i hi
    rw [hs i (List.mem_range.1 hi), hd i (List.mem_range.1 hi)]; rfl)]
  congr 1
  funext p
  show (if _ ∧ _ then _ else _) = (if _ ∧ _ then _ else _)
  by_cases hp : dst ≤ p ∧ p < dst + k
  · rw [if_pos hp, if_pos hp, byteAt_some (hs _ (by omega))]
    congr 1; omega
  · rw [if_neg hp, if_neg hp]

theorem copyItem_over {M' : Mem} {dst src : Int} {k : Nat} (ha : dst + k ≤ src ∨ src + k ≤ dst) (hs : ∀ (i : Nat), i < k → (M' (src + i)).isSome = true)
    (hd : ∀ (i : Nat), i < k → (M' (dst + i)).isSome = true) : copyItem k M' dst src = some (over M' dst k (some (byteAt M' src))) := by
  unfold copyItem
  rw [if_pos (by right; right; right; right; unfold apart; rw [decide_eq_true_iff]; right; right; exact ha), move_over hs hd]

theorem over_congr {M : Mem} {o : Int} {k : Nat} {f g : Nat → BitVec 8} (h : ∀ (q : Nat), q < k → f q = g q) : over M o k (some f) = over M o k (some g) := by
  funext p
  show (if _ ∧ _ then _ else _) = (if _ ∧ _ then _ else _)
  by_cases hp : o ≤ p ∧ p < o + k
  · rw [if_pos hp, if_pos hp, h _ (by omega)]
  · rw [if_neg hp, if_neg hp]

/-! ### The rows of `SetItem` -/

/-- What row `i` gets: the `s`-th value if the mask is set. -/
def newRow (M : Mem) (arr mask vals : View) (s : Nat → Nat) (i : Nat) : Option (Nat → BitVec 8) :=
  if (truth M mask)[i]? = some true then some (byteAt M (vals.base + ((arr.lay.item * s i : Nat) : Int))) else none

theorem frame_mask {M M' : Mem} {arr mask vals : View} (h : Trio M arr mask vals) (hF : Frame M arr.base (arr.lay.item * arr.lay.len) M') {i : Nat} (hi : i < arr.lay.len) :
    M' (mask.base + i) = M (mask.base + i) := by
  apply hF.out
  have := h.awayMask
  unfold Away at this
  rw [h.byte, ← h.rows] at this
  omega

theorem frame_val {M M' : Mem} {arr mask vals : View} (h : Trio M arr mask vals) (hit : vals.lay.item = arr.lay.item)
    (hF : Frame M arr.base (arr.lay.item * arr.lay.len) M') {s q : Nat} (hs : s < vals.lay.len) (hq : q < arr.lay.item) :
    M' (vals.base + ((arr.lay.item * s : Nat) : Int) + q) = M (vals.base + ((arr.lay.item * s : Nat) : Int) + q) := by
  apply hF.out
  have ha := h.awayVals
  unfold Away at ha
  rw [hit] at ha
  have := mul_apart (item := arr.lay.item) hs
  omega

theorem copy_row {M M' : Mem} {arr mask vals : View} (h : Trio M arr mask vals) (hit : vals.lay.item = arr.lay.item)
    (hF : Frame M arr.base (arr.lay.item * arr.lay.len) M') {i s : Nat} (hi : i < arr.lay.len) (hs : s < vals.lay.len) :
    copyItem arr.lay.item M' (arr.base + ((arr.lay.item * i : Nat) : Int)) (vals.base + ((arr.lay.item * s : Nat) : Int)) =
      some (over M' (arr.base + ((arr.lay.item * i : Nat) : Int)) arr.lay.item (some (byteAt M (vals.base + ((arr.lay.item * s : Nat) : Int))))) := by
  have m1 := mul_apart (item := arr.lay.item) hi
  have m2 := mul_apart (item := arr.lay.item) hs
  have ha := h.awayVals
  unfold Away at ha
  rw [hit] at ha
  have hv := h.packedVals.there
  rw [hit] at hv
  rw [copyItem_over (by omega)]
  · congr 1
    apply over_congr
    intro q hq
    unfold byteAt
    rw [frame_val h hit hF hs hq]
  · intro q hq
    rw [hF.there]
    exact hv _ (by omega) (by omega)
  · intro q hq
    rw [hF.there]
    exact h.packedArr.there _ (by omega) (by omega)

/-- A row of `CopyItemBooleanMask`, when the values which are used up are as many as the rows before it which are masked. -/
theorem setRow_over {M M' : Mem} {arr mask vals : View} (h : Trio M arr mask vals) (hit : vals.lay.item = arr.lay.item)
    (hnum : (truth M mask).count true = vals.lay.len) (hF : Frame M arr.base (arr.lay.item * arr.lay.len) M') {i : Nat} (hi : i < arr.lay.len) :
    setRow arr.lay.item arr.base vals.base mask.base (M', ((truth M mask).take i).count true) i =
      some (over M' (arr.base + ((arr.lay.item * i : Nat) : Int)) arr.lay.item (newRow M arr mask vals (fun i => ((truth M mask).take i).count true) i),
        ((truth M mask).take (i + 1)).count true) := by
  obtain ⟨b, hb, ht⟩ := mask_at h.packedMask h.byte (by rw [← h.rows]; exact hi)
  have hr := rank_succ (truth M mask) i _ ht
  unfold setRow newRow
  simp only
  rw [frame_mask h hF hi, hb, Option.bind_some, ht]
  by_cases hz : b = 0#8
  · subst hz
    rw [if_pos rfl, if_neg (by simp), hr]
    simp [over]
  · have hlt : ((truth M mask).take i).count true < vals.lay.len := by
      have := rank_mono (truth M mask) (show i + 1 ≤ (truth M mask).length by rw [truth_length h.packedMask, ← h.rows]; omega)
      rw [List.take_length, hr, hnum] at this
      simp [hz] at this
      omega
    rw [if_neg hz, if_pos (by simp [hz]), copy_row h hit hF hi hlt, hr]
    simp [hz]

theorem setRows_fold {M : Mem} {arr mask vals : View} (h : Trio M arr mask vals) (hit : vals.lay.item = arr.lay.item)
    (hnum : (truth M mask).count true = vals.lay.len) : ∀ (len first : Nat) (M' : Mem), Frame M arr.base (arr.lay.item * arr.lay.len) M' → first + len ≤ arr.lay.len →
    ((List.range' first len).foldlM (setRow arr.lay.item arr.base vals.base mask.base) (M', ((truth M mask).take first).count true)).map Prod.fst =
      (List.range' first len).foldlM (fun M' i => some (over M' (arr.base + ((arr.lay.item * i : Nat) : Int)) arr.lay.item
        (newRow M arr mask vals (fun i => ((truth M mask).take i).count true) i))) M'
  | 0, _, _, _, _ => rfl
  | len + 1, first, M', hF, hl => by
    rw [List.range'_succ, List.foldlM_cons, List.foldlM_cons, setRow_over h hit hnum hF (by omega)]
    exact setRows_fold h hit hnum len (first + 1) _ (over_frame _ h.packedArr.there hF (by omega)) (by omega)

theorem fillRow_over {M M' : Mem} {arr mask vals : View} (h : Trio M arr mask vals) (hit : vals.lay.item = arr.lay.item)
    (hnum : vals.lay.len = 1) (hF : Frame M arr.base (arr.lay.item * arr.lay.len) M') {i : Nat} (hi : i < arr.lay.len) :
    fillRow arr.lay.item arr.base vals.base mask.base M' i =
      some (over M' (arr.base + ((arr.lay.item * i : Nat) : Int)) arr.lay.item (newRow M arr mask vals (fun _ => 0) i)) := by
  obtain ⟨b, hb, ht⟩ := mask_at h.packedMask h.byte (by rw [← h.rows]; exact hi)
  unfold fillRow newRow
  rw [frame_mask h hF hi, hb, Option.bind_some, ht]
  by_cases hz : b = 0#8
  · subst hz
    rw [if_pos rfl, if_neg (by simp)]
    simp [over]
  · rw [if_neg hz, if_pos (by simp [hz])]
    have := copy_row h hit hF hi (s := 0) (by omega)
    simpa using this

/-- Sections of rows are rows. -/
theorem sections_rows {M : Mem} {D : Int} {item n : Nat} {sec : Mem → Nat → Option Mem} {f : Mem → Nat → Option Mem} {rows : Nat → List Nat} {k : Nat}
    (hs : ∀ M' (t : Nat), t < k → Frame M D (item * n) M' → sec M' t = (rows t).foldlM f M')
    (hf : ∀ M' (j : Nat) M'', Frame M D (item * n) M' → j < n → f M' j = some M'' → Frame M D (item * n) M'') :
    ∀ (ts : List Nat) M', (∀ t ∈ ts, t < k ∧ ∀ j ∈ rows t, j < n) → Frame M D (item * n) M' → ts.foldlM sec M' = (ts.flatMap rows).foldlM f M'
  | [], _, _, _ => rfl
  | t :: ts, M', hl, hF => by
    rw [List.foldlM_cons, List.flatMap_cons, List.foldlM_append, hs M' t (hl t (by simp)).1 hF]
    cases hm : (rows t).foldlM f M' with
    | none => rfl
    | some M'' =>
      have hF'' : Frame M D (item * n) M'' := by
        have : ∀ (js : List Nat) M1, (∀ j ∈ js, j < n) → Frame M D (item * n) M1 → js.foldlM f M1 = some M'' → Frame M D (item * n) M'' := by
          intro js
          induction js with
          | nil => intro M1 _ h1 h2; cases h2; exact h1
          | cons j js ih =>
            intro M1 h0 h1 h2
            rw [List.foldlM_cons] at h2
            cases hj : f M1 j with
            | none => rw [hj] at h2; cases h2
            | some M2 =>
              rw [hj] at h2
              exact ih M2 (fun i hi => h0 i (by simp [hi])) (hf M1 j M2 h1 (h0 j (by simp)) hj) h2
        exact this _ M' (hl t (by simp)).2 hF hm
      exact sections_rows hs hf ts M'' (fun t ht => hl t (by simp [ht])) hF''

/-- The rows of all sections are the rows. -/
theorem section_rows (n : Nat) (hn : n > part) {calls : List Nat} (hp : calls.Perm (List.range (sections n))) :
    (calls.flatMap fun t => List.range' (part * t) (sectionLen n t)).Perm (List.range n) := by
  refine (hp.flatMap_right _).trans (List.Perm.of_eq ?_)
  have : ∀ k, k ≤ sections n → (List.range k).flatMap (fun t => List.range' (part * t) (sectionLen n t)) = List.range (min n (part * k)) := by
    intro k
    induction k with
    | zero => intro _; simp
    | succ k ih =>
      intro hk
      have hf := section_facts n k hn (by omega)
      rw [List.range_succ, List.flatMap_append, ih (by omega), List.flatMap_cons, List.flatMap_nil, List.append_nil, ← hf.1, Nat.min_eq_right (by omega)]
      rw [List.range_eq_range', List.range_eq_range', ← List.range'_append]
      simp
  rw [this _ (Nat.le_refl _), Nat.min_eq_left]
  unfold sections part at *
  omega

/-- Counting a packed mask. -/
theorem count_at {M : Mem} {a : View} (h : Packed M a) (hi : a.lay.item = 1) {first len : Nat} (hl : first + len ≤ a.lay.len) :
    countAt M a.base first len = some (sumMask (truth M a) first len) := by
  unfold countAt
  have hm : (List.range' first len).mapM (fun (i : Nat) => M (a.base + i)) = some ((List.range' first len).map fun (i : Nat) => (M (a.base + i)).getD 0#8) := by
    apply mapM_some
    intro i hmem
    have hmem := List.mem_range'_1.1 hmem
    obtain ⟨b, hb, _⟩ := mask_at h hi (k := i) (by omega)
    rw [hb]; rfl
  rw [hm, Option.map_some]
  congr 1
  unfold sumMask
  rw [List.countP_map, List.count_eq_countP]
  have : ((truth M a).drop first).take len = (List.range' first len).map fun (i : Nat) => decide ((M (a.base + i)).getD 0#8 ≠ 0#8) := by
    apply List.ext_getElem?
    intro k
    rw [List.getElem?_take, List.getElem?_drop, List.getElem?_map]
    by_cases hk : k < len
    · obtain ⟨b, hb, ht⟩ := mask_at h hi (k := first + k) (by omega)
      rw [if_pos hk, List.getElem?_range' hk, ht]
      simp only [Option.map_some, Nat.one_mul, hb, Option.getD_some]
    · rw [if_neg hk, List.getElem?_eq_none (by simp; omega)]; rfl
  rw [this, List.countP_map]
  apply List.countP_congr
  intro i _
  simp

end Riptide.Nums.Assign
