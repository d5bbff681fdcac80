import Verif.Take.Lemmas
/-! # Fancy get, reverse shuffle, group re-indexing: property theorems (C07, C08, C45) -/
namespace Riptide.Take
open Riptide.Work

/-! ## C07: fancy get -/

/-- The index values fit the index dtype. -/
structure Index.Valid (ix : Index) : Prop where
  width : 0 < ix.width
  signed : ix.signed = true → ∀ v ∈ ix.vals, -(2 : Int) ^ (ix.width - 1) ≤ v ∧ v < 2 ^ (ix.width - 1)
  unsigned : ix.signed = false → ∀ v ∈ ix.vals, 0 ≤ v ∧ v < 2 ^ ix.width

/-- Execute byte copies on a fresh output of `n` items.  Reading outside the items of the value
array, outside the default value, or writing outside the output is undefined behaviour. -/
def execBytes (vals : Int → Byte) (dflt : Nat → Byte) (valLen : Nat) (sv : Int) (itemSize n : Nat)
    (copies : List (Int × Src)) : Option (List (Option Byte)) :=
  (copies.mapM fun (c : Int × Src) =>
    if 0 ≤ c.1 then
      match c.2 with
      | .val o =>
        if (List.range valLen).any (fun (r : Nat) =>
            (List.range itemSize).any fun (k : Nat) => o == (r : Int) * sv + k)
        then some (c.1.toNat, vals o) else none
      | .dflt k => if k < itemSize then some (c.1.toNat, dflt k) else none
    else none).bind (runWrites (n * itemSize))

/-- The value array as a list of items (each a list of bytes). -/
def items (vals : Int → Byte) (valLen : Nat) (sv : Int) (itemSize : Nat) : List (List Byte) :=
  (List.range valLen).map fun (r : Nat) => (List.range itemSize).map fun (k : Nat) =>
    vals ((r : Int) * sv + k)

theorem readIdx_eq {w : Nat} (hw : 0 < w) {v : Int} (h1 : -(2 : Int) ^ (w - 1) ≤ v)
    (h2 : v < 2 ^ (w - 1)) : readIdx w v = v := by
  unfold readIdx
  rw [BitVec.toInt_ofInt]
  obtain ⟨u, rfl⟩ : ∃ u, w = u + 1 := ⟨w - 1, by omega⟩
  have e : ((2 ^ (u + 1) : Nat) : Int) = 2 * 2 ^ u := by
    rw [Nat.pow_succ]; simp; omega
  simp only [Nat.add_sub_cancel] at h1 h2
  apply Int.bmod_eq_of_le <;> omega

theorem readIdx_neg {w : Nat} (hw : 0 < w) {v : Int} (h1 : (2 : Int) ^ (w - 1) ≤ v)
    (h2 : v < 2 ^ w) : readIdx w v < 0 := by
  unfold readIdx
  obtain ⟨u, rfl⟩ : ∃ u, w = u + 1 := ⟨w - 1, by omega⟩
  have e : ((2 ^ (u + 1) : Nat) : Int) = 2 * 2 ^ u := by
    rw [Nat.pow_succ]; simp; omega
  have e2 : (2 : Int) ^ (u + 1) = 2 * 2 ^ u := by rw [Int.pow_succ]; omega
  simp only [Nat.add_sub_cancel] at h1
  rw [e2] at h2
  have : (BitVec.ofInt (u + 1) v) = BitVec.ofInt (u + 1) (v - 2 ^ (u+1)) := by
    apply BitVec.eq_of_toInt_eq
    rw [BitVec.toInt_ofInt, BitVec.toInt_ofInt]
    have : v - 2 ^ (u + 1) = v + ((2 ^ (u + 1) : Nat) : Int) * (-1) := by rw [e, e2]; omega
    rw [this, Int.add_mul_bmod_self_left]
  rw [this, BitVec.toInt_ofInt, Int.bmod_eq_of_le (by omega) (by omega)]
  omega

/-- The row chosen by the kernels is the row Python would choose. -/
theorem resolve_correct (ix : Index) (hv : ix.Valid) (isVar : Bool) (valLen : Nat) {v : Int}
    (hm : v ∈ ix.vals)
    (hg : ix.signed = true ∨ (isVar = false ∧ (valLen : Int) ≤ 2 ^ (ix.width - 1)))
    {α : Type} (f : Nat → α) (d : α) :
    (∀ i, resolve ix.signed isVar valLen (readIdx ix.width v) = some i → 0 ≤ i ∧ i < valLen) ∧
    (match resolve ix.signed isVar valLen (readIdx ix.width v) with
      | some i => f i.toNat
      | none => d) = Spec.get ((List.range valLen).map f) d v := by
  by_cases hs : ix.signed = true
  · have hr := hv.signed hs v hm
    rw [readIdx_eq hv.width hr.1 hr.2]
    simp only [resolve, hs, if_true, Spec.get, List.length_map, List.length_range]
    by_cases h0 : 0 ≤ v
    · by_cases h1 : v < valLen
      · have : -(valLen : Int) ≤ v := by omega
        have h3 : v.toNat < valLen := by omega
        simp [this, h1, h0, h3]
      · have h3 : ¬ v.toNat < valLen := by omega
        simp [h1, h0, h3]
    · by_cases h1 : -(valLen : Int) ≤ v
      · have h2 : v < valLen := by omega
        have h3 : 0 ≤ (valLen : Int) + v := by omega
        have h4 : ((valLen : Int) + v).toNat < valLen := by omega
        simp only [h1, h2, and_self, if_true, h0, if_false, h3]
        constructor
        · intro i hi; simp at hi; omega
        · simp [h4, Int.add_comm v]
      · have h3 : ¬ 0 ≤ (valLen : Int) + v := by omega
        simp [h1, h0, h3]
  · have hs : ix.signed = false := by simpa using hs
    rcases hg with hg | ⟨rfl, hl⟩
    · rw [hg] at hs; simp at hs
    · have hr := hv.unsigned hs v hm
      simp only [resolve, hs, Bool.false_eq_true, if_false, Spec.get, hr.1, if_true]
      by_cases h1 : v < 2 ^ (ix.width - 1)
      · rw [readIdx_eq hv.width (by omega) h1]
        by_cases h2 : v < valLen
        · have h3 : v.toNat < valLen := by omega
          simp [hr.1, h2, h3]
        · have h3 : ¬ v.toNat < valLen := by omega
          simp [h2, h3]
      · have hneg := readIdx_neg hv.width (by omega) hr.2
        have h3 : ¬ v.toNat < valLen := by omega
        have h4 : ¬ 0 ≤ readIdx ix.width v := by omega
        simp [h4, h3]

/-- C07 (partial: guarded).  Fancy get returns, for every index, the item Python indexing selects,
or the default if the index is out of range; all output bytes are written and nothing is read or
written out of bounds; for every schedule and every item size.  Guards:
* the index dtype is signed, or the item size is 1/2/4/8/16 and the value array has at most
  `2^(width-1)` items;
* the value array is contiguous, or the run is not parallel.
Each guard is needed: see the three theorems below. -/
theorem fancy_get_exact_partial (ix : Index) (hv : ix.Valid) (vals : Int → Byte)
    (dflt : Nat → Byte) (valLen : Nat) (sv : Int) (itemSize fuel : Nat)
    (hg : ix.signed = true ∨
      (fixedSize itemSize = true ∧ (valLen : Int) ≤ 2 ^ (ix.width - 1)))
    {workers : Nat} {nt : Bool} {par : Option (List Nat)}
    (h : ChunkSched workers ix.vals.length nt par)
    (hc : ix.vals.length < big ∨ nt = true ∨ sv = itemSize) :
    ∃ copies, mbget ix valLen sv itemSize fuel par = some copies ∧
      execBytes vals dflt valLen sv itemSize ix.vals.length copies =
        some ((ix.vals.flatMap (Spec.get (items vals valLen sv itemSize)
          ((List.range itemSize).map dflt))).map some) := by
  obtain ⟨copies, he, hp⟩ := mbget_perm ix valLen sv itemSize fuel
    (hg.imp id (·.1)) h hc
  refine ⟨copies, he, ?_⟩
  have hg' : ix.signed = true ∨
      ((!fixedSize itemSize) = false ∧ (valLen : Int) ≤ 2 ^ (ix.width - 1)) := by
    simpa using hg
  -- byte `k` of the item copied for row `i`
  let row : Nat → Option Int := fun i =>
    resolve ix.signed (!fixedSize itemSize) valLen (readIdx ix.width ((ix.vals[i]?).getD 0))
  let byte : Nat → Nat → Byte := fun i k =>
    match row i with
    | some r => vals (r * sv + k)
    | none => dflt k
  let deref : Src → Byte := fun s => match s with | .val o => vals o | .dflt k => dflt k
  have hrow : ∀ i, i < ix.vals.length →
      (∀ r, row i = some r → 0 ≤ r ∧ r < valLen) ∧
      (List.range itemSize).map (byte i) =
        Spec.get (items vals valLen sv itemSize) ((List.range itemSize).map dflt)
          ((ix.vals[i]?).getD 0) := by
    intro i hi
    have hm : (ix.vals[i]?).getD 0 ∈ ix.vals := by
      rw [List.getElem?_eq_getElem hi]; simp
    have := resolve_correct ix hv (!fixedSize itemSize) valLen hm hg'
      (fun (r : Nat) => (List.range itemSize).map fun (k : Nat) => vals ((r : Int) * sv + k))
      ((List.range itemSize).map dflt)
    refine ⟨this.1, ?_⟩
    rw [items, ← this.2]
    have h1 := this.1
    simp only [byte, row]
    cases hr : resolve ix.signed (!fixedSize itemSize) valLen
        (readIdx ix.width ((ix.vals[i]?).getD 0)) with
    | none => rfl
    | some r =>
      have := h1 r hr
      apply List.map_congr_left
      intro k _
      simp only
      rw [Int.toNat_of_nonneg this.1]
  unfold execBytes
  have hmap : copies.mapM (fun (c : Int × Src) =>
      if 0 ≤ c.1 then
        match c.2 with
        | .val o =>
          if (List.range valLen).any (fun (r : Nat) =>
              (List.range itemSize).any fun (k : Nat) => o == (r : Int) * sv + k)
          then some (c.1.toNat, vals o) else none
        | .dflt k => if k < itemSize then some (c.1.toNat, dflt k) else none
      else none) = some (copies.map fun c => (c.1.toNat, deref c.2)) := by
    apply mapM_some
    intro c hcm
    have hcm := hp.mem_iff.1 hcm
    simp only [rowCopies, List.mem_flatMap, List.mem_range, itemCopy, List.mem_map,
      itemOffs_eq] at hcm
    obtain ⟨i, hi, k, hk, rfl⟩ := hcm
    have h0 : (0 : Int) ≤ (i : Int) * itemSize + k := by
      have : (0 : Int) ≤ (i : Int) * itemSize := Int.mul_nonneg (by omega) (by omega)
      omega
    have h1 := (hrow i hi).1
    simp only [row] at h1
    simp only [h0, if_true]
    cases hr : resolve ix.signed (!fixedSize itemSize) valLen
        (readIdx ix.width ((ix.vals[i]?).getD 0)) with
    | none => simp [hk, deref]
    | some r =>
      have hb := h1 r hr
      simp only [deref]
      rw [if_pos]
      rw [List.any_eq_true]
      refine ⟨r.toNat, List.mem_range.2 (by omega), ?_⟩
      rw [List.any_eq_true]
      refine ⟨k, List.mem_range.2 hk, ?_⟩
      rw [Int.toNat_of_nonneg hb.1]
      simp
  rw [hmap, Option.bind_some]
  have hout : ix.vals.flatMap (Spec.get (items vals valLen sv itemSize)
      ((List.range itemSize).map dflt)) =
      (List.range ix.vals.length).flatMap fun i => (List.range itemSize).map (byte i) := by
    have hl : ix.vals = (List.range ix.vals.length).map fun i => (ix.vals[i]?).getD 0 := by
      apply List.ext_getElem
      · simp
      · intro i h1 h2; simp [h1]
    conv => lhs; rw [hl]
    rw [List.flatMap_map]
    simp only [List.flatMap]
    congr 1
    apply List.map_congr_left
    intro i hi
    exact ((hrow i (List.mem_range.1 hi)).2).symm
  have hz := flatMap_zipIdx (fun i => (List.range itemSize).map (byte i)) itemSize
    ix.vals.length (by intros; simp)
  rw [hout, ← hz.1]
  apply runWrites_perm
  refine (hp.map _).trans ?_
  rw [hz.2]
  apply List.Perm.of_eq
  rw [rowCopies, List.map_flatMap, List.map_flatMap]
  congr 1
  funext i
  rw [itemCopy, itemOffs_eq, List.map_map, zipIdx_map_range, List.map_map]
  apply List.map_congr_left
  intro k _
  simp only [Function.comp, Prod.swap, byte, deref, row]
  refine Prod.ext ?_ ?_
  · simp only
    rw [← Int.natCast_mul, ← Int.natCast_add, Int.toNat_natCast]
  · simp only
    cases resolve ix.signed (!fixedSize itemSize) valLen
      (readIdx ix.width ((ix.vals[i]?).getD 0)) <;> rfl

/-- Negative, in-range and out-of-range indices, with a 3-byte item size and strided values. -/
example : (mbget ⟨true, 8, [-1, 0, 2, 5]⟩ 3 4 3 0 none).bind
    (execBytes (fun a => BitVec.ofInt 8 a) (fun _ => 99#8) 3 4 3 4) =
    some ([8#8, 9#8, 10#8, 0#8, 1#8, 2#8, 8#8, 9#8, 10#8, 99#8, 99#8, 99#8].map some) := by
  decide +kernel

example : (Index.mk true 8 [-1, 0, 2, 5]).Valid :=
  ⟨by decide, by decide, by decide⟩

/-- C07 fails for unsigned indices whose top bit is set: index 200 of dtype uint8 into an array of
256 one-byte items gives the default value, not item 200. -/
theorem unsigned_index_top_bit_gives_default :
    ∃ copies, mbget ⟨false, 8, [200]⟩ 256 1 1 0 none = some copies ∧
      execBytes (fun _ => 1#8) (fun _ => 9#8) 256 1 1 1 copies = some [some 9#8] ∧
      Spec.get (items (fun _ => 1#8) 256 1 1) [9#8] 200 = [1#8] :=
  ⟨[(0, .dflt 0)], by decide, by decide, by decide +kernel⟩

theorem uintVarKernel_odd (ix : Index) (valLen : Nat) (sv : Int) (itemSize : Nat)
    (hs : 0 < itemSize) (fuel : Nat) : ∀ (i : Nat) (p : Int) (stop : Int),
    (p % 2 ≠ stop % 2) → uintVarKernel ix valLen sv itemSize fuel i (p * itemSize) (stop * itemSize) = none := by
  induction fuel with
  | zero => intros; rfl
  | succ f ih =>
    intro i p stop hp
    unfold uintVarKernel
    rw [if_neg]
    · have := ih (i + 1) (p + 2) stop (by omega)
      rw [Int.add_mul, show (2 : Int) * itemSize = itemSize + itemSize by omega,
        ← Int.add_assoc] at this
      rw [this]; rfl
    · intro he
      have : p = stop := Int.eq_of_mul_eq_mul_right (by omega) he
      subst this; exact hp rfl

/-- C07 fails for unsigned indices and other item sizes: with an odd number of indices the copy loop
never terminates (it advances the output twice per index and misses the end pointer). -/
theorem unsigned_index_variable_item_never_terminates (ix : Index) (valLen : Nat) (sv : Int)
    (itemSize : Nat) (hs : ix.signed = false) (hf : fixedSize itemSize = false)
    (hpos : 0 < itemSize) (hodd : ix.vals.length % 2 = 1) :
    ∀ fuel, mbget ix valLen sv itemSize fuel none = none := by
  intro fuel
  unfold mbget getItem
  simp only [hs, hf, Bool.or_self, Bool.false_eq_true, if_false]
  have := uintVarKernel_odd ix valLen sv itemSize hpos fuel 0 0 ix.vals.length (by omega)
  simpa using this

/-- ... and with an even number of indices it leaves every other output item uninitialised. -/
theorem unsigned_index_variable_item_leaves_garbage :
    ∃ copies, mbget ⟨false, 8, [0, 0]⟩ 1 3 3 5 none = some copies ∧
      execBytes (fun _ => 1#8) (fun _ => 9#8) 1 3 3 2 copies =
        some [some 1#8, some 1#8, some 1#8, none, none, none] :=
  ⟨[(0, .val 0), (1, .val 1), (2, .val 2)], by decide +kernel, by decide⟩

/-- ... and an index with the top bit set reads before the value array. -/
theorem unsigned_index_variable_item_reads_out_of_bounds :
    ∃ copies, mbget ⟨false, 8, [255, 0]⟩ 1 3 3 5 none = some copies ∧
      (0, Src.val (-3)) ∈ copies ∧
      execBytes (fun _ => 1#8) (fun _ => 9#8) 1 3 3 2 copies = none :=
  ⟨[(0, .val (-3)), (1, .val (-2)), (2, .val (-1))], by decide +kernel, by decide, by decide⟩

/-- C07 fails for strided values in a parallel run: 32768 one-byte items gathered from a source of
stride 2 are written beyond the output, for every schedule. -/
theorem strided_values_parallel_writes_out_of_bounds {workers : Nat} {par : List Nat}
    (h : ChunkSched workers big false (some par)) :
    ∃ copies, mbget ⟨true, 64, List.replicate big 0⟩ 1 2 1 0 (some par) = some copies ∧
      execBytes (fun _ => 1#8) (fun _ => 9#8) 1 2 1 big copies = none := by
  have hp : par.Perm (List.range (blockLastGeneric big chunk)) := by
    rcases h.cases with ⟨he, _⟩ | ⟨c, he, _, hp⟩
    · simp at he
    · simp only [Option.some.injEq] at he; subst he; exact hp
  unfold mbget
  simp only [List.length_replicate]
  have hk : ∀ b, getItem ⟨true, 64, List.replicate big 0⟩ 1 2 1 0 (chunk * b)
      (blockLen big chunk (blockLastGeneric big chunk) b) (((chunk * b : Nat) : Int) * 2) =
      some (kernel ⟨true, 64, List.replicate big 0⟩ 1 2 1 (chunk * b)
        (blockLen big chunk (blockLastGeneric big chunk) b) (((chunk * b : Nat) : Int) * 2)) :=
    fun _ => rfl
  simp only [hk]
  rw [mapM_some _ (fun b => kernel ⟨true, 64, List.replicate big 0⟩ 1 2 1 (chunk * b)
        (blockLen big chunk (blockLastGeneric big chunk) b) (((chunk * b : Nat) : Int) * 2)) par
        (fun _ _ => rfl)]
  refine ⟨_, rfl, ?_⟩
  generalize hcs : (List.map (fun b => kernel ⟨true, 64, List.replicate big 0⟩ 1 2 1 (chunk * b)
        (blockLen big chunk (blockLastGeneric big chunk) b) (((chunk * b : Nat) : Int) * 2))
        par).flatten = cs
  have hmem : (((chunk * 1 : Nat) : Int) * 2, Src.val 0) ∈ cs := by
    rw [← hcs, List.mem_flatten]
    refine ⟨_, List.mem_map.2 ⟨1, hp.mem_iff.2 (by decide), rfl⟩, ?_⟩
    unfold kernel
    rw [List.mem_flatMap]
    refine ⟨chunk, List.mem_range'_1.2 (by decide), ?_⟩
    have : ((List.replicate big (0 : Int))[chunk]?).getD 0 = 0 := by
      rw [List.getElem?_replicate]; split <;> rfl
    simp only [this]
    decide
  unfold execBytes
  cases hm : List.mapM (m := Option) _ cs with
  | none => rfl
  | some ws =>
    rw [Option.bind_some]
    apply runWrites_oob (w := (chunk * 1 * 2, 1#8)) _ (by decide)
    -- the write to byte 32768 is among the executed writes
    have key : ∀ (f : Int × Src → Option (Nat × Byte)) (cs : List (Int × Src)) (ws) (c) (w),
        cs.mapM f = some ws → c ∈ cs → f c = some w → w ∈ ws := by
      intro f cs
      induction cs with
      | nil => intro ws c w _ h; simp at h
      | cons a cs ih =>
        intro ws c w hm hc hf
        rw [List.mapM_cons] at hm
        cases ha : f a with
        | none => rw [ha] at hm; simp at hm
        | some x =>
          cases hcs : cs.mapM f with
          | none => rw [ha, hcs] at hm; simp at hm
          | some xs =>
            rw [ha, hcs] at hm
            simp at hm
            subst hm
            rcases List.mem_cons.1 hc with rfl | hc
            · rw [ha] at hf; simp at hf; simp [hf]
            · exact List.mem_cons_of_mem _ (ih xs c w hcs hc hf)
    exact key _ cs ws _ _ hm hmem (by decide)

/-! ## C08: reverse shuffle -/

/-- The writes in row order. -/
def revRows (w : Nat) (inp : List Int) (rows : List Nat) : List (Nat × Int) :=
  rows.filterMap fun (i : Nat) =>
    let index := (inp[i]?).getD 0
    if 0 ≤ index ∧ index < inp.length then some (index.toNat, (BitVec.ofInt w i).toInt) else none

theorem reverseShuffle_perm (w : Nat) (inp : List Int) {workers : Nat} {nt : Bool}
    {par : Option (List Nat)} (h : ChunkSched workers inp.length nt par) :
    (reverseShuffle w inp par).Perm (revRows w inp (List.range inp.length)) := by
  unfold reverseShuffle
  rcases h.cases with ⟨rfl, _⟩ | ⟨calls, rfl, hn, hp⟩
  · simp only
    rw [List.range_eq_range']; exact List.Perm.refl _
  · exact blocks_perm (revRows w inp) (by intro x y; simp [revRows]) rfl hp

/-- C08 (memory safety).  For arbitrary index arrays nothing is written outside the output. -/
theorem reverse_shuffle_in_bounds (w : Nat) (inp : List Int) {workers : Nat} {nt : Bool}
    {par : Option (List Nat)} (h : ChunkSched workers inp.length nt par) :
    ∃ out, runWrites inp.length (reverseShuffle w inp par) = some out ∧
      out.length = inp.length := by
  apply runWrites_isSome
  intro x hx
  have := (reverseShuffle_perm w inp h).mem_iff.1 hx
  simp only [revRows, List.mem_filterMap] at this
  obtain ⟨i, _, hi⟩ := this
  split at hi
  · simp only [Option.some.injEq] at hi; subst hi; simp only; omega
  · simp at hi

/-- C08.  For an index array that is a permutation of `0..n-1` (with values of a signed `w`-bit
type), `ReverseShuffle` returns the inverse permutation, for every schedule: `out[inp[i]] = i` and
`inp[out[j]] = j`, all output slots being written. -/
theorem reverse_shuffle_inverse (w : Nat) (inp : List Int) (hw : 0 < w)
    (hperm : inp.Perm ((List.range inp.length).map Int.ofNat))
    (hfit : ∀ v ∈ inp, v < 2 ^ (w - 1))
    {workers : Nat} {nt : Bool} {par : Option (List Nat)}
    (h : ChunkSched workers inp.length nt par) :
    ∃ out : List Int, runWrites inp.length (reverseShuffle w inp par) = some (out.map some) ∧
      out.length = inp.length ∧
      (∀ i (hi : i < inp.length), 0 ≤ inp[i] ∧ out[inp[i].toNat]? = some (i : Int)) ∧
      (∀ j (hj : j < out.length), 0 ≤ out[j] ∧ inp[out[j].toNat]? = some (j : Int)) := by
  have hrange : ∀ v ∈ inp, 0 ≤ v ∧ v < inp.length := by
    intro v hv
    obtain ⟨k, hk, rfl⟩ := List.mem_map.1 (hperm.mem_iff.1 hv)
    have := List.mem_range.1 hk
    simp only [Int.ofNat_eq_natCast]; omega
  have hn : ∀ i, i < inp.length → (BitVec.ofInt w (i : Int)).toInt = (i : Int) := by
    intro i hi
    have : ((i : Nat) : Int) ∈ inp := hperm.mem_iff.2 (List.mem_map.2 ⟨i, List.mem_range.2 hi, rfl⟩)
    have h2 := hfit _ this
    have hpos : (0 : Int) < 2 ^ (w - 1) := Int.pow_pos (by decide)
    exact readIdx_eq hw (by omega) h2
  have hrev : revRows w inp (List.range inp.length) =
      (List.range inp.length).map fun (i : Nat) => (((inp[i]?).getD 0).toNat, (i : Int)) := by
    unfold revRows
    rw [← List.filterMap_eq_map]
    apply filterMap_congr'
    intro i hi
    have hi := List.mem_range.1 hi
    have hr := hrange _ (List.getElem_mem hi)
    simp only [List.getElem?_eq_getElem hi, Option.getD_some, hr.1, hr.2, and_self, if_true,
      hn i hi, Function.comp]
  -- the inverse, as a function
  have hinv : ∀ j, j < inp.length → ∃ i, ∃ hi : i < inp.length, inp[i] = (j : Int) := by
    intro j hj
    have : ((j : Nat) : Int) ∈ inp := hperm.mem_iff.2 (List.mem_map.2 ⟨j, List.mem_range.2 hj, rfl⟩)
    exact List.getElem_of_mem this
  have hnd : inp.Nodup := hperm.nodup_iff.2
    (nodup_map_inj (fun a _ b _ h => Int.ofNat.inj h) List.nodup_range)
  let f : Nat → Int := fun j => (inp.idxOf (j : Int) : Int)
  have hf : ∀ i (hi : i < inp.length), f (inp[i].toNat) = (i : Int) := by
    intro i hi
    simp only [f]
    rw [Int.toNat_of_nonneg (hrange _ (List.getElem_mem hi)).1, hnd.idxOf_getElem i hi]
  have hws : ∀ x ∈ reverseShuffle w inp par, ∃ i, ∃ hi : i < inp.length,
      x = (inp[i].toNat, (i : Int)) := by
    intro x hx
    have := (reverseShuffle_perm w inp h).mem_iff.1 hx
    rw [hrev] at this
    obtain ⟨i, hi, rfl⟩ := List.mem_map.1 this
    have hi := List.mem_range.1 hi
    exact ⟨i, hi, by simp [hi]⟩
  have hrun := runWrites_eq f (n := inp.length) (ws := reverseShuffle w inp par)
    (by
      intro x hx
      obtain ⟨i, hi, rfl⟩ := hws x hx
      have := hrange _ (List.getElem_mem hi)
      simp only; omega)
    (by
      intro x hx
      obtain ⟨i, hi, rfl⟩ := hws x hx
      exact (hf i hi).symm)
  have hall : ∀ j, j < inp.length → j ∈ (reverseShuffle w inp par).map Prod.fst := by
    intro j hj
    obtain ⟨i, hi, he⟩ := hinv j hj
    rw [List.mem_map]
    refine ⟨(j, (i : Int)), (reverseShuffle_perm w inp h).mem_iff.2 ?_, rfl⟩
    rw [hrev, List.mem_map]
    exact ⟨i, List.mem_range.2 hi, by simp [hi, he]⟩
  refine ⟨(List.range inp.length).map f, ?_, by simp, ?_, ?_⟩
  · rw [hrun, List.map_map]
    congr 1
    apply List.map_congr_left
    intro j hj
    simp [hall j (List.mem_range.1 hj)]
  · intro i hi
    have hr := hrange _ (List.getElem_mem hi)
    refine ⟨hr.1, ?_⟩
    have : inp[i].toNat < inp.length := by omega
    simp [this, hf i hi]
  · intro j hj
    simp only [List.length_map, List.length_range] at hj
    obtain ⟨i, hi, he⟩ := hinv j hj
    have : f j = (i : Int) := by
      have := hf i hi
      rw [he] at this
      simpa using this
    simp [this, hi, he]

example : (reverseShuffle 8 [2, 0, 1] none) = [(2, 0), (0, 1), (1, 2)] := by decide
example : runWrites 3 (reverseShuffle 8 [2, 0, 1] none) = some [some 1, some 2, some 0] := by decide
/-- A repeated index leaves a slot uninitialised: the permutation hypothesis is needed. -/
example : runWrites 2 (reverseShuffle 8 [0, 0] none) = some [some 1, none] := by decide

/-! ## C45: group re-indexing -/

theorem reindexOne_eq (w : Nat) (uikey : List Int) (hw : 0 < w)
    (hfit : ∀ u ∈ uikey, -(2 : Int) ^ (w - 1) ≤ u ∧ u < 2 ^ (w - 1)) (start : Nat) (key : Int) :
    reindexOne w uikey start key = some (Spec.reindex uikey start key) := by
  unfold reindexOne Spec.reindex
  by_cases h0 : key ≤ 0
  · simp [h0]
  · by_cases h1 : (uikey.length : Int) < start + key
    · have : key > (if (uikey.length : Int) - start < 0 then 0 else (uikey.length : Int) - start) := by
        split <;> omega
      simp [h1, this]
    · have h2 : ¬ key > (if (uikey.length : Int) - start < 0 then 0
          else (uikey.length : Int) - start) := by
        split <;> omega
      have h3 : (0 : Int) ≤ start + (key - 1) := by omega
      have h4 : ((start : Int) + (key - 1)).toNat = start + (key.toNat - 1) := by omega
      have h5 : start + (key.toNat - 1) < uikey.length := by omega
      simp only [h0, h1, h2, or_self, if_false, h3, if_true, h4, List.getElem?_eq_getElem h5,
        Option.map_some, Option.getD_some]
      have := hfit _ (List.getElem_mem h5)
      have h6 := readIdx_eq hw this.1 this.2
      unfold readIdx at h6
      rw [h6]

theorem inplace_fold (g : Int → Int) (s n : Nat) (key : List Int) (h : s + n ≤ key.length) :
    ∃ out, (List.range n).foldlM (fun (key : List Int) (d : Nat) =>
        let j := (s : Int) + d
        if 0 ≤ j ∧ j < key.length then do
          let old ← key[j.toNat]?
          let v ← some (g old)
          pure (key.set j.toNat v)
        else none) key = some out ∧ out.length = key.length ∧
      ∀ j (hj : j < key.length), out[j]? =
        some (if s ≤ j ∧ j < s + n then g key[j] else key[j]) := by
  induction n with
  | zero =>
    refine ⟨key, rfl, rfl, ?_⟩
    intro j hj
    rw [if_neg (by omega), List.getElem?_eq_getElem hj]
  | succ n ih =>
    obtain ⟨out, ho, hl, hp⟩ := ih (by omega)
    rw [List.range_succ, List.foldlM_append, ho]
    have hlt : s + n < out.length := by omega
    have hlt' : s + n < key.length := by omega
    have hj : ((s : Int) + n).toNat = s + n := by omega
    have hv := hp (s + n) hlt'
    rw [if_neg (by omega), List.getElem?_eq_getElem hlt] at hv
    simp only [Option.some.injEq] at hv
    refine ⟨out.set (s + n) (g key[s + n]), ?_, by simpa using hl, ?_⟩
    · have hb : (0 : Int) ≤ (s : Int) + n ∧ (s : Int) + n < out.length := by omega
      simp [hb, hj, List.getElem?_eq_getElem hlt, hv]
    · intro j hjl
      by_cases he : s + n = j
      · subst he
        rw [List.getElem?_set_self hlt, if_pos (by omega)]
      · rw [List.getElem?_set_ne he, hp j hjl]
        congr 1
        by_cases hc : s ≤ j ∧ j < s + n
        · rw [if_pos hc, if_pos (by omega)]
        · rw [if_neg hc, if_neg (by omega)]

theorem reindexPartition_eq (w : Nat) (uikey : List Int) (hw : 0 < w)
    (hfit : ∀ u ∈ uikey, -(2 : Int) ^ (w - 1) ≤ u ∧ u < 2 ^ (w - 1))
    (ucut icut : List Nat) (hlen : ucut.length = icut.length) (key : List Int) (t : Nat)
    (ht : t < icut.length) (hb : icut[t] ≤ key.length) (hm : Spec.first icut t ≤ icut[t]) :
    ∃ out, reindexPartition w uikey (ucut.map Int.ofNat) (icut.map Int.ofNat) key t = some out ∧
      out.length = key.length ∧
      ∀ j (hj : j < key.length), out[j]? =
        some (if Spec.first icut t ≤ j ∧ j < icut[t] then
          Spec.reindex uikey (Spec.first ucut t) key[j] else key[j]) := by
  have hi : cutStart (icut.map Int.ofNat) t =
      some ((Spec.first icut t : Nat) : Int) := by
    unfold Spec.first cutStart
    by_cases h0 : t = 0
    · simp [h0]
    · have : t - 1 < icut.length := by omega
      have h1 : t > 0 := by omega
      simp [h0, h1, this]
  have hu : cutStart (ucut.map Int.ofNat) t =
      some ((Spec.first ucut t : Nat) : Int) := by
    unfold Spec.first cutStart
    by_cases h0 : t = 0
    · simp [h0]
    · have : t - 1 < ucut.length := by omega
      have h1 : t > 0 := by omega
      simp [h0, h1, this]
  have hs : (icut.map Int.ofNat)[t]? = some ((icut[t] : Nat) : Int) := by simp [ht]
  unfold reindexPartition
  rw [hi, hu, hs]
  simp only [Option.bind_eq_bind, Option.bind_some]
  have hd : (((icut[t] : Nat) : Int) - (Spec.first icut t : Nat)).toNat =
      icut[t] - Spec.first icut t := by omega
  rw [hd]
  obtain ⟨out, ho, hl, hp⟩ := inplace_fold (Spec.reindex uikey (Spec.first ucut t))
    (Spec.first icut t) (icut[t] - Spec.first icut t) key (by omega)
  refine ⟨out, ?_, hl, ?_⟩
  · rw [← ho]
    simp only [reindexOne_eq w uikey hw hfit, Option.bind_eq_bind]
  · intro j hj
    rw [hp j hj]
    congr 1
    have : Spec.first icut t + (icut[t] - Spec.first icut t) = icut[t] := by omega
    rw [this]

/-- C45.  Re-indexing: for increasing row cutoffs within the key array, unique keys fitting the key
type, and any completion order of the partitions, row `j` of partition `t` is remapped through the
unique keys of its own partition (0 stays 0, numbers beyond the unique keys become 0), and rows
after the last cutoff are unchanged; nothing is accessed out of bounds. -/
theorem reindex_groups_exact (w : Nat) (uikey : List Int) (hw : 0 < w)
    (hfit : ∀ u ∈ uikey, -(2 : Int) ^ (w - 1) ≤ u ∧ u < 2 ^ (w - 1))
    (ucut icut : List Nat) (hlen : ucut.length = icut.length) (ikey : List Int)
    (hmono : icut.Pairwise (· ≤ ·)) (hb : ∀ c ∈ icut, c ≤ ikey.length)
    (calls : List Nat) (hperm : calls.Perm (List.range icut.length)) :
    ∃ out, reindexGroups w uikey (ucut.map Int.ofNat) (icut.map Int.ofNat) ikey calls = some out ∧
      out.length = ikey.length ∧
      (∀ t (ht : t < icut.length) j (hj : j < ikey.length),
        Spec.first icut t ≤ j → j < icut[t] →
        out[j]? = some (Spec.reindex uikey (Spec.first ucut t) ikey[j])) ∧
      (∀ j (hj : j < ikey.length), (∀ c ∈ icut, c ≤ j) → out[j]? = some ikey[j]) := by
  have hmono' : ∀ a b (ha : a < icut.length) (hb : b < icut.length), a ≤ b → icut[a] ≤ icut[b] := by
    intro a b ha hb hab
    rcases Nat.lt_or_eq_of_le hab with h | rfl
    · exact List.pairwise_iff_getElem.1 hmono a b ha hb h
    · exact Nat.le_refl _
  have hfirst : ∀ t (ht : t < icut.length), Spec.first icut t ≤ icut[t] := by
    intro t ht
    unfold Spec.first
    split
    · omega
    · have h1 : t - 1 < icut.length := by omega
      simp only [List.getElem?_eq_getElem h1, Option.getD_some]
      exact hmono' _ _ h1 ht (by omega)
  -- two partitions do not overlap
  have hdisj : ∀ t t' (ht : t < icut.length) (ht' : t' < icut.length) j,
      Spec.first icut t ≤ j → j < icut[t] → Spec.first icut t' ≤ j → j < icut[t'] → t = t' := by
    have key : ∀ t t' (ht : t < icut.length) (ht' : t' < icut.length) j,
        j < icut[t] → Spec.first icut t' ≤ j → ¬ t < t' := by
      intro t t' ht ht' j h1 h2 hlt
      unfold Spec.first at h2
      rw [if_neg (by omega)] at h2
      have h3 : t' - 1 < icut.length := by omega
      simp only [List.getElem?_eq_getElem h3, Option.getD_some] at h2
      have := hmono' t (t' - 1) ht h3 (by omega)
      omega
    intro t t' ht ht' j h1 h2 h3 h4
    have a := key t t' ht ht' j h2 h3
    have b := key t' t ht' ht j h4 h1
    omega
  have gen : ∀ (calls : List Nat) (key : List Int), calls.Nodup →
      (∀ t ∈ calls, t < icut.length) → key.length = ikey.length →
      ∃ out, calls.foldlM (reindexPartition w uikey (ucut.map Int.ofNat) (icut.map Int.ofNat)) key =
          some out ∧ out.length = key.length ∧
        (∀ t (ht : t < icut.length) j (hj : j < key.length), t ∈ calls →
          Spec.first icut t ≤ j → j < icut[t] →
          out[j]? = some (Spec.reindex uikey (Spec.first ucut t) key[j])) ∧
        (∀ j (hj : j < key.length), (∀ t (ht : t < icut.length), t ∈ calls →
          ¬ (Spec.first icut t ≤ j ∧ j < icut[t])) → out[j]? = some key[j]) := by
    intro calls
    induction calls with
    | nil =>
      intro key _ _ _
      exact ⟨key, rfl, rfl, by simp, by intro j hj _; exact List.getElem?_eq_getElem hj⟩
    | cons c cs ih =>
      intro key hnd hlt hkl
      have hc : c < icut.length := hlt c (by simp)
      obtain ⟨o1, e1, l1, p1⟩ := reindexPartition_eq w uikey hw hfit ucut icut hlen key c hc
        (by rw [hkl]; exact hb _ (List.getElem_mem hc)) (hfirst c hc)
      obtain ⟨o2, e2, l2, p2, q2⟩ := ih o1 (List.nodup_cons.1 hnd).2
        (fun t ht => hlt t (by simp [ht])) (by omega)
      refine ⟨o2, ?_, by omega, ?_, ?_⟩
      · rw [List.foldlM_cons, e1]; exact e2
      · intro t ht j hj hmem h1 h2
        have hj1 : j < o1.length := by omega
        have hv := p1 j hj
        rw [List.getElem?_eq_getElem hj1] at hv
        simp only [Option.some.injEq] at hv
        rcases List.mem_cons.1 hmem with rfl | hmem'
        · rw [if_pos ⟨h1, h2⟩] at hv
          rw [q2 j hj1 ?_, hv]
          intro t' ht' hm' hcon
          have := hdisj t t' ht ht' j h1 h2 hcon.1 hcon.2
          subst this
          exact (List.nodup_cons.1 hnd).1 hm'
        · rw [p2 t ht j hj1 hmem' h1 h2, hv, if_neg]
          intro hcon
          have := hdisj t c ht hc j h1 h2 hcon.1 hcon.2
          subst this
          exact (List.nodup_cons.1 hnd).1 hmem'
      · intro j hj hno
        have hj1 : j < o1.length := by omega
        have hv := p1 j hj
        rw [List.getElem?_eq_getElem hj1, if_neg (hno c hc (by simp))] at hv
        simp only [Option.some.injEq] at hv
        rw [q2 j hj1 (fun t ht hm => hno t ht (by simp [hm])), hv]
  obtain ⟨out, e, l, p, q⟩ := gen calls ikey (hperm.nodup_iff.2 List.nodup_range)
    (fun t ht => List.mem_range.1 (hperm.mem_iff.1 ht)) rfl
  refine ⟨out, e, l, ?_, ?_⟩
  · intro t ht j hj h1 h2
    exact p t ht j hj (hperm.mem_iff.2 (List.mem_range.2 ht)) h1 h2
  · intro j hj hno
    apply q j hj
    intro t ht _ hcon
    have := hno _ (List.getElem_mem ht)
    omega

/-- Two partitions processed in reverse order; 0 stays filtered, 9 is beyond the unique keys. -/
example : reindexGroups 8 [5, 7, 7, 6] [2, 4] [3, 5] [1, 2, 0, 1, 9] [1, 0] =
    some [5, 7, 0, 7, 0] := by decide

/-- A unique key that does not fit the key type is truncated: the fitting hypothesis is needed. -/
example : reindexGroups 8 [300] [1] [1] [1] [0] = some [44] := by decide

end Riptide.Take
