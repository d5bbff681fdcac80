import Verif.Sds.Save
import Verif.Sds.SaveSpec
import Verif.Sds.SectionProps
import Verif.Arrays.KeepOrder
import Verif.Common.Lists
/-! Lemmas on saving and loading (C153). -/
namespace Riptide.Sds.Save
open Riptide.Nums (Mem memOf Bits HasBits Has AllAt)
open Riptide.Nums.Info
open Riptide.Mask.Call.Spec (inC inF Even)
open Riptide.Sds.Save.Spec

theorem foldl_prod : ∀ (l : List Nat) (a : Nat), l.foldl (· * ·) a = a * Binary.prod l
  | [], a => by simp [Binary.prod]
  | d :: l, a => by rw [List.foldl_cons, foldl_prod l, Binary.prod, Nat.mul_assoc]

theorem prod_eq (l : List Nat) : Sds.prod l = Binary.prod l := by
  unfold Sds.prod
  rw [foldl_prod, Nat.one_mul]

theorem unpattern_pattern {s : Int} (h : -2 ^ 63 ≤ s ∧ s < 2 ^ 63) : unpattern (pattern s) = s := by
  unfold unpattern pattern
  have h1 : (0 : Int) ≤ s % 2 ^ 64 := Int.emod_nonneg _ (by decide)
  by_cases h0 : 0 ≤ s
  · have : s % 2 ^ 64 = s := Int.emod_eq_of_lt h0 (by omega)
    rw [this, if_pos (by omega)]
    omega
  · have : s % 2 ^ 64 = s + 2 ^ 64 := by omega
    rw [this, if_neg (by omega)]
    omega

theorem pattern_lt (s : Int) : pattern s < 2 ^ 64 := by
  unfold pattern
  have h1 : (0 : Int) ≤ s % 2 ^ 64 := Int.emod_nonneg _ (by decide)
  have h2 : s % 2 ^ 64 < 2 ^ 64 := Int.emod_lt_of_pos _ (by decide)
  omega

theorem allAt_mono {β : Type} {P Q : Int → β → Prop} : ∀ {os : List Int} {xs : List β}, AllAt P os xs → (∀ o ∈ os, ∀ x, P o x → Q o x) →
    AllAt Q os xs
  | [], [], _, _ => trivial
  | o :: os, x :: xs, h, g => ⟨g o (by simp) x h.1, allAt_mono h.2 fun o' ho => g o' (by simp [ho])⟩
  | [], _ :: _, h, _ => h.elim
  | _ :: _, [], h, _ => h.elim

/-- Where the bytes are the same, the items are the same. -/
theorem hasBits_congr {w : Nat} {sw : Bool} {m m' : Mem} {o o' : Int} {b : Nat} (h : ∀ j : Nat, j < w → m' (o' + j) = m (o + j))
    (hb : HasBits w sw m o b) : HasBits w sw m' o' b := by
  refine ⟨hb.1, fun j hj => ?_⟩
  have hw : j < w := by rw [has_len] at hj; exact hj
  rw [h j hw]
  exact hb.2 j hj

/-- The places of the items of a contiguous array are inside of its bytes, and cover them. -/
theorem contig_places {l : Binary.Lay} (hw : l.strides.length = l.dims.length) (h : l.cContig = true ∨ l.fContig = true) :
    ∀ o : Int, o ∈ inC l.dims l.strides ↔ ∃ k : Nat, k < l.len ∧ o = ((k * l.item : Nat) : Int) := by
  have key : inC l.dims l.strides = (List.range l.len).map (fun (k : Nat) => (k : Int) * l.item) ∨
      (inC l.dims l.strides).Perm ((List.range l.len).map (fun (k : Nat) => (k : Int) * l.item)) := by
    rcases h with h | h
    · exact .inl (Mask.Call.even_eq (Mask.Call.contiguous_even_c hw h) (Mask.Call.inC_length _ _ hw))
    · have := Mask.Call.even_eq (Mask.Call.contiguous_even_f hw h) (Mask.Call.inF_length _ _ hw)
      exact .inr (this ▸ (Mask.Call.inF_perm l.dims l.strides).symm)
  intro o
  have hm : o ∈ inC l.dims l.strides ↔ o ∈ (List.range l.len).map (fun (k : Nat) => (k : Int) * l.item) := by
    rcases key with e | e
    · rw [e]
    · exact e.mem_iff
  rw [hm, List.mem_map]
  constructor
  · rintro ⟨k, hk, rfl⟩; exact ⟨k, List.mem_range.1 hk, by rw [Int.natCast_mul]⟩
  · rintro ⟨k, hk, rfl⟩; exact ⟨k, List.mem_range.2 hk, by rw [Int.natCast_mul]⟩

/-- The array which is looked at: its items are packed, and they are those of the array. -/
structure Packed (a : Nums.Arr) (m : Mem) (b : Nums.Arr) (mb : Mem) : Prop where
  type : b.type = a.type
  dims : b.lay.dims = a.lay.dims
  item : b.lay.item = a.lay.item
  native : b.swapped = false
  strides : b.lay.strides.length = b.lay.dims.length
  dists : ∀ s ∈ b.lay.strides, -2 ^ 63 ≤ s ∧ s < 2 ^ 63
  first : b.lay.dims.length = 1 → 0 < b.lay.len → b.lay.strides.head? = some (b.lay.item : Int)
  there : ∀ k : Nat, k < b.lay.len * b.lay.item → (mb (k : Int)).isSome = true
  inside : ∀ o ∈ inC b.lay.dims b.lay.strides, 0 ≤ o ∧ o + b.lay.item ≤ ((b.lay.len * b.lay.item : Nat) : Int)
  same : ∀ vs, Bits a.lay.item a m vs → Bits a.lay.item b mb vs

theorem byte_split {k n w : Nat} (h : k < n * w) : k / w < n ∧ k % w < w ∧ ((k : Int)) = ((k / w * w : Nat) : Int) + ((k % w : Nat) : Int) := by
  have hw : 0 < w := by
    rcases Nat.eq_zero_or_pos w with h0 | h0
    · subst h0; simp at h
    · exact h0
  refine ⟨Nat.div_lt_of_lt_mul (by rwa [Nat.mul_comm] at h), Nat.mod_lt _ hw, ?_⟩
  have := Nat.div_add_mod k w
  rw [Nat.mul_comm] at this
  omega

theorem places_inside {l : Binary.Lay} {o : Int} {k : Nat} (hk : k < l.len) (ho : o = ((k * l.item : Nat) : Int)) :
    0 ≤ o ∧ o + l.item ≤ ((l.len * l.item : Nat) : Int) := by
  have h1 : (k + 1) * l.item ≤ l.len * l.item := Nat.mul_le_mul_right _ hk
  rw [Nat.succ_mul] at h1
  subst ho
  omega

theorem packed_contig {a : Nums.Arr} {m : Mem} (h : Fit a m) (hc : a.lay.cContig = true ∨ a.lay.fContig = true) : Packed a m a m where
  type := rfl
  dims := rfl
  item := rfl
  native := h.native
  strides := h.strides
  dists := h.dists
  first := by
    intro h1 hp
    obtain ⟨type, ⟨dims, strides, item⟩, sw⟩ := a
    have hs := h.strides
    have h2 := h.single
    simp only at h1 hp hs hc h2
    match dims, strides, h1, hs with
    | [n], [s], _, _ =>
      by_cases hn : n = 1
      · subst hn; have := h2 rfl; simp only [List.cons.injEq, and_true] at this; simp [this]
      · simp only [Binary.Lay.len, Binary.prod, Nat.mul_one] at hp
        simp only [Binary.Lay.cContig, Binary.Lay.fContig, Binary.Lay.len, Binary.prod, Binary.cStrides, Binary.fStrides, Binary.sameStrides,
          Bool.or_eq_true, decide_eq_true_eq, Bool.and_true, hn, false_or, Nat.mul_one, Nat.one_mul] at hc
        have : n ≠ 0 := by omega
        simp only [this, false_or, or_self] at hc
        simp [hc]
  there := by
    intro k hk
    obtain ⟨h1, h2, h3⟩ := byte_split hk
    rw [h3]
    exact h.there _ ((contig_places h.strides hc _).2 ⟨_, h1, rfl⟩) _ h2
  inside := by
    intro o ho
    obtain ⟨k, hk, e⟩ := (contig_places h.strides hc o).1 ho
    exact places_inside hk e
  same := fun vs hv => hv

theorem allAt_zip {β : Type} {P Q : Int → β → Prop} : ∀ {ps qs : List Int} {xs : List β}, AllAt P qs xs → ps.length = qs.length →
    (∀ p q, (p, q) ∈ ps.zip qs → ∀ x, P q x → Q p x) → AllAt Q ps xs
  | [], [], [], _, _, _ => trivial
  | p :: ps, q :: qs, x :: xs, h, hl, g =>
    ⟨g p q (by simp) x h.1, allAt_zip h.2 (by simpa using hl) fun p' q' h' => g p' q' (by simp [h'])⟩
  | [], [], _ :: _, h, _, _ => h.elim
  | _ :: _, _ :: _, [], h, _, _ => h.elim
  | [], _ :: _, _, _, hl, _ => by simp at hl
  | _ :: _, [], _, _, hl, _ => by simp at hl

theorem packed_copy {a : Nums.Arr} {m : Mem} (h : Fit a m) (h0 : a.lay.len ≠ 0) : Packed a m (copyOf a m).1 (copyOf a m).2 := by
  have hs := h.strides
  have hlen : (keepLay a.lay).len = a.lay.len := rfl
  have hmem : ∀ o : Int, o ∈ inC a.lay.dims (keepLay a.lay).strides ↔ ∃ k : Nat, k < a.lay.len ∧ o = ((k * a.lay.item : Nat) : Int) := by
    intro o
    rw [(keepLay_places a.lay hs).mem_iff, List.mem_map]
    constructor
    · rintro ⟨k, hk, rfl⟩; exact ⟨k, List.mem_range.1 hk, by rw [Int.natCast_mul]⟩
    · rintro ⟨k, hk, rfl⟩; exact ⟨k, List.mem_range.2 hk, by rw [Int.natCast_mul]⟩
  have hl : (inC a.lay.dims (keepLay a.lay).strides).length = (inC a.lay.dims a.lay.strides).length := by
    rw [Mask.Call.inC_length _ _ (keepLay_strides a.lay), Mask.Call.inC_length _ _ hs]
  constructor
  · rfl
  · rfl
  · rfl
  · exact h.native
  · exact keepLay_strides a.lay
  · intro t ht
    have h1 := keepStride_le a.lay hs h0 t ht
    have h2 := h.size
    omega
  · intro h1 _
    obtain ⟨type, ⟨dims, strides, item⟩, sw⟩ := a
    simp only [copyOf, keepLay] at h1 hs
    match dims, strides, h1, hs with
    | [n], [s], _, _ => simp only [copyOf, keepLay_one]; rfl
  · intro k hk
    have hk' : k < a.lay.len * a.lay.item := hk
    obtain ⟨g1, g2, g3⟩ := byte_split hk'
    have hp := (hmem _).2 ⟨_, g1, rfl⟩
    obtain ⟨i, hi, ei⟩ := List.mem_iff_getElem.1 hp
    have hz : ((inC a.lay.dims (keepLay a.lay).strides)[i], (inC a.lay.dims a.lay.strides)[i]'(by omega)) ∈
        (inC a.lay.dims (keepLay a.lay).strides).zip (inC a.lay.dims a.lay.strides) := by
      rw [← List.getElem_zip (h := by rw [List.length_zip]; omega)]
      exact List.getElem_mem _
    rw [ei] at hz
    rw [g3, copyOf_get a m hs hz g2]
    exact h.there _ (List.getElem_mem _) _ g2
  · intro o ho
    obtain ⟨k, hk, e⟩ := (hmem o).1 ho
    exact places_inside (by rw [show (copyOf a m).1.lay.len = a.lay.len from rfl]; exact hk) e
  · intro vs hv
    unfold Bits at hv ⊢
    exact allAt_zip hv hl fun p q hpq x hx => hasBits_congr (fun j hj => copyOf_get a m hs hpq hj) hx

theorem taken_packed {a : Nums.Arr} {m : Mem} (h : Fit a m) : ∃ b mb cp, taken true true a m = some (b, mb, cp) ∧ Packed a m b mb := by
  by_cases hc : a.lay.cContig = true ∨ a.lay.fContig = true
  · refine ⟨a, m, false, ?_, packed_contig h hc⟩
    simp only [taken, ensure, Bool.or_eq_true, if_true]
    rw [if_pos hc]
  · refine ⟨_, _, true, ?_, packed_copy h ?_⟩
    · simp only [taken, ensure, Bool.or_eq_true, if_true]
      rw [if_neg hc]
    · intro e
      exact hc (.inl (by simp [Binary.Lay.cContig, e]))

theorem bytesAt_some {b : Nums.Arr} {m : Mem} (h : ∀ k : Nat, k < b.lay.len * b.lay.item → (m (k : Int)).isSome = true) :
    ∃ d, bytesAt b m = some d ∧ d.length = b.lay.len * b.lay.item ∧
      ∀ k : Nat, k < b.lay.len * b.lay.item → memOf 0 (d.map (BitVec.ofNat 8)) (k : Int) = m (k : Int) := by
  refine ⟨(List.range (b.lay.len * b.lay.item)).map fun (k : Nat) => ((m (k : Int)).getD 0).toNat, ?_, by simp, ?_⟩
  · unfold bytesAt
    apply mapM_some
    intro k hk
    have := h k (List.mem_range.1 hk)
    cases hm : m (k : Int) with
    | none => rw [hm] at this; nomatch this
    | some v => rfl
  · intro k hk
    have h1 := h k hk
    unfold memOf
    rw [if_pos (by omega), List.map_map, List.getElem?_map]
    rw [show ((k : Int) - 0).toNat = k by omega, List.getElem?_range hk]
    cases hm : m (k : Int) with
    | none => rw [hm] at h1; nomatch h1
    | some v =>
      simp only [Option.map_some, Function.comp_def, hm, Option.getD_some, BitVec.ofNat_toNat, BitVec.setWidth_eq]

end Riptide.Sds.Save
