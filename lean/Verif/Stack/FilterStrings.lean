import Verif.Stack.FilterProps
/-! # Strings that are stacked with a filter -/
namespace Riptide.Stack
open Riptide.Sds Riptide.Convert

/-- A file with strings that fit a column and fill its rows. -/
structure StrPart (k : Block) (p : Part) : Prop where
  block : ∀ b, p.block = some b → Str b ∧ k.dims.length = b.dims.length ∧ k.dims.drop 1 = b.dims.drop 1 ∧ (k.dtype = 18 → b.dtype = 18) ∧
    need k.dtype b ≤ k.item ∧ p.data.length = p.own * rowSize b
  item : ∀ b, p.block = some b → b.item ≠ 0 ∧ (k.dtype ≠ b.dtype → b.item * 4 = k.item)
  full : Full p
  gap : p.block = none → cols k * p.rows < 2 ^ 31

theorem StrPart.sift {k : Block} {p : Part} (h : StrPart k p) (mask : List Bool) (u : Nat) : StrPart k (siftPart mask u p) := by
  refine ⟨?_, ?_, siftPart_full h.full, ?_⟩
  · intro b' hb'
    obtain ⟨b, hb⟩ := siftPart_some hb'
    obtain ⟨b1, b3, b4, b5, b6, b7⟩ := h.block b hb
    obtain ⟨c1, c2, c3, c4, c5, c6, c7, _⟩ := siftPart_data hb b7 h.full hb'
    refine ⟨?_, by rw [c6]; exact b3, by rw [c7]; exact b4, by rw [c3]; exact b5, ?_, c1⟩
    · unfold Str at b1 ⊢
      rw [c3]
      exact b1
    · unfold need at b6 ⊢
      rw [c3, c4]
      exact b6
  · intro b' hb'
    obtain ⟨b, hb⟩ := siftPart_some hb'
    obtain ⟨b1, b3, b4, b5, b6, b7⟩ := h.block b hb
    obtain ⟨c1, c2, c3, c4, c5, c6, c7, _⟩ := siftPart_data hb b7 h.full hb'
    rw [c3, c4]
    exact h.item b hb
  · intro hb
    rw [siftPart_rows h.full]
    exact Nat.lt_of_le_of_lt (Nat.mul_le_mul_left _ (trues_le _ _ _)) (h.gap (siftPart_gap hb))

theorem row_sizes {k b : Block} (h1 : k.dims.drop 1 = b.dims.drop 1) (h2 : need k.dtype b ≤ k.item) : rowSize b ≤ rowSize k := by
  unfold rowSize cols
  rw [h1]
  refine Nat.mul_le_mul_right _ ?_
  unfold need at h2
  split at h2 <;> omega

theorem str_full {k : Block} {p : Part} (h : StrPart k p) (a : Nat) : (strBytes k ⟨a, p.rows, p⟩).length = rowSize k * p.rows := by
  unfold strBytes
  dsimp only
  cases hb : p.block with
  | none =>
    dsimp only
    obtain ⟨l, hl⟩ := gapFill_some (h.gap hb)
    rw [hl, Option.getD_some, gapFill_length hl]
  | some b =>
    dsimp only
    obtain ⟨b1, b3, b4, b5, b6, b7⟩ := h.block b hb
    obtain ⟨i1, i2⟩ := h.item b hb
    have hr := own_rows h.full (by rw [hb]; simp)
    have hc : cols k = cols b := by unfold cols; rw [b4]
    have hrs := row_sizes b4 b6
    split
    · rename_i hz
      rcases hz with hz | hz
      · rw [hr, hz]; rfl
      · unfold rowSize at hz ⊢
        rw [hc]
        rcases Nat.mul_eq_zero.mp hz with h0 | h0
        · omega
        · rw [h0]; simp
    · split
      · split
        · rename_i he
          rw [b7, hr]
          unfold rowSize
          rw [he, hc, Nat.mul_comm]
        · rw [stretched_length b7, hr, Nat.mul_comm]
          congr 1
          omega
      · rename_i he
        rw [chars_length, b7, hr]
        unfold rowSize
        rw [← i2 he, hc, Nat.mul_comm _ p.own, Nat.mul_assoc]
        congr 1
        rw [Nat.mul_right_comm]

theorem str_sift {k : Block} {p : Part} (h : StrPart k p) (mask : List Bool) (a a' u : Nat) :
    strBytes k ⟨a', trues mask u p.rows, siftPart mask u p⟩ = Sds.sift (rowSize k) ((mask.drop u).take p.rows) (strBytes k ⟨a, p.rows, p⟩) := by
  have hfull := str_full h a
  cases hb : p.block with
  | none =>
    rw [siftPart_none hb]
    unfold strBytes
    dsimp only
    rw [hb]
    exact gap_sift (h.gap hb)
  | some b =>
    obtain ⟨b1, b3, b4, b5, b6, b7⟩ := h.block b hb
    obtain ⟨i1, i2⟩ := h.item b hb
    have hr := own_rows h.full (by rw [hb]; simp)
    have hc : cols k = cols b := by unfold cols; rw [b4]
    have hrs' := row_sizes b4 b6
    cases hd : b.dims with
    | nil =>
      rw [siftPart_nil hb hd]
      have h0 : p.own = 0 := by unfold Part.own; rw [hb]; dsimp only; rw [hd]; rfl
      unfold strBytes
      dsimp only
      rw [hb]
      dsimp only
      rw [if_pos (.inl h0), sift_nil]
    | cons d ds =>
      by_cases ht : trues mask u p.rows = 0
      · have hz : (Sds.sift (rowSize k) ((mask.drop u).take p.rows) (strBytes k ⟨a, p.rows, p⟩)) = [] := by
          refine List.eq_nil_of_length_eq_zero ?_
          rw [sift_length, ← trues_eq, ht, Nat.zero_mul]
          rw [hfull, Nat.mul_comm, List.length_take]
          exact Nat.mul_le_mul_left _ (by omega)
        rw [hz, siftPart_cons hb hd]
        unfold strBytes
        dsimp only
        rw [if_pos (.inl ht)]
      · have hrs : rowSize { b with dims := trues mask u p.rows :: ds } = rowSize b := by unfold rowSize cols; dsimp only; rw [hd]; rfl
        have hown' : (Part.mk (some { b with dims := trues mask u p.rows :: ds })
          (Sds.sift (rowSize b) ((mask.drop u).take p.rows) p.data) (trues mask u p.rows)).own = trues mask u p.rows := rfl
        have hp0 : p.own ≠ 0 := by
          intro h0
          have := trues_le mask u p.rows
          omega
        have hlen : p.own * rowSize b ≤ p.data.length := Nat.le_of_eq b7.symm
        have hms : ((mask.drop u).take p.rows).length ≤ p.own := by rw [List.length_take]; omega
        have hsl : (Sds.sift (rowSize b) ((mask.drop u).take p.rows) p.data).length = trues mask u p.rows * rowSize b := by
          rw [sift_length _ _ (Nat.le_trans (Nat.mul_le_mul_right _ hms) hlen), ← trues_eq]
        rw [siftPart_cons hb hd]
        unfold strBytes
        dsimp only
        rw [hb]
        dsimp only
        rw [hrs, hown']
        by_cases hz : rowSize b = 0
        · rw [if_pos (.inr hz), if_pos (.inr hz), sift_nil]
        · rw [if_neg (show ¬(trues mask u p.rows = 0 ∨ rowSize b = 0) by omega), if_neg (show ¬(p.own = 0 ∨ rowSize b = 0) by omega)]
          by_cases he : k.dtype = b.dtype
          · rw [if_pos he, if_pos he]
            by_cases hi : k.item = b.item
            · rw [if_pos hi, if_pos hi]
              congr 1
              unfold rowSize
              rw [hi, hc]
            · rw [if_neg hi, if_neg hi, stretched_rows, stretched_rows, sift_mapRows (b' := rowSize k) _ _ _ _ hms hlen, ← trues_eq]
              intro r hrl
              rw [List.length_append, List.length_replicate, hrl]
              omega
          · rw [if_neg he, if_neg he, chars_rows p.own p.data b7, sift_mapRows (b' := rowSize k) _ _ _ _ hms hlen, ← trues_eq,
              ← chars_rows _ _ hsl]
            intro r hrl
            rw [chars_length, hrl]
            unfold rowSize
            rw [← i2 he, hc, Nat.mul_right_comm]

/-- The same for strings, if byte strings among strings of characters are as long as those. -/
theorem filtered_strings_partial {l : List Part} {tail : List Nat} {n extra : Nat} (h : Stackable l tail n) (hn : ∀ b ∈ blocks l, Str b ∧ b.item ≠ 0)
    (hgap : ∀ p ∈ l, p.block = none → width tail * p.rows < 2 ^ 31) (mask : List Bool)
    (hlast : extra = 0 ∨ ∀ p, l.getLast? = some p → p.block ≠ none) :
    ∃ k, king (blocks l) = some k ∧ rowSize k = k.item * width tail ∧ ((∀ b ∈ blocks l, k.dtype ≠ b.dtype → b.item * 4 = k.item) →
      ∀ order, order.Perm (packets 0 0 l) → ∀ m : List Nat, m.length = rowSize k * totalRows 0 l →
      ∀ order', order'.Perm (fpackets extra 0 0 l (firstCounts mask 0 l)) → ∀ m' : List Nat, m'.length = rowSize k * set mask (totalRows 0 l) →
        ∃ r, fillAll k order m = some r ∧ fillAllFiltered k mask order' m' = some (selected (rowSize k) mask (totalRows 0 l) r)) := by
  obtain ⟨k, k1, k2, k3, k4, k5⟩ := strings_fit h.present (fun b hb => (hn b hb).1) h.shape
  have hks : Str k := by
    rcases Classical.em (∃ b ∈ blocks l, b.dtype = 19) with he | he
    · exact .inr (k2.mpr he)
    · exact .inl (k3.mpr (fun b hb => (hn b hb).1.resolve_right (fun h19 => he ⟨b, hb, h19⟩)))
  obtain ⟨b0, hb0, hkd⟩ := king_dims k1
  have hlen : k.dims.length = n := by rw [hkd]; exact h.shape.len b0 hb0
  have htail : k.dims.drop 1 = tail := by rw [hkd]; exact h.shape.tail b0 hb0
  have hck : cols k = width tail := by unfold cols width; rw [htail]
  refine ⟨k, k1, by unfold rowSize; rw [hck], ?_⟩
  intro h4 order ho m hm order' ho' m' hm'
  refine filtered_column (w := strBytes k) (StrPart k) (fun p hp => hp.full) (fun p u hp => hp.sift mask u) ?_ (fun p a a' u hp => str_sift hp mask a a' u)
    ?_ ?_ hlast ho hm ho' hm'
  · intro p a hp
    exact ⟨(str_writes hks hp.gap (Nat.le_refl _) hp.block).1, str_full hp a⟩
  · intro p hp b hb
    obtain ⟨b1, b3, b4, b5, b6, b7⟩ := hp.block b hb
    exact ⟨(compat_flags_str hks b1 b3 b4 b5).1, b7⟩
  · intro p hp
    refine ⟨?_, ?_, fun hb h0 => h.empty p hp hb h0, fun hb => by rw [hck]; exact hgap p hp hb⟩
    · intro b hb
      have hbl : b ∈ blocks l := mem_blocks.mpr ⟨p, hp, hb⟩
      refine ⟨(hn b hbl).1, ?_, ?_, fun h18 => k3.mp h18 b hbl, k4 b hbl, (h.bytes p hp b hb).1⟩
      · rw [hlen, h.shape.len b hbl]
      · rw [htail, h.shape.tail b hbl]
    · intro b hb
      have hbl : b ∈ blocks l := mem_blocks.mpr ⟨p, hp, hb⟩
      exact ⟨(hn b hbl).2, h4 b hbl⟩

end Riptide.Stack
