import Verif.Stack.FilterSpec
import Verif.Stack.FilterLemmas
import Verif.Stack.RotateLemmas
/-! # A filtered column has the rows of the stacked column at which the mask is set -/
namespace Riptide.Stack
open Riptide.Sds Riptide.Convert

theorem count_set (mask : List Bool) (n : Nat) : (mask.take n).count true = set mask n := by
  unfold set
  induction n with
  | zero => simp
  | succ n ih =>
    rw [List.take_add_one, List.count_append, ih, List.range_succ, List.filter_append, List.length_append]
    congr 1
    simp only [List.filter_cons, List.filter_nil, List.getD]
    cases mask[n]? with
    | none => simp
    | some b => cases b <;> simp

/-- The counts of the files add up to the rows which are set. -/
theorem counts_total (mask : List Bool) (l : List Part) : (firstCounts mask 0 l).sum = set mask (totalRows 0 l) := by
  rw [firstCounts_sum, List.drop_zero, count_set]
  rfl

/-- What is allocated is what they need, whatever is reserved. -/
theorem allocated (mask : List Bool) (l : List Part) (extra : Nat) :
    filteredRows (firstCounts mask 0 l).sum extra (firstCounts mask 0 l) = set mask (totalRows 0 l) := by
  unfold filteredRows
  rw [counts_total]
  omega

/-- The other columns take the counts of the first, which are theirs if the lengths are. -/
theorem later_counts (mask : List Bool) (l l' : List Part) (h : l.map Part.rows = l'.map Part.rows) :
    laterCounts mask 0 l' (firstCounts mask 0 l) = firstCounts mask 0 l' := laterCounts_same mask l l' 0 h

/-- The parts of the files that are left by a mask. -/
def siftAll (mask : List Bool) : Nat → List Part → List Part
  | _, [] => []
  | u, p :: l => siftPart mask u p :: siftAll mask (u + p.rows) l

/-- The packet of fewer rows. -/
def toPacket (mask : List Bool) (x : FPacket) : Packet := ⟨x.off, x.count, siftPart mask x.orig x.part⟩

/-- Files with rows where the column has. -/
def Full (p : Part) : Prop := p.block ≠ none → p.own = 0 → p.len = 0

theorem siftPart_rows {mask : List Bool} {u : Nat} {p : Part} (h : Full p) : (siftPart mask u p).rows = trues mask u p.rows := by
  cases hb : p.block with
  | none => rw [siftPart_none hb]; rfl
  | some b =>
    cases hd : b.dims with
    | nil =>
      rw [siftPart_nil hb hd]
      have h0 : p.own = 0 := by unfold Part.own; rw [hb]; dsimp only; rw [hd]; rfl
      have hr : p.rows = 0 := by unfold Part.rows; rw [if_pos h0, h (by rw [hb]; simp) h0]
      rw [hr, trues_eq]
      simp
    | cons d ds =>
      rw [siftPart_cons hb hd]
      have ho : (Part.mk (some { b with dims := trues mask u p.rows :: ds }) (sift (rowSize b) ((mask.drop u).take p.rows) p.data)
        (trues mask u p.rows)).own = trues mask u p.rows := rfl
      generalize hq : (Part.mk (some { b with dims := trues mask u p.rows :: ds }) (sift (rowSize b) ((mask.drop u).take p.rows) p.data)
        (trues mask u p.rows)) = q at ho
      have hl : q.len = trues mask u p.rows := by rw [← hq]
      have : q.rows = if q.own = 0 then q.len else q.own := rfl
      rw [this, ho, hl]
      split <;> rfl

theorem fpackets_map (mask : List Bool) (extra : Nat) : ∀ (l : List Part) (o u : Nat), (∀ p ∈ l, Full p) →
    (fpackets extra o u l (firstCounts mask u l)).map (toPacket mask) = packets 0 o (siftAll mask u l)
  | [], _, _, _ => rfl
  | [p], o, u, h => by
    rw [firstCounts, fpackets, List.map_cons, siftAll, siftAll, packets, siftPart_rows (h p (by simp))]
    rfl
  | p :: q :: l, o, u, h => by
    rw [firstCounts, firstCounts, fpackets, List.map_cons, ← firstCounts, fpackets_map mask extra (q :: l) _ _ (fun r hr => h r (by simp [hr]))]
    have hp := siftPart_rows (mask := mask) (u := u) (h p (by simp))
    show _ = Packet.mk o (siftPart mask u p).rows (siftPart mask u p) :: packets 0 (o + (siftPart mask u p).rows) (siftAll mask (u + p.rows) (q :: l))
    rw [hp]
    rfl

theorem fpackets_mem (mask : List Bool) (extra : Nat) : ∀ (l : List Part) (o u : Nat) (x : FPacket), x ∈ fpackets extra o u l (firstCounts mask u l) →
    x.part ∈ l ∧ x.count = trues mask x.orig x.part.rows ∧ (x.gap = x.count + extra ∨ x.gap = x.count) ∧
      (x.gap = x.count ∨ l.getLast? = some x.part)
  | [], _, _, _, h => by simp [fpackets] at h
  | [p], o, u, x, h => by
    simp [firstCounts, fpackets] at h
    subst h
    simp
  | p :: q :: l, o, u, x, h => by
    rw [firstCounts, firstCounts, fpackets, ← firstCounts, List.mem_cons] at h
    rcases h with h | h
    · subst h
      simp
    · obtain ⟨h1, h2, h3, h4⟩ := fpackets_mem mask extra (q :: l) _ _ x h
      refine ⟨by simp [h1], h2, h3, ?_⟩
      rw [List.getLast?_cons_cons]
      exact h4

theorem siftAll_sum (mask : List Bool) : ∀ (l : List Part) (u : Nat), (∀ p ∈ l, Full p) →
    totalRows 0 (siftAll mask u l) = (firstCounts mask u l).sum
  | [], _, _ => rfl
  | p :: l, u, h => by
    have ih := siftAll_sum mask l (u + p.rows) (fun q hq => h q (by simp [hq]))
    unfold totalRows at ih ⊢
    rw [siftAll, List.map_cons, List.sum_cons, siftPart_rows (h p (by simp)), firstCounts, List.sum_cons]
    omega

theorem sift_split {b r s : Nat} {mask : List Bool} {x y : List Nat} (hx : x.length = b * r) :
    sift b (mask.take (r + s)) (x ++ y) = sift b (mask.take r) x ++ sift b ((mask.drop r).take s) y := by
  by_cases h : r ≤ mask.length
  · rw [List.take_add, sift_append b _ _ _ _ (by rw [hx, List.length_take, Nat.min_eq_left h])]
  · rw [List.take_of_length_le (by omega), List.take_of_length_le (by omega), List.drop_eq_nil_of_le (by omega)]
    have h1 : sift b mask (x ++ y) = sift b mask x := by
      have h2 : x ++ y = x.take (b * mask.length) ++ (x.drop (b * mask.length) ++ y) := by rw [← List.append_assoc, List.take_append_drop]
      have h3 : ∀ z : List Nat, sift b mask (x.take (b * mask.length) ++ z) = sift b mask (x.take (b * mask.length)) := by
        intro z
        have h4 : (x.take (b * mask.length)).length = b * mask.length := by
          rw [List.length_take, hx]
          exact Nat.min_eq_left (Nat.mul_le_mul_left _ (by omega))
        have := sift_append b mask [] _ z h4
        rw [List.append_nil] at this
        rw [this]
        simp [sift]
      rw [h2, h3, ← h3 (x.drop (b * mask.length)), List.take_append_drop]
    rw [h1]
    simp [sift]

/-- What the files write, row by row. -/
theorem flat_sift {k : Block} {w : Packet → List Nat} {mask : List Bool} :
    ∀ (l : List Part) (o o' u : Nat), (∀ p ∈ l, Full p) → (∀ p ∈ l, ∀ a, (w ⟨a, p.rows, p⟩).length = rowSize k * p.rows) →
    (∀ p ∈ l, ∀ a a' u, w ⟨a', trues mask u p.rows, siftPart mask u p⟩ = sift (rowSize k) ((mask.drop u).take p.rows) (w ⟨a, p.rows, p⟩)) →
    (packets 0 o' (siftAll mask u l)).flatMap w = sift (rowSize k) ((mask.drop u).take (totalRows 0 l)) ((packets 0 o l).flatMap w)
  | [], _, _, _, _, _, _ => by
    rw [siftAll, packets, packets]
    simp [totalRows, sift]
  | p :: l, o, o', u, h0, h1, h2 => by
    have hpk : ∀ (q : Part) (l : List Part) (o : Nat), packets 0 o (q :: l) = ⟨o, q.rows, q⟩ :: packets 0 (o + q.rows) l := by
      intro q l o
      cases l with
      | nil => simp [packets]
      | cons q l => rfl
    have ih := flat_sift l (o + p.rows) (o' + trues mask u p.rows) (u + p.rows) (fun q hq => h0 q (by simp [hq])) (fun q hq => h1 q (by simp [hq]))
      (fun q hq => h2 q (by simp [hq]))
    have htot : totalRows 0 (p :: l) = p.rows + totalRows 0 l := by simp [totalRows]
    rw [siftAll, hpk, hpk, siftPart_rows (h0 p (by simp)), List.flatMap_cons, List.flatMap_cons, htot, sift_split (h1 p (by simp) o),
      List.drop_drop, ← ih, h2 p (by simp) o o' u]

theorem fillAll_sift {k : Block} {mask : List Bool} {w : Packet → List Nat} : ∀ (order : List FPacket) (m : List Nat),
    (∀ x ∈ order, Writes k (toPacket mask x) (w (toPacket mask x)) ∧ rowSize k * x.off + (w (toPacket mask x)).length ≤ m.length ∧
      x.count = trues mask x.orig x.part.rows ∧ (x.gap = x.count ∨ x.part.block ≠ none) ∧
      ∀ b, x.part.block = some b → (compat false k b).2.ok = true ∧ x.part.data.length = x.part.own * rowSize b ∧ (x.part.own = 0 → x.part.len = 0)) →
    fillAllFiltered k mask order m = fillAll k (order.map (toPacket mask)) m
  | [], _, _ => rfl
  | x :: order, m, h => by
    obtain ⟨h1, h2, h3, h4, h5⟩ := h x (by simp)
    have hstep : fillFiltered k mask x m = fill k (toPacket mask x) m := by
      rw [fill_sift (by omega) h3 h5]
      rcases h4 with h4 | h4
      · rw [h4]; rfl
      · have : ∀ g, fill k ⟨x.off, g, siftPart mask x.orig x.part⟩ m = fill k ⟨x.off, x.count, siftPart mask x.orig x.part⟩ m := by
          intro g
          obtain ⟨b, hb⟩ := Option.ne_none_iff_exists'.mp h4
          have hok := (h5 b hb).1
          cases hd : b.dims with
          | nil =>
            rw [siftPart_nil hb hd]
            unfold fill
            rw [hb]
            dsimp only
            rw [hok]
            rfl
          | cons d ds =>
            rw [siftPart_cons hb hd]
            unfold fill
            dsimp only
            rw [compat_dim0 false k b (trues mask x.orig x.part.rows :: ds) (by rw [hd]; rfl) (by rw [hd]; rfl), hok]
            rfl
        exact this x.gap
    rw [fillAllFiltered, List.map_cons, fillAll, hstep, h1 m h2]
    cases hput : put m (rowSize k * (toPacket mask x).off) (w (toPacket mask x)) with
    | none => rfl
    | some m' =>
      dsimp only
      refine fillAll_sift (w := w) order m' ?_
      intro y hy
      have hlen : m'.length = m.length := (put_get hput).1
      rw [hlen]
      exact h y (by simp [hy])

/-- Any column whose files are made row by row. -/
theorem filtered_column {k : Block} {w : Packet → List Nat} {mask : List Bool} {l : List Part} (Good : Part → Prop)
    (hfull : ∀ p, Good p → Full p) (hsift : ∀ p u, Good p → Good (siftPart mask u p))
    (hw : ∀ p a, Good p → Writes k ⟨a, p.rows, p⟩ (w ⟨a, p.rows, p⟩) ∧ (w ⟨a, p.rows, p⟩).length = rowSize k * p.rows)
    (hs : ∀ p a a' u, Good p → w ⟨a', trues mask u p.rows, siftPart mask u p⟩ = sift (rowSize k) ((mask.drop u).take p.rows) (w ⟨a, p.rows, p⟩))
    (hok : ∀ p, Good p → ∀ b, p.block = some b → (compat false k b).2.ok = true ∧ p.data.length = p.own * rowSize b)
    (hl : ∀ p ∈ l, Good p) {extra : Nat} (hlast : extra = 0 ∨ ∀ p, l.getLast? = some p → p.block ≠ none)
    {order : List Packet} (ho : order.Perm (packets 0 0 l)) {m : List Nat} (hm : m.length = rowSize k * totalRows 0 l)
    {order' : List FPacket} (ho' : order'.Perm (fpackets extra 0 0 l (firstCounts mask 0 l))) {m' : List Nat}
    (hm' : m'.length = rowSize k * set mask (totalRows 0 l)) :
    ∃ r, fillAll k order m = some r ∧ fillAllFiltered k mask order' m' = some (selected (rowSize k) mask (totalRows 0 l) r) := by
  have hfl : ∀ p ∈ l, Full p := fun p hp => hfull p (hl p hp)
  have hgood : ∀ (l : List Part) (u : Nat), (∀ p ∈ l, Good p) → ∀ p ∈ siftAll mask u l, Good p := by
    intro l
    induction l with
    | nil => intro u _ p hp; simp [siftAll] at hp
    | cons q l ih =>
      intro u h p hp
      rw [siftAll, List.mem_cons] at hp
      rcases hp with hp | hp
      · rw [hp]; exact hsift q u (h q (by simp))
      · exact ih _ (fun p hp => h p (by simp [hp])) p hp
  have hpw : ∀ (l : List Part), (∀ p ∈ l, Good p) → ∀ x ∈ packets 0 0 l, Writes k x (w x) ∧ (w x).length = rowSize k * x.gap := by
    intro l h x hx
    obtain ⟨x1, _, x3, x4, _⟩ := packets_mem 0 l 0 x hx
    have hg : x.gap = x.part.rows := by omega
    have := hw x.part x.off (h _ x1)
    rw [← hg] at this
    exact this
  refine ⟨_, fillAll_full (hpw l hl) ho hm, ?_⟩
  have htot : totalRows 0 (siftAll mask 0 l) = set mask (totalRows 0 l) := by rw [siftAll_sum mask l 0 hfl, counts_total]
  have hmap := fpackets_map mask extra l 0 0 hfl
  have hfull' := hpw (siftAll mask 0 l) (hgood l 0 hl)
  rw [fillAll_sift (w := w) order' m']
  · rw [fillAll_full hfull' (by rw [← hmap]; exact ho'.map _) (by rw [hm', htot])]
    congr 1
    rw [flat_sift (mask := mask) l 0 0 0 hfl (fun p hp a => (hw p a (hl p hp)).2) (fun p hp a a' u => hs p a a' u (hl p hp)), sift_pick_mask]
    unfold pickRows selected
    simp only [Nat.zero_add]
  · intro x hx
    have hx' := ho'.mem_iff.mp hx
    obtain ⟨x1, x2, x3, x4⟩ := fpackets_mem mask extra l 0 0 x hx'
    have hpm : toPacket mask x ∈ packets 0 0 (siftAll mask 0 l) := by rw [← hmap]; exact List.mem_map_of_mem hx'
    obtain ⟨y1, y2⟩ := hfull' _ hpm
    obtain ⟨_, _, _, _, z5⟩ := packets_mem 0 _ 0 _ hpm
    rw [htot, Nat.zero_add] at z5
    refine ⟨y1, ?_, x2, ?_, ?_⟩
    · rw [y2, hm']
      have := Nat.mul_le_mul_left (rowSize k) z5
      rw [Nat.mul_add] at this
      exact this
    · rcases hlast with hlast | hlast
      · left; omega
      · rcases x4 with x4 | x4
        · exact .inl x4
        · exact .inr (hlast _ x4)
    · intro b hb
      obtain ⟨c1, c2⟩ := hok x.part (hl _ x1) b hb
      exact ⟨c1, c2, hfl _ x1 (by rw [hb]; simp)⟩

/-! ### Numbers -/

/-- A file with numbers that fit a column. -/
structure NumPart (k : Block) (p : Part) : Prop where
  block : ∀ b, p.block = some b → Num b ∧ b.type ≠ 13 ∧ k.dims.length = b.dims.length ∧ k.dims.drop 1 = b.dims.drop 1 ∧
    (inside b.type k.type || lossy b.type k.type) = true ∧ p.data.length = p.own * rowSize b ∧ (b.type = 0 → ∀ y ∈ p.data, y ≤ 1)
  full : Full p
  gap : p.block = none → cols k * p.rows < 2 ^ 31

theorem trues_le (mask : List Bool) (u n : Nat) : trues mask u n ≤ n := by
  rw [trues_eq]
  refine Nat.le_trans List.count_le_length ?_
  rw [List.length_take]
  omega

/-- What is left of a file: as many bytes as rows. -/
theorem siftPart_data {mask : List Bool} {u : Nat} {p : Part} {b b' : Block} (hb : p.block = some b) (hd : p.data.length = p.own * rowSize b) (hf : Full p)
    (hb' : (siftPart mask u p).block = some b') :
    (siftPart mask u p).data.length = (siftPart mask u p).own * rowSize b' ∧ (∀ y ∈ (siftPart mask u p).data, y ∈ p.data) ∧
      b'.dtype = b.dtype ∧ b'.item = b.item ∧ b'.type = b.type ∧ b'.dims.length = b.dims.length ∧ b'.dims.drop 1 = b.dims.drop 1 ∧ Full (siftPart mask u p) := by
  cases hdm : b.dims with
  | nil =>
    rw [siftPart_nil hb hdm] at hb' ⊢
    rw [hb] at hb'
    cases hb'
    exact ⟨hd, fun _ h => h, rfl, rfl, rfl, by rw [hdm], by rw [hdm], hf⟩
  | cons d ds =>
    rw [siftPart_cons hb hdm] at hb' ⊢
    cases hb'
    have hown : p.own = d := by unfold Part.own; rw [hb]; dsimp only; rw [hdm]; rfl
    have hr : p.rows = p.own := by
      unfold Part.rows
      split
      · rename_i h0
        rw [hf (by rw [hb]; simp) h0, h0]
      · rfl
    refine ⟨?_, fun y hy => sift_mem _ _ y hy, rfl, rfl, rfl, rfl, rfl, fun _ h => h⟩
    have hrs : rowSize { b with dims := trues mask u p.rows :: ds } = rowSize b := by unfold rowSize cols; dsimp only; rw [hdm]; rfl
    rw [hrs]
    show (sift (rowSize b) ((mask.drop u).take p.rows) p.data).length = trues mask u p.rows * rowSize b
    rw [sift_length, trues_eq]
    rw [hd, hr]
    refine Nat.mul_le_mul_right _ ?_
    rw [List.length_take]
    omega

theorem siftPart_some {mask : List Bool} {u : Nat} {p : Part} {b' : Block} (h : (siftPart mask u p).block = some b') : ∃ b, p.block = some b := by
  cases hb : p.block with
  | none => rw [siftPart_none hb] at h; cases h
  | some b => exact ⟨b, rfl⟩

theorem siftPart_gap {mask : List Bool} {u : Nat} {p : Part} (h : (siftPart mask u p).block = none) : p.block = none := by
  cases hb : p.block with
  | none => rfl
  | some b =>
    cases hd : b.dims with
    | nil => rw [siftPart_nil hb hd, hb] at h; cases h
    | cons d ds => rw [siftPart_cons hb hd] at h; cases h

theorem siftPart_full {mask : List Bool} {u : Nat} {p : Part} (h : Full p) : Full (siftPart mask u p) := by
  cases hb : p.block with
  | none => rw [siftPart_none hb]; intro h; exact absurd rfl h
  | some b =>
    cases hd : b.dims with
    | nil => rw [siftPart_nil hb hd]; exact h
    | cons d ds => rw [siftPart_cons hb hd]; exact fun _ h => h

theorem NumPart.sift {k : Block} {p : Part} (h : NumPart k p) (mask : List Bool) (u : Nat) : NumPart k (siftPart mask u p) := by
  refine ⟨?_, siftPart_full h.full, ?_⟩
  · intro b' hb'
    obtain ⟨b, hb⟩ := siftPart_some hb'
    obtain ⟨b1, b2, b3, b4, b5, b6, b7⟩ := h.block b hb
    obtain ⟨c1, c2, c3, c4, c5, c6, c7, _⟩ := siftPart_data hb b6 h.full hb'
    refine ⟨⟨by rw [c5]; exact b1.type, by rw [c4, c5]; exact b1.item⟩, by rw [c5]; exact b2, by rw [c6]; exact b3, by rw [c7]; exact b4, by rw [c5]; exact b5, c1, ?_⟩
    rw [c5]
    exact fun h0 y hy => b7 h0 y (c2 y hy)
  · intro hb
    rw [siftPart_rows h.full]
    exact Nat.lt_of_le_of_lt (Nat.mul_le_mul_left _ (trues_le _ _ _)) (h.gap (siftPart_gap hb))

theorem own_rows {p : Part} (hf : Full p) (hb : p.block ≠ none) : p.rows = p.own := by
  unfold Part.rows
  split
  · rename_i h0
    rw [hf hb h0, h0]
  · rfl

/-- The bytes of a gap are made row by row. -/
theorem gap_sift {k : Block} {mask : List Bool} {u n : Nat} (h : cols k * n < 2 ^ 31) :
    (gapFill k (trues mask u n)).getD [] = sift (rowSize k) ((mask.drop u).take n) ((gapFill k n).getD []) := by
  obtain ⟨l, hl⟩ := gapFill_some h
  obtain ⟨r, r1, r2, r3⟩ := gap_rows hl
  rw [hl, r3 _ (trues_le _ _ _), Option.getD_some, Option.getD_some, r2,
    sift_mapRows (fun _ _ => r1) _ _ _ (by rw [List.length_take]; omega) (by rw [List.length_replicate]; exact Nat.le_refl _), sift_replicate, ← trues_eq]
  rw [List.length_take]
  exact Nat.mul_le_mul_right _ (by omega)

theorem num_full {k : Block} {p : Part} (hk : Num k) (h13 : k.type ≠ 13) (h : NumPart k p) (a : Nat) : (numBytes k ⟨a, p.rows, p⟩).length = rowSize k * p.rows := by
  unfold numBytes
  dsimp only
  cases hb : p.block with
  | none =>
    dsimp only
    obtain ⟨l, hl⟩ := gapFill_some (h.gap hb)
    rw [hl, Option.getD_some, gapFill_length hl]
  | some b =>
    dsimp only
    obtain ⟨b1, b2, b3, b4, b5, b6, b7⟩ := h.block b hb
    have hr := own_rows h.full (by rw [hb]; simp)
    have hc : cols k = cols b := by unfold cols; rw [b4]
    obtain ⟨c, c1, c2⟩ := item_size _ b1.type b2
    obtain ⟨a, a1, a2⟩ := item_size _ hk.type h13
    have hc0 := item_widths c1
    have hbi : b.item = c.size := by rw [b1.item, c2]
    have hki : k.item = a.size := by rw [hk.item, a2]
    split
    · rename_i hz
      rcases hz with hz | hz
      · rw [hr, hz]; rfl
      · unfold rowSize at hz ⊢
        rw [hc]
        rcases Nat.mul_eq_zero.mp hz with h0 | h0
        · omega
        · rw [h0]; simp
    · split
      · rename_i he
        have : k.item = b.item := by rw [hk.item, b1.item, he]
        rw [b6, hr]
        unfold rowSize
        rw [this, hc, Nat.mul_comm]
      · rw [c1, a1]
        dsimp only
        rw [converted_length, hr]
        unfold rowSize
        rw [hki, hc, Nat.mul_comm, Nat.mul_comm _ (cols b), Nat.mul_assoc]

theorem num_sift {k : Block} {p : Part} (hk : Num k) (h13 : k.type ≠ 13) (h : NumPart k p) (mask : List Bool) (a a' u : Nat) :
    numBytes k ⟨a', trues mask u p.rows, siftPart mask u p⟩ = sift (rowSize k) ((mask.drop u).take p.rows) (numBytes k ⟨a, p.rows, p⟩) := by
  have hfull := num_full hk h13 h a
  cases hb : p.block with
  | none =>
    rw [siftPart_none hb]
    unfold numBytes
    dsimp only
    rw [hb]
    exact gap_sift (h.gap hb)
  | some b =>
    obtain ⟨b1, b2, b3, b4, b5, b6, b7⟩ := h.block b hb
    have hr := own_rows h.full (by rw [hb]; simp)
    have hc : cols k = cols b := by unfold cols; rw [b4]
    obtain ⟨c, c1, c2⟩ := item_size _ b1.type b2
    obtain ⟨a2, a1, a3⟩ := item_size _ hk.type h13
    have hc0 := item_widths c1
    have hbi : b.item = c.size := by rw [b1.item, c2]
    have hki : k.item = a2.size := by rw [hk.item, a3]
    cases hd : b.dims with
    | nil =>
      rw [siftPart_nil hb hd]
      have h0 : p.own = 0 := by unfold Part.own; rw [hb]; dsimp only; rw [hd]; rfl
      unfold numBytes
      dsimp only
      rw [hb]
      dsimp only
      rw [if_pos (.inl h0), sift_nil]
    | cons d ds =>
      by_cases ht : trues mask u p.rows = 0
      · have hz : (sift (rowSize k) ((mask.drop u).take p.rows) (numBytes k ⟨a, p.rows, p⟩)) = [] := by
          refine List.eq_nil_of_length_eq_zero ?_
          rw [sift_length, ← trues_eq, ht, Nat.zero_mul]
          rw [hfull, Nat.mul_comm, List.length_take]
          exact Nat.mul_le_mul_left _ (by omega)
        rw [hz, siftPart_cons hb hd]
        unfold numBytes
        dsimp only
        rw [if_pos (.inl ht)]
      · have hrs : rowSize { b with dims := trues mask u p.rows :: ds } = rowSize b := by unfold rowSize cols; dsimp only; rw [hd]; rfl
        have hcl : cols { b with dims := trues mask u p.rows :: ds } = cols b := by unfold cols; dsimp only; rw [hd]; rfl
        have hty : ({ b with dims := trues mask u p.rows :: ds } : Block).type = b.type := rfl
        have hown' : (Part.mk (some { b with dims := trues mask u p.rows :: ds })
          (sift (rowSize b) ((mask.drop u).take p.rows) p.data) (trues mask u p.rows)).own = trues mask u p.rows := rfl
        have hp0 : p.own ≠ 0 := by
          intro h0
          have := trues_le mask u p.rows
          omega
        rw [siftPart_cons hb hd]
        unfold numBytes
        dsimp only
        rw [hb]
        dsimp only
        rw [hrs, hcl, hty, hown']
        by_cases hz : rowSize b = 0
        · rw [if_pos (.inr hz), if_pos (.inr hz), sift_nil]
        · rw [if_neg (show ¬(trues mask u p.rows = 0 ∨ rowSize b = 0) by omega), if_neg (show ¬(p.own = 0 ∨ rowSize b = 0) by omega)]
          by_cases he : k.type = b.type
          · rw [if_pos he, if_pos he]
            have : k.item = b.item := by rw [hk.item, b1.item, he]
            congr 1
            unfold rowSize
            rw [this, hc]
          · rw [if_neg he, if_neg he, c1, a1]
            dsimp only
            have hrb : rowSize b = c.size * cols b := by unfold rowSize; rw [hbi]
            have hlen : p.own * (c.size * cols b) ≤ p.data.length := by rw [b6, hrb]; exact Nat.le_refl _
            rw [converted_rows p.own p.data hlen, sift_mapRows (b' := rowSize k) _ _ _ _ (by rw [List.length_take]; omega) hlen, ← trues_eq,
              converted_rows, hrb]
            · rw [hrb, sift_length, ← trues_eq]
              · exact Nat.le_refl _
              · refine Nat.le_trans (Nat.mul_le_mul_right _ ?_) hlen
                rw [List.length_take]
                omega
            · intro r _
              rw [converted_length]
              unfold rowSize
              rw [hki, hc, Nat.mul_comm]

/-- Whatever the orders in which the files are read, a column of numbers that is stacked with a mask has the rows of the stacked column at which the mask
is set, if no rows are reserved or the last file has the column.  Missing for a full theorem: reserved rows, Fortran order, and lengths which differ within
a file. -/
theorem filtered_numbers_partial {l : List Part} {tail : List Nat} {n extra : Nat} (h : Stackable l tail n) (hn : ∀ b ∈ blocks l, Num b ∧ b.type ≠ 13)
    (hbool : ∀ p ∈ l, ∀ b, p.block = some b → b.type = 0 → ∀ y ∈ p.data, y ≤ 1) (hgap : ∀ p ∈ l, p.block = none → width tail * p.rows < 2 ^ 31)
    (mask : List Bool) (hlast : extra = 0 ∨ ∀ p, l.getLast? = some p → p.block ≠ none) :
    ∃ k, king (blocks l) = some k ∧ rowSize k = k.item * width tail ∧
      ∀ order, order.Perm (packets 0 0 l) → ∀ m : List Nat, m.length = rowSize k * totalRows 0 l →
      ∀ order', order'.Perm (fpackets extra 0 0 l (firstCounts mask 0 l)) → ∀ m' : List Nat, m'.length = rowSize k * set mask (totalRows 0 l) →
        ∃ r, fillAll k order m = some r ∧ fillAllFiltered k mask order' m' = some (selected (rowSize k) mask (totalRows 0 l) r) := by
  obtain ⟨k, k1, k2, k3, k4, k5⟩ := king_num h.present (fun b hb => (hn b hb).1) h.shape
  have htypes : ∀ t ∈ (blocks l).map Block.type, t ∈ numTypes ∧ t ≠ 13 := by
    intro t ht
    obtain ⟨b, hb, rfl⟩ := List.mem_map.mp ht
    exact ⟨(hn b hb).1.type, (hn b hb).2⟩
  have k13 : k.type ≠ 13 := by
    cases hl : (blocks l).map Block.type with
    | nil => rw [hl] at k2; cases k2
    | cons t ts =>
      rw [hl] at k2 htypes
      have : k.type = ts.foldl join t := (Option.some.inj k2).symm
      rw [this]
      exact fold_closed ts t (fun u hu => htypes u (by simp [hu])) (htypes t (by simp)).1 (htypes t (by simp)).2
  have hrel := (joinAll_rel (fun t ht => (htypes t ht).1) k2 (fun t k => inside t k || lossy t k) (fun t ht => by simp [inside_refl t ht]) inside_join).2
  have hck : cols k = width tail := by unfold cols width; rw [k5]
  refine ⟨k, k1, by unfold rowSize; rw [hck], ?_⟩
  intro order ho m hm order' ho' m' hm'
  refine filtered_column (w := numBytes k) (NumPart k) (fun p hp => hp.full) (fun p u hp => hp.sift mask u) ?_ (fun p a a' u hp => num_sift k3 k13 hp mask a a' u)
    ?_ ?_ hlast ho hm ho' hm'
  · intro p a hp
    exact ⟨(num_writes k3 k13 hp.gap (Nat.le_refl _) hp.block).1, num_full k3 k13 hp a⟩
  · intro p hp b hb
    obtain ⟨b1, b2, b3, b4, b5, b6, b7⟩ := hp.block b hb
    exact ⟨(compat_flags_num k3 b1 b3 b4).1, b6⟩
  · intro p hp
    refine ⟨?_, fun hb h0 => h.empty p hp hb h0, fun hb => by rw [hck]; exact hgap p hp hb⟩
    intro b hb
    have hbl : b ∈ blocks l := mem_blocks.mpr ⟨p, hp, hb⟩
    refine ⟨(hn b hbl).1, (hn b hbl).2, ?_, ?_, hrel _ (List.mem_map_of_mem hbl), (h.bytes p hp b hb).1, hbool p hp b hb⟩
    · rw [k4, h.shape.len b hbl]
    · rw [k5, h.shape.tail b hbl]

end Riptide.Stack
